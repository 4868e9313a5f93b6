#!/usr/bin/env python3
"""Regenerates lean/Verif.lean (imports of all modules) and MANIFEST.json (property theorems found in Verif/Props)."""
import json, os, re
ROOT = os.path.dirname(os.path.dirname(os.path.abspath(__file__)))
LEAN = os.path.join(ROOT, "lean")
mods = []
for dp, dn, fn in os.walk(os.path.join(LEAN, "Verif")):
    for f in fn:
        if f.endswith(".lean"):
            rel = os.path.relpath(os.path.join(dp, f), LEAN)[:-5]
            mods.append(rel.replace(os.sep, "."))
order = ["Py", "Model", "Spec", "Lemmas", "Props", "Axioms"]
if "Verif.Axioms" not in mods:
    mods.append("Verif.Axioms")
mods.sort(key=lambda m: (order.index(m.split(".")[1]), m))
with open(os.path.join(LEAN, "Verif.lean"), "w") as out:
    out.write("".join("import %s\n" % m for m in mods))
notes = json.load(open(os.path.join(ROOT, "tools", "notes.json")))
# without a note of its own, a property is described by its row of the plan in DESIGN.md
plan, last = {}, ""
for line in open(os.path.join(ROOT, "DESIGN.md")):
    cells = [c.strip() for c in line.strip().strip("|").split(" | ")]
    if not re.match(r"\| C\d", line) or len(cells) < 3:
        continue
    last = last if cells[1] == "same" else cells[1]
    for part in cells[0].split(","):
        ends = [int(n) for n in re.findall(r"C(\d+)", part)]
        for n in range(ends[0], ends[-1] + 1):
            plan["C%02d" % n] = "Subject: %s. Proof: %s." % (last, " | ".join(cells[2:]))
thms = {}
for m in mods:
    if not m.startswith("Verif.Props."):
        continue
    ns = []
    for line in open(os.path.join(LEAN, m.replace(".", os.sep) + ".lean")):
        g = re.match(r"namespace (\S+)", line)
        if g:
            ns.append(g.group(1))
        g = re.match(r"end (\S+)", line)
        if g and ns and ns[-1] == g.group(1):
            ns.pop()
        g = re.match(r"theorem (C(\d\d\d?)_\S+)", line)
        if g:
            thms.setdefault("C" + g.group(2), []).append(".".join(ns + [g.group(1)]))
with open(os.path.join(LEAN, "Verif", "Axioms.lean"), "w") as out:
    out.write("".join("import %s\n" % m for m in mods if m.startswith("Verif.Props.")))
    out.write("/-! The axioms every property theorem depends on (written by `tools/sync.py`). -/\n")
    for p in sorted(thms):
        out.write("".join("#print axioms %s\n" % t for t in thms[p]))
props = [json.loads(l)["id"] for l in open(os.path.join(ROOT, "properties.jsonl"))]
claims = []
for p in props:
    n = notes.get(p, {})
    t = thms.get(p, [])
    status = n.get("status") or ("proved" if t and not any(x.endswith("_partial") for x in t) else "partial")
    claims.append({"property": p, "status": status, "theorems": t, "note": n.get("note", plan.get(p, "") if t else "not done yet")})
json.dump({"claims": claims}, open(os.path.join(ROOT, "MANIFEST.json"), "w"), indent=1)
print({s: sum(c["status"] == s for c in claims) for s in ("proved", "partial", "not_applicable")},
      "without theorems:", [c["property"] for c in claims if not c["theorems"]])
