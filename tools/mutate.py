#!/usr/bin/env python3
"""Mutation runner.  usage: mutate.py FILE.json   (a list of {file, old, new, definition, edit, claim})

Each mutation is applied to a scratch copy of the Lean project in /tmp/mut, which is rebuilt; the declarations in which errors are reported
are collected, and the property theorems (Cnn_...) that depend on one of them.  One JSON line per mutation is appended to FILE.out."""
import json, os, re, subprocess, sys
SRC, DST = "/verif/lean", "/tmp/mut/lean"

def sync():
    if not os.path.exists(DST):
        subprocess.run(["cp", "-r", SRC, DST], check=True)
    subprocess.run("rm -rf Verif Verif.lean && cp -r %s/Verif %s/Verif.lean ." % (SRC, SRC), shell=True, cwd=DST, check=True)

DEPS = """
import Verif
open Lean
def dumpDeps (env : Environment) : CoreM Unit := do
  let mut out : Array Json := #[]
  for (n, c) in env.constants.map₁.toList do
    if (env.getModuleIdxFor? n).any (fun i => (`Verif).isPrefixOf (env.header.moduleNames[i.toNat]!)) then
      let ds := (c.type.getUsedConstants ++ (match c.value? (allowOpaque := true) with | some v => v.getUsedConstants | none => #[])).toList.eraseDups
      let md := (env.getModuleIdxFor? n).elim "" (fun i => (env.header.moduleNames[i.toNat]!).toString)
      out := out.push (.arr #[.str n.toString, .arr (ds.map (fun d => Json.str d.toString)).toArray, .str md])
  IO.FS.writeFile "/tmp/mut/deps.json" (Json.arr out).compress
#eval do dumpDeps (← getEnv)
"""

def deps():
    open("/tmp/mut/deps.lean", "w").write(DEPS)
    subprocess.run(["lake", "env", "lean", "/tmp/mut/deps.lean"], cwd=DST, check=True)
    raw = json.load(open("/tmp/mut/deps.json"))
    g = {n: ds for n, ds, md in raw}
    where = {n: md for n, ds, md in raw}
    props = [n for n in g if re.search(r"(^|\.)C\d\d\d?_", n) and "." not in re.split(r"\.(?=C\d\d)", n)[-1] and not n.split(".")[-1].startswith("_")]
    reach = {}
    for p in props:
        seen, todo = set(), [p]
        while todo:
            x = todo.pop()
            if x in seen: continue
            seen.add(x)
            todo += g.get(x, [])
        reach[p] = seen
    return reach, where

def enclosing(path, line):
    ls = open(path).read().split("\n")
    for i in range(min(line, len(ls)) - 1, -1, -1):
        m = re.match(r"(?:@\[[^\]]*\] *)?(?:private |protected |noncomputable )*(theorem|def|example|lemma|instance|structure|inductive|abbrev)\s*([^\s:({\[]*)", ls[i])
        if m:
            return m.group(2) if m.group(1) != "example" else f"example@{os.path.basename(path)}:{i+1}"
    return "?"

def block(path, line):
    """The names declared in the mutual block around the line (none outside of such blocks): they fail together."""
    ls = open(path).read().split("\n")
    a = next((i for i in range(min(line, len(ls)) - 1, -1, -1) if re.match(r"(mutual|end)\s*$", ls[i])), None)
    if a is None or not ls[a].startswith("mutual"): return []
    b = next((i for i in range(a, len(ls)) if re.match(r"end\s*$", ls[i])), len(ls))
    return [m.group(1) for l in ls[a:b] for m in [re.match(r"(?:theorem|def)\s+([^\s:({\[]+)", l)] if m]

def main(f):
    muts = json.load(open(f))
    sync()
    subprocess.run(["lake", "build"], cwd=DST, stdout=subprocess.DEVNULL, stderr=subprocess.DEVNULL)
    reach, where = deps()
    out = f.replace(".json", "") + ".out"
    for m in muts:
        p = f"{DST}/Verif/{m['file']}"
        s = open(f"{SRC}/Verif/{m['file']}").read()
        n = s.count(m["old"])
        if n != 1 and not m.get("all"):
            print("BAD MUTATION", n, m["definition"], m["edit"]); continue
        open(p, "w").write(s.replace(m["old"], m["new"]))
        r = subprocess.run(["lake", "build"], cwd=DST, stdout=subprocess.PIPE, stderr=subprocess.STDOUT, text=True)
        failed, files, hits = [], set(), []
        for l in r.stdout.split("\n"):
            e = re.match(r"error: (Verif/\S+\.lean):(\d+):\d+", l)
            if e:
                files.add(e.group(1))
                d = enclosing(f"{DST}/{e.group(1)}", int(e.group(2)))
                if d not in failed: failed.append(d)
                hits += [(e.group(1)[:-5].replace("/", "."), x) for x in [d] + block(f"{DST}/{e.group(1)}", int(e.group(2)))]
        bad = {x for x, md in where.items() if any(md == f and (x == d or x.endswith("." + d)) for f, d in hits)}
        thms = sorted({q.split(".")[-1] for q, rs in reach.items() if rs & bad})
        m2 = dict(definition=m["definition"], edit=m["edit"], claim=m["claim"], failing_declarations=failed[:12], theorems_failed=thms, modules=sorted(files))
        open(out, "a").write(json.dumps(m2, ensure_ascii=False) + "\n")
        print(json.dumps(m2, ensure_ascii=False), flush=True)
        open(p, "w").write(s)

main(sys.argv[1])
