#!/usr/bin/env python3
"""usage: seed.py FILE.out [definition=theorem,...]: append mutation results to seeded/LOG.jsonl; the optional arguments name the
theorems that were tightened after the mutation of that definition had survived."""
import json, sys
t = dict(a.split("=") for a in sys.argv[2:])
with open("/verif/seeded/LOG.jsonl", "a") as o:
    for l in open(sys.argv[1]):
        r = json.loads(l)
        tt = t.get(r["definition"] + "/" + r["edit"]) or (None if r["theorems_failed"] else t.get(r["definition"]))
        o.write(json.dumps({"definition": r["definition"], "edit": r["edit"], "claim": r["claim"],
                            "failing_declarations": r["failing_declarations"], "theorems_failed": r["theorems_failed"],
                            "tightened": tt.split(",") if tt else []}, ensure_ascii=False) + "\n")
