#!/usr/bin/env python3
"""Appends mutation results (JSON lines written by the scratch runner) to seeded/LOG.jsonl.
usage: mklog.py results.jsonl ...  Entries already in the log (same definition, edit, status) are skipped."""
import json, os, sys
here = os.path.dirname(os.path.dirname(os.path.abspath(__file__)))
LOG = os.path.join(here, "seeded", "LOG.jsonl")
TIGHT = json.load(open(os.path.join(here, "seeded", "tightened.json"))) if os.path.exists(os.path.join(here, "seeded", "tightened.json")) else {}
old = set()
rows = []
if os.path.exists(LOG):
    for l in open(LOG):
        if l.strip():
            r = json.loads(l); rows.append(r); old.add((r["definition"], r["edit"], r["outcome"]))
for f in sys.argv[1:]:
    for l in open(f):
        r = json.loads(l)
        if r["status"] in ("BADPATCH", "timeout"): continue
        t = TIGHT.get(r["key"], {})
        e = {"definition": r["defn"], "file": r["file"], "edit": r["edit"], "claim_broken": r["claim"],
             "outcome": r["status"], "theorems_failed": r["failed"],
             "theorems_tightened": t.get("tightened", []) if r["status"] == "survived" else [],
             "note": t.get("note", "") if r["status"] == "survived" else ""}
        k = (e["definition"], e["edit"], e["outcome"])
        if k in old: continue
        old.add(k); rows.append(e)
with open(LOG, "w") as g:
    for r in rows: g.write(json.dumps(r) + "\n")
print(len(rows), "entries;", sum(r["outcome"] == "survived" for r in rows), "survived")
