"""Adds results of mutate.py to seeded/LOG.jsonl: seeded.py OUT.jsonl [TIGHTENED.json]

TIGHTENED.json maps ids of wrong programs that were not noticed at first to the theorems added or tightened because of them.
"""
import json
import os
import sys

LOG = os.path.join(os.path.dirname(os.path.abspath(__file__)), "..", "seeded", "LOG.jsonl")
tightened = json.load(open(sys.argv[2])) if len(sys.argv) > 2 else {}
with open(LOG, "a") as log:
    for line in open(sys.argv[1]):
        r = json.loads(line)
        rec = {"id": r["id"], "definition": r["definition"], "file": "lean/" + r["file"], "edit": r["edit"], "claim": r["claim"],
               "result": "equivalent program" if r["claim"].startswith("equivalent") and r["built"] else
                         "equivalent program; proofs have to be changed" if r["claim"].startswith("equivalent") else
                         "not noticed at first" if r["id"] in tightened else "not noticed" if r["built"] else "noticed",
               "failed": r["failed_directly"], "theorems_failed": r["property_theorems_failed"],
               "tightened": tightened.get(r["id"], [])}
        log.write(json.dumps(rec, ensure_ascii=False) + "\n")
