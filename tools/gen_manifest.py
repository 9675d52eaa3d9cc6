#!/usr/bin/env python3
"""Writes MANIFEST.json. Each entry: id -> (status, [theorems], note)."""
import json, os
here = os.path.dirname(os.path.abspath(__file__))
from manifest_data import M
ids = [json.loads(l)["id"] for l in open(os.path.join(here, "..", "properties.jsonl"))]
out = {"claims": [{"property": i, "status": M[i][0], "theorems": M[i][1], "note": M[i][2]} for i in ids if i in M]}
json.dump(out, open(os.path.join(here, "..", "MANIFEST.json"), "w"), indent=1)
missing = [i for i in ids if i not in M]
print("missing:", missing)
