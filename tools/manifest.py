#!/usr/bin/env python3
"""Generates MANIFEST.json. One line per property: (id, status, theorems, note)."""
import json, os
C = []
def c(pid, status, theorems, note=""):
    C.append({"property": pid, "status": status, "theorems": theorems, "note": note})
exec(open(os.path.join(os.path.dirname(__file__), "claims.py")).read())
json.dump({"claims": C}, open("/verif/MANIFEST.json", "w"), indent=1)
