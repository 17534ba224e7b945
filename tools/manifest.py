#!/usr/bin/env python3
"""Regenerate MANIFEST.json from the theorems in lean/Verif/Props.

Every theorem there is named after its property (C01_...).  A property is `partial`
when listed in PARTIAL or when no theorem exists for it yet.
"""
import glob, json, os, re

ROOT = os.path.dirname(os.path.dirname(os.path.abspath(__file__)))
exec(open(os.path.join(ROOT, "tools", "notes.py")).read())

names = {}
for path in sorted(glob.glob(os.path.join(ROOT, "lean/Verif/Props/*.lean"))):
    for m in re.finditer(r"^theorem ((C\d\d+)_\w+)", open(path).read(), re.M):
        names.setdefault(m.group(2), []).append("Infrared." + m.group(1))
claims = []
for line in open(os.path.join(ROOT, "properties.jsonl")):
    pid = json.loads(line)["id"]
    ths = names.get(pid, [])
    status = "partial" if pid in PARTIAL or not ths else "proved"
    note = NOTES.get(pid, "") or ("" if ths else "not proved yet")
    claims.append({"property": pid, "status": status, "theorems": ths, "note": note})
json.dump({"claims": claims}, open(os.path.join(ROOT, "MANIFEST.json"), "w"), indent=1)
print(sum(c["status"] == "proved" for c in claims), "proved of", len(claims))
