#!/usr/bin/env python3
"""Write AXIOMS.md: the axioms every property theorem depends on (needs a built project)."""
import glob, os, re, subprocess, tempfile

ROOT = os.path.dirname(os.path.dirname(os.path.abspath(__file__)))
names = []
for path in sorted(glob.glob(os.path.join(ROOT, "lean/Verif/Props/*.lean"))):
    names += ["Infrared." + m for m in re.findall(r"^theorem (C\d\d+_\w+)", open(path).read(), re.M)]
names.sort()
with tempfile.NamedTemporaryFile("w", suffix=".lean", delete=False) as f:
    f.write("import Verif\n" + "".join(f"#print axioms {n}\n" for n in names))
out = subprocess.run(["lake", "env", "lean", f.name], cwd=os.path.join(ROOT, "lean"),
                     capture_output=True, text=True).stdout
found = {}
for m in re.finditer(r"'([\w.]+)' (?:depends on axioms: \[([^\]]*)\]|(does not depend on any axioms))", out):
    found[m.group(1)] = re.sub(r"\s+", " ", m.group(2) or "none")
assert set(found) == set(names), set(names) - set(found)
with open(os.path.join(ROOT, "AXIOMS.md"), "w") as f:
    f.write("# Axioms used by each property theorem\n\n"
            "Written by `tools/axioms.py` from `#print axioms`.\n\n| theorem | axioms |\n|---|---|\n")
    for n in names:
        f.write(f"| `{n}` | {found[n]} |\n")
print(len(names), sorted({a for v in found.values() for a in v.split(", ")}))
