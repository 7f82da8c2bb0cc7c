"""Print the axioms of all theorems in MANIFEST.json, grouped (for section 6 of DESIGN.md). Run after lake build."""
import collections
import json
import os
import re
import subprocess
import tempfile

root = os.path.join(os.path.dirname(os.path.abspath(__file__)), "..")
names = []
for c in json.load(open(os.path.join(root, "MANIFEST.json")))["claims"]:
    for t in c["theorems"]:
        if t not in names:
            names.append(t)
with tempfile.NamedTemporaryFile("w", suffix=".lean", delete=False) as f:
    f.write("import Verif\n" + "\n".join(f"#print axioms {n}" for n in names) + "\n")
out = subprocess.run(["lake", "env", "lean", f.name], cwd=os.path.join(root, "lean"), capture_output=True, text=True).stdout
out = re.sub(r"\n\s+", " ", out)
groups = collections.defaultdict(list)
for m in re.finditer(r"'Skill\.(\S+)' (depends on axioms: \[(.*?)\]|does not depend on any axioms)", out):
    groups[m.group(3) or "none"].append(m.group(1))
assert sum(map(len, groups.values())) == len(names), (sum(map(len, groups.values())), len(names))
for k, v in sorted(groups.items(), key=lambda kv: len(kv[1])):
    print(f"* {k}: " + ", ".join(v) + ".")
