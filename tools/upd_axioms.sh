#!/bin/sh
# Replaces the list in section 6 of DESIGN.md by the output of gen_axioms.py.
cd "$(dirname "$0")/.." || exit 1
python3 tools/gen_axioms.py > /tmp/axioms.all || exit 1
grep '^\*' /tmp/axioms.all > /tmp/axioms.txt
python3 - <<'PY'
s = open("DESIGN.md").read().split("\n")
new = open("/tmp/axioms.txt").read().rstrip("\n").split("\n")
idx = [i for i, l in enumerate(s) if l.startswith("* propext")]
s[idx[0]:idx[-1] + 1] = new
open("DESIGN.md", "w").write("\n".join(s))
PY
