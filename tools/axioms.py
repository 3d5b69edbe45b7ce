#!/usr/bin/env python3
"""Write /verif/AXIOMS.md: the axioms of every theorem named in MANIFEST.json (run after `lake build`)."""
import json, os, re, subprocess, tempfile
root = os.path.join(os.path.dirname(os.path.abspath(__file__)), "..")
claims = json.load(open(os.path.join(root, "MANIFEST.json")))["claims"]
names = [(c["property"], t) for c in claims for t in c["theorems"]]
with tempfile.NamedTemporaryFile("w", suffix=".lean", delete=False) as f:
    f.write("import Verif\n" + "".join("#print axioms %s\n" % t for _, t in names))
out = subprocess.run(["lake", "env", "lean", f.name], cwd=os.path.join(root, "lean"), capture_output=True, text=True).stdout
os.unlink(f.name)
ax = {}
for m in re.finditer(r"'([^']+)' (?:depends on axioms: \[([^\]]*)\]|does not depend on any axioms)", out):
    ax[m.group(1)] = sorted(a.strip() for a in (m.group(2) or "").split(",") if a.strip())
lines = ["# Axioms per theorem", "", "Output of `#print axioms` (written by `tools/axioms.py`).", "",
         "| property | theorem | axioms |", "|---|---|---|"]
for p, t in names:
    lines.append("| %s | `%s` | %s |" % (p, t, ", ".join(ax[t]) or "none"))
used = sorted({a for v in ax.values() for a in v})
lines += ["", "All axioms used: " + ", ".join(used) + "."]
open(os.path.join(root, "AXIOMS.md"), "w").write("\n".join(lines) + "\n")
print(used)
