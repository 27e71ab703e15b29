#!/usr/bin/env python3
"""Writes AXIOMS.txt: the axioms every theorem in MANIFEST.json depends on, as Lean reports them (needs `lake build` first)."""
import json, os, re, subprocess, tempfile, collections
root = os.path.join(os.path.dirname(os.path.abspath(__file__)), "..")
ts = [t for c in json.load(open(os.path.join(root, "MANIFEST.json")))["claims"] for t in c["theorems"]]
with tempfile.NamedTemporaryFile("w", suffix=".lean", delete=False) as f:
    f.write("import Verif\n" + "".join(f"#print axioms {t}\n" for t in ts))
out = subprocess.run(["lake", "env", "lean", f.name], cwd=os.path.join(root, "lean"), capture_output=True, text=True).stdout
ax = {}
for m in re.finditer(r"'([^']+)' (does not depend on any axioms|depends on axioms: \[([^\]]*)\])", out, re.S):
    ax[m.group(1)] = ", ".join(x.strip() for x in m.group(3).split(",")) if m.group(3) else "none"
with open(os.path.join(root, "AXIOMS.txt"), "w") as g:
    for t in ts: g.write(f"{t}: {ax[t]}\n")
print(collections.Counter(ax[t] for t in ts))
