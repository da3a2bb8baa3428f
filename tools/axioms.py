"""Axioms of every theorem named in MANIFEST.json: python3 tools/axioms.py > axioms.txt (after lake build)."""
import json
import os
import re
import subprocess
import tempfile

root = os.path.abspath(os.path.join(os.path.dirname(__file__), ".."))
names = []
for c in json.load(open(os.path.join(root, "MANIFEST.json")))["claims"]:
    for t in c["theorems"]:
        if t not in names:
            names.append(t)
with tempfile.NamedTemporaryFile("w", suffix=".lean", delete=False) as f:
    f.write("import Verif\n" + "".join(f"#print axioms {n}\n" for n in names))
out = subprocess.run(["lake", "env", "lean", f.name], cwd=os.path.join(root, "lean"), capture_output=True, text=True)
os.unlink(f.name)
text = re.sub(r"\s+", " ", out.stdout + out.stderr)
for n in names:
    m = re.search(re.escape(f"'{n}'") + r" (depends on axioms: \[(.*?)\]|does not depend on any axioms)", text)
    print(f"{n}: {(m.group(2) or 'none') if m else 'NOT FOUND'}")
