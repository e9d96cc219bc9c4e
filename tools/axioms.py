#!/usr/bin/env python3
"""Writes AXIOMS.txt: the axioms each theorem of MANIFEST.json depends on (`#print axioms`). Run after `lake build`."""
import json, os, re, subprocess, tempfile
ROOT = os.path.join(os.path.dirname(os.path.abspath(__file__)), "..")
m = json.load(open(os.path.join(ROOT, "MANIFEST.json")))
names = [t for c in m["claims"] for t in c["theorems"]]
with tempfile.NamedTemporaryFile("w", suffix=".lean", delete=False) as f:
    f.write("import Verif\n" + "".join(f"#print axioms {n}\n" for n in dict.fromkeys(names)))
p = subprocess.run(["lake", "env", "lean", f.name], cwd=os.path.join(ROOT, "lean"), capture_output=True, text=True)
os.remove(f.name)
out = re.sub(r"\n\s+", " ", p.stdout)
lines = [l for l in out.splitlines() if l.startswith("'")]
def axioms(l): return re.findall(r"[\w.]+", l.split("depends on axioms:")[1]) if "depends on axioms:" in l else []
bad = [l for l in lines if set(axioms(l)) - {"propext", "Classical.choice", "Quot.sound"}]
with open(os.path.join(ROOT, "AXIOMS.txt"), "w") as f:
    for l in sorted(lines): f.write(l.split("'")[1] + ": " + (", ".join(axioms(l)) or "none") + "\n")
print(len(lines), "theorems,", len(set(names)) - len(lines), "missing,", len(bad), "with other axioms", p.stderr[:300])
