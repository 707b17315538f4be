"""Writes AXIOMS.md: the axioms each manifest theorem depends on, as reported by Lean.

Run after `lake build`: python3 tools/axioms.py
"""
import json, os, re, subprocess, tempfile

ROOT = os.path.dirname(os.path.dirname(os.path.abspath(__file__)))
names = []
for c in json.load(open(f"{ROOT}/MANIFEST.json"))["claims"]:
    for t in c["theorems"]:
        if t not in names:
            names.append(t)
with tempfile.NamedTemporaryFile("w", suffix=".lean", delete=False) as f:
    f.write("import Verif\n" + "".join(f"#print axioms {n}\n" for n in names))
out = subprocess.run(["lake", "env", "lean", f.name], cwd=f"{ROOT}/lean", capture_output=True, text=True).stdout
os.unlink(f.name)
axs = {}
for m in re.finditer(r"'([^']+)' (?:depends on axioms: \[([^\]]*)\]|(does not depend on any axioms))", out):
    axs[m.group(1)] = " ".join(m.group(2).split()) if m.group(2) else "none"
missing = [n for n in names if n not in axs]
assert not missing, missing
with open(f"{ROOT}/AXIOMS.md", "w") as f:
    f.write("# Axioms of each theorem\n\nOutput of `#print axioms`, collected by `tools/axioms.py`.\n\n")
    for n in names:
        f.write(f"* `{n}`: {axs[n]}\n")
print(len(names), sorted(set(axs.values())))
