"""Writes AXIOMS.md: the axioms of every theorem named in MANIFEST.json, as printed by Lean (run after lake build)."""
import json, re, pathlib, subprocess, tempfile
root = pathlib.Path(__file__).resolve().parent.parent
claims = json.loads((root / "MANIFEST.json").read_text())["claims"]
names = list(dict.fromkeys(t for c in claims for t in c["theorems"]))
with tempfile.NamedTemporaryFile("w", suffix=".lean", delete=False) as f:
    f.write("import Verif\n" + "".join(f"#print axioms {t}\n" for t in names))
out = subprocess.run(["lake", "env", "lean", f.name], cwd=root / "lean", capture_output=True, text=True).stdout
ax = {}
for m in re.finditer(r"'([^']+)' (?:depends on axioms: \[([^\]]*)\]|does not depend on any axioms)", out):
    ax[m[1]] = ", ".join((m[2] or "none").replace("\n", " ").split(", "))
missing = [t for t in names if t not in ax]
assert not missing, missing
lines = ["# Axioms of the theorems named in MANIFEST.json", "", "Output of `#print axioms`, written by tools/mk_axioms.py.", ""]
for c in claims:
    lines.append(f"* **{c['property']}**")
    by = {}
    for t in c["theorems"]: by.setdefault(ax[t], []).append(t)
    for a, ts in by.items(): lines.append(f"  * {a}: " + ", ".join(f"`{t}`" for t in ts))
(root / "AXIOMS.md").write_text("\n".join(lines) + "\n")
print({a: sum(1 for t in ax if ax[t] == a) for a in set(ax.values())})
