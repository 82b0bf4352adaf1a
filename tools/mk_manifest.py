"""Rewrites MANIFEST.json from tools/claims.json and checks that every named theorem exists in lean/Verif."""
import json, re, pathlib
root = pathlib.Path(__file__).resolve().parent.parent
claims = json.loads((root / "tools/claims.json").read_text())
names = set()
for f in (root / "lean/Verif").rglob("*.lean"):
    stack = []
    for line in f.read_text().splitlines():
        m = re.match(r"\s*namespace (\S+)", line)
        if m: stack.append(m[1]); continue
        m = re.match(r"\s*end (\S+)", line)
        if m and stack and stack[-1] == m[1]: stack.pop(); continue
        m = re.match(r"\s*(?:@\[.*?\]\s*)?(?:protected |private )?(?:theorem|lemma) (\S+)", line)
        if m: names.add(".".join(stack + [m[1]]))
short = {}
for n in names: short.setdefault(n.split(".")[-1], []).append(n)
out = []
for c in claims:
    full = []
    for t in c["theorems"]:
        cand = [t] if t in names else short.get(t, [])
        assert len(cand) == 1, (c["property"], t, cand)
        full.append(cand[0])
    out.append({**c, "theorems": full})
(root / "MANIFEST.json").write_text(json.dumps({"claims": out}, indent=1) + "\n")
used = {t for c in out for t in c["theorems"]}
for n in sorted(names):
    if re.match(r"C\d\d", n.split(".")[-1]) and n not in used: print("not in manifest:", n)
print(len(out), "claims,", len(used), "theorems")
