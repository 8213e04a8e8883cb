"""Write AXIOMS.md: the axioms each theorem of MANIFEST.json depends on, as Lean reports them.

Needs a finished `lake build` in lean/."""
import json, pathlib, re, subprocess, tempfile
root = pathlib.Path(__file__).resolve().parent.parent
man = json.loads((root / "MANIFEST.json").read_text())
names = []
for c in man["claims"]:
    for t in c["theorems"]:
        if t not in names:
            names.append(t)
with tempfile.NamedTemporaryFile("w", suffix=".lean", delete=False) as f:
    f.write("import Verif\n" + "".join(f"#print axioms {n}\n" for n in names))
res = subprocess.run(["lake", "env", "lean", f.name], cwd=root / "lean", capture_output=True, text=True)
text = re.sub(r",\s*\n\s*", ", ", res.stdout)
got = {}
for line in text.splitlines():
    m = re.match(r"'(.+?)' depends on axioms: \[(.*)\]", line)
    if m:
        got[m.group(1)] = m.group(2)
    m = re.match(r"'(.+?)' does not depend on any axioms", line)
    if m:
        got[m.group(1)] = "none"
missing = [n for n in names if n not in got]
assert not missing, missing
groups = {}
for n in names:
    groups.setdefault(got[n], []).append(n)
out = ["# Axioms of each theorem", "",
       "As printed by `#print axioms`.  Generated by `tools/axioms.py` from MANIFEST.json.", ""]
for ax, ns in sorted(groups.items(), key=lambda p: -len(p[1])):
    out += [f"## {ax} ({len(ns)} theorems)", ""] + [f"- `{n}`" for n in ns] + [""]
(root / "AXIOMS.md").write_text("\n".join(out))
print({a: len(n) for a, n in groups.items()})
