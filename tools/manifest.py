"""Write MANIFEST.json from the theorem names in lean/Verif/Props and tools/notes.json."""
import json, re, pathlib
root = pathlib.Path(__file__).resolve().parent.parent
names = {}
for f in sorted((root / "lean/Verif").rglob("*.lean")):
    stack = []
    for line in f.read_text().splitlines():
        if m := re.match(r"(?:noncomputable )?(namespace|section)\b *(\S*)$", line):
            stack.append((m.group(1), m.group(2)))
        elif re.match(r"end(?: [\w.]+)?$", line) and stack:
            stack.pop()
        elif m := re.match(r"theorem (C\d\d+)_(\w+)", line):
            prefix = ".".join(n for k, n in stack if k == "namespace")
            names.setdefault(m.group(1), []).append(f"{prefix}.{m.group(1)}_{m.group(2)}")
notes = json.loads((root / "tools/notes.json").read_text())
claims = []
for line in (root / "properties.jsonl").read_text().splitlines():
    pid = json.loads(line)["id"]
    th = names.get(pid, [])
    n = notes.get(pid, {})
    status = n.get("status", "proved" if th else None)
    if status is None:
        continue
    claims.append({"property": pid, "status": status, "theorems": th, "note": n.get("note", "")})
(root / "MANIFEST.json").write_text(json.dumps({"claims": claims}, indent=1, ensure_ascii=False) + "\n")
print(len(claims), "claims;", [c["property"] for c in claims if not c["theorems"]], "without theorems")
