"""List the functions of /repo/kmcpy with the model files that cite their lines.

Writes COVERAGE.md.  A citation is `name.py:10-20,30` in a comment of lean/Verif/Model; later
numbers in the same comment refer to the same file.  A function counts as cited when a cited range overlaps its body."""
import ast, pathlib, re
root = pathlib.Path(__file__).resolve().parent.parent
repo = pathlib.Path("/repo/kmcpy")
files = sorted(p for p in repo.rglob("*.py"))
by_name = {}
for p in files:
    rel = p.relative_to(repo).as_posix()
    parts = rel.split("/")
    for i in range(len(parts)):
        by_name.setdefault("/".join(parts[i:]), []).append(p)
prefer = {"base.py": repo / "event/base.py", "registry.py": repo / "io/registry.py",
          "hop.py": repo / "event/hop.py", "data.py": repo / "io/neb/data.py"}
cites = {}
for f in sorted((root / "lean/Verif/Model").glob("*.lean")):
    text = f.read_text()
    local = {}
    for m in re.finditer(r"kmcpy/([\w/]+\.py)", text):
        local[m.group(1).split("/")[-1]] = repo / m.group(1)
    for com in re.finditer(r"/-.*?-/", text, re.S):
        path = None
        for m in re.finditer(r"([\w/]+\.py)|(?<![\w.])(\d+(?:-\d+)?)(?![\w.])", com.group(0)):
            if m.group(1):
                name = m.group(1).removeprefix("kmcpy/")
                cand = by_name.get(name, [])
                path = (local.get(name) or (cand[0] if len(cand) == 1 else None)
                        or prefer.get(name) or (cand[0] if cand else None))
            elif path is not None and int(m.group(2).split("-")[0]) >= 10:
                a, _, b = m.group(2).partition("-")
                cites.setdefault(path, []).append((int(a), int(b or a), f.stem))
out = ["# Coverage of the Python code", "",
       "For every function of `/repo/kmcpy`: the model files under `lean/Verif/Model` that cite its lines.",
       "Functions without a model file are not modelled.  Generated by `tools/coverage.py`.", ""]
total = covered = 0
for p in files:
    tree = ast.parse(p.read_text())
    rows = []
    def walk(node, prefix):
        global total, covered
        for ch in ast.iter_child_nodes(node):
            if isinstance(ch, (ast.FunctionDef, ast.AsyncFunctionDef)):
                a, b = ch.lineno, ch.end_lineno
                ms = sorted({m for x, y, m in cites.get(p, []) if x <= b and y >= a})
                total += 1
                covered += bool(ms)
                rows.append((prefix + ch.name, a, b, ms))
            elif isinstance(ch, ast.ClassDef):
                walk(ch, prefix + ch.name + ".")
    walk(tree, "")
    if rows:
        out += [f"## kmcpy/{p.relative_to(repo).as_posix()}", ""]
        for n, a, b, ms in rows:
            out.append(f"- `{n}` ({a}-{b}): " + (", ".join(ms) if ms else "not modelled"))
        out.append("")
out.insert(5, f"{covered} of {total} functions are cited.\n")
(root / "COVERAGE.md").write_text("\n".join(out))
print(covered, total)
