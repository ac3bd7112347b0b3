"""Write COVERAGE.md: for every function of /repo/src/tranquilo the Lean definitions that cite its lines."""
import ast
import pathlib
import re

REPO = pathlib.Path("/repo/src/tranquilo")
MODEL = pathlib.Path(__file__).parent.parent / "lean" / "Verif" / "Model"

cites = []  # (python file, first, last, lean file, definition)
for path in sorted(MODEL.glob("*.lean")):
    text = path.read_text()
    default = None
    # the file a bare "lines 3-7" refers to is the last file named in the same comment
    for m in re.finditer(r"/--(.*?)-/\s*(?:@\[[^\]]*\]\s*)?((?:noncomputable |private |protected )*(?:def|structure|inductive|abbrev|instance)\s+(\S+))", text, re.S):
        comment, name = " ".join(m.group(1).split()), m.group(3)
        current = None
        for t in re.finditer(r"([A-Za-z_]+\.py)(?::\s*([\d\-–, and]+))?|\((\d[\d\-–, ]*)\)|lines? ([\d\-–, and]+)", comment):
            if t.group(1):
                current = t.group(1)
                spans = t.group(2)
            else:
                spans = t.group(3) or t.group(4)
            if current is None:
                current = default
            if spans is None or current is None:
                continue
            default = current
            for s in re.finditer(r"(\d+)(?:[\-–](\d+))?", spans):
                a = int(s.group(1))
                b = int(s.group(2) or a)
                cites.append((current, a, b, path.stem, name))

out = []
missing = []
for py in sorted(REPO.rglob("*.py")):
    tree = ast.parse(py.read_text())
    rel = py.relative_to(REPO)
    rows = []

    def visit(node, prefix=""):
        for child in getattr(node, "body", []):
            if isinstance(child, ast.ClassDef):
                visit(child, child.name + ".")
            elif isinstance(child, ast.FunctionDef):
                a, b = child.lineno, child.end_lineno
                hits = [f"{c[3]}.{c[4]}" for c in cites if c[0] == py.name and c[1] <= b and c[2] >= a]
                rows.append((prefix + child.name, a, b, list(dict.fromkeys(hits))))

    visit(tree)
    if not rows:
        continue
    out.append(f"\n## {rel}\n\n| function | lines | definitions of the model |\n|---|---|---|")
    for name, a, b, hits in rows:
        out.append(f"| `{name}` | {a}-{b} | {', '.join(f'`{h}`' for h in hits) or '**not modelled**'} |")
        if not hits:
            missing.append((str(rel), name, b - a + 1))

head = """# Which code is modelled

Written by `tools/coverage.py` from the citations in `lean/Verif/Model`. Names are `file.definition`.
What a definition leaves out of the cited lines is said in its comment; `DESIGN.md` lists what holds for all
definitions.
"""
(pathlib.Path(__file__).parent.parent / "COVERAGE.md").write_text(head + "\n".join(out) + "\n")
for m in missing:
    print(*m)
