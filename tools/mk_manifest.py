"""Regenerate MANIFEST.json from the theorem names in lean/Verif/Props and tools/notes.json."""
import json, re, pathlib
root = pathlib.Path(__file__).resolve().parent.parent
props = [json.loads(l) for l in (root / "properties.jsonl").read_text().splitlines() if l.strip()]
notes = json.loads((root / "tools/notes.json").read_text())
found = {}
for f in sorted((root / "lean/Verif/Props").rglob("*.lean")):
    for m in re.finditer(r"^(?:private |protected )?theorem (C\d\d\w*)", f.read_text(), re.M):
        for pid in re.findall(r"^C\d+", m.group(1)):
            found.setdefault(pid, []).append("Tranquilo." + m.group(1))
claims = []
for p in props:
    pid = p["id"]
    n = notes.get(pid)
    if n is None:
        if pid in found:
            print("no note for", pid)
        continue
    ths = found.get(pid, [])
    claims.append({"property": pid, "status": n["status"], "theorems": ths, "note": n["note"]})
(root / "MANIFEST.json").write_text(json.dumps({"claims": claims}, indent=1) + "\n")
print(len(claims), "claims", sum(len(c["theorems"]) for c in claims), "theorems")
missing = [p["id"] for p in props if p["id"] not in found]
print("no theorem:", " ".join(missing))
