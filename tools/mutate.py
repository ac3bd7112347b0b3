#!/usr/bin/env python3
"""Apply seeded bugs to a scratch copy of the Lean project and log which theorems fail.

usage: mutate.py mutations.json

Each entry has the keys file, definition, old, new, edit, breaks (and optionally count, tightened).
The replacement `old` -> `new` must match exactly once. One line per mutation goes to seeded/LOG.jsonl
(entries with "dry": true are only printed).
"""
import json, os, re, shutil, subprocess, sys, time

SRC = os.environ.get("MUTSRC", "/verif/lean")
DST = "/tmp/mut/lean"
LOG = "/verif/seeded/LOG.jsonl"

def decl_at(path, line):
    lines = open(path).read().split("\n")
    for i in range(min(line, len(lines)) - 1, -1, -1):
        m = re.match(r"^(?:private |protected |noncomputable |@\[[^\]]*\] )*(theorem|def|lemma|abbrev|instance|structure|inductive|example)\b\s*([^\s:({\[]*)", lines[i])
        if m:
            if m.group(1) == "example":
                return f"example:{os.path.relpath(path, DST)}:{i+1}"
            return m.group(2) or m.group(1)
    return f"?{path}:{line}"

def run(m):
    shutil.rmtree(DST, ignore_errors=True)
    subprocess.run(["cp", "-a", SRC, DST], check=True)
    p = os.path.join(DST, m["file"])
    s = open(p).read()
    if s.count(m["old"]) != 1:
        print("NO UNIQUE MATCH", s.count(m["old"]), m["definition"], m["edit"]); return
    open(p, "w").write(s.replace(m["old"], m["new"]))
    t = time.time()
    r = subprocess.run(["timeout", "3000", "lake", "build"], cwd=DST, capture_output=True, text=True)
    out = r.stdout + r.stderr
    failed, build_broken = [], False
    for a in re.finditer(r"^error: (?:\S*?/)?(Verif/\S+?\.lean):(\d+):", out, re.M):
        d = decl_at(os.path.join(DST, a.group(1)), int(a.group(2)))
        d2 = d
        if a.group(1) == m["file"]:
            build_broken = True
        if d2 not in failed:
            failed.append(d2)
    mods = sorted(set(re.findall(r"^- (Verif\S*)", out, re.M)))
    # property theorems in modules that could not be rebuilt
    blocked = []
    for root, _, fs in os.walk(os.path.join(DST, "Verif", "Props")):
        for f in fs:
            rel = os.path.relpath(os.path.join(root, f), DST)
            mod = rel[:-5].replace("/", ".")
            ol = os.path.join(DST, ".lake/build/lib/lean", rel[:-5] + ".olean")
            built = re.search(r"(?:Built|Replayed) " + re.escape(mod) + r"\b", out)
            if r.returncode != 0 and not built and mod not in mods:
                # blocked when any dependency failed
                tr = open(os.path.join(root, f)).read()
                if depends(mod, mods):
                    blocked += re.findall(r"^theorem (C\d\d\S*)", tr, re.M)
    rec = {"definition": m["definition"], "edit": m["edit"], "breaks": m["breaks"],
           "failed": failed, "blocked": blocked if len(blocked) < 40 else f"{len(blocked)} property theorems",
           "tightened": m.get("tightened", []), "note": m.get("note", "")}
    print(json.dumps(rec, ensure_ascii=False), "rc", r.returncode, "MODEL BROKEN" if build_broken else "", f"{time.time()-t:.0f}s", flush=True)
    if build_broken:
        print(out[-3000:])
    if not m.get("dry") and not build_broken:
        with open(LOG, "a") as f:
            f.write(json.dumps(rec, ensure_ascii=False) + "\n")

_imports = {}
def imports(mod):
    if mod not in _imports:
        p = os.path.join(SRC, mod.replace(".", "/") + ".lean")
        _imports[mod] = re.findall(r"^import (Verif\S*)", open(p).read(), re.M) if os.path.exists(p) else []
    return _imports[mod]

def depends(mod, bad, seen=None):
    seen = seen if seen is not None else set()
    for i in imports(mod):
        if i in bad: return True
        if i not in seen:
            seen.add(i)
            if depends(i, bad, seen): return True
    return False

if __name__ == "__main__":
    os.makedirs(DST, exist_ok=True)
    for m in json.load(open(sys.argv[1])):
        run(m)
