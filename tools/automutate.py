#!/usr/bin/env python3
"""Mutate the definitions of the model mechanically in a scratch copy and log which theorem fails first.

usage: automutate.py seed [names of model files]

For every definition one place is chosen at random and changed (a comparison, a sign, a connective, a constant, a
bound). Mutants that do not compile are dropped. The build is stopped at the first failure, so that `failed` is one
declaration (or a few); an empty list means that the whole project was built and the mutant survived.
MUTSRC is a built copy of the project, MUTDST the scratch copy. No build is started while the file MUTPAUSE exists.
"""
import json, os, random, re, shutil, signal, subprocess, sys, time
from mutate import decl_at
import mutate

SRC = os.environ["MUTSRC"]
DST = os.environ["MUTDST"]
LOG = "/verif/seeded/LOG.jsonl"
mutate.DST = DST

OPS = [(r" < ", [" ≤ "]), (r" ≤ ", [" < "]), (r" > ", [" ≥ "]), (r" ≥ ", [" > "]), (r" \+ ", [" - "]),
       (r" - ", [" + "]), (r" ∧ ", [" ∨ "]), (r" ∨ ", [" ∧ "]), (r" && ", [" || "]), (r" \|\| ", [" && "]),
       (r"\bmin\b", ["max"]), (r"\bmax\b", ["min"]), (r"\btrue\b", ["false"]), (r"\bfalse\b", ["true"]),
       (r"\.lower\b", [".upper"]), (r"\.upper\b", [".lower"]), (r"(?<![\w./^])0(?![\w.])", ["1"]),
       (r"(?<![\w./^])1(?![\w.])", ["2", "0"]), (r"(?<![\w./^])2(?![\w.])", ["3", "1"]), (r" / ", [" * "]),
       (r" \* ", [" / "]), (r" ≠ ", [" = "]), (r"(?<=[( ])-(?=[(\w])", [""]), (r"\bhead\?", ["getLast?"]),
       (r"\.1\b", [".2"]), (r"\.2\b", [".1"]), (r"\.take\b", [".drop"]), (r"\.drop\b", [".take"]),
       (r" \+\+ ", [None]), (r" \^ 2", [""]), (r"if ([^:\n]+?) then ", ["NEG"]), (r"\bnone\b", [None])]

def definitions(path):
    s = open(path).read()
    for m in re.finditer(r"^(?:noncomputable )?def\s+([^\s:({\[]+)", s, re.M):
        e = s.find("\n\n", m.start())
        e = len(s) if e < 0 else e
        b = s.find(":=", m.start(), e)
        c = s.find("\n  | ", m.start(), e)
        w = s.find(" where\n", m.start(), e)
        starts = [i for i in (b, c, w) if i >= 0]
        if starts:
            yield m.group(1), min(starts), e, s

def mutants(path, rng):
    for name, a, e, s in definitions(path):
        places = []
        for pat, news in OPS:
            for m in re.compile(pat).finditer(s, a, e):
                for n in news:
                    if n is None:
                        continue
                    places.append((m.start(), m.end(), f"if ¬ ({m.group(1)}) then " if n == "NEG" else n))
        if places:
            i, j, n = rng.choice(places)
            yield name, s, i, j, n

def build(target, stop):
    while os.path.exists(os.environ.get("MUTPAUSE", "/nonexistent")):
        time.sleep(10)
    p = subprocess.Popen(["nice", "-n", "5", "lake", "build"] + target, cwd=DST, stdout=subprocess.PIPE,
                         stderr=subprocess.STDOUT, text=True, start_new_session=True)
    t, errors = time.time(), []
    for line in p.stdout:
        m = re.match(r"^error: (?:\S*?/)?(Verif/\S+?\.lean):(\d+):", line)
        if m:
            d = decl_at(os.path.join(DST, m.group(1)), int(m.group(2)))
            if d not in errors:
                errors.append(d)
        elif errors and stop and re.match(r"^[✔✖⚠]", line):
            break
    if stop and errors:
        os.killpg(p.pid, signal.SIGKILL)
    p.wait()
    return errors, p.returncode

def main():
    rng = random.Random(int(sys.argv[1]))
    files = sys.argv[2:] or sorted(f for f in os.listdir(SRC + "/Verif/Model") if f.endswith(".lean"))
    todo = [(f, m) for f in files for m in mutants(f"{SRC}/Verif/Model/{f}", rng)]
    rng.shuffle(todo)
    print(len(todo), "mutants", flush=True)
    for f, (name, s, i, j, n) in todo:
        shutil.rmtree(DST, ignore_errors=True)
        subprocess.run(["cp", "-a", SRC, DST], check=True)
        with open(f"{DST}/Verif/Model/{f}", "w") as h:
            h.write(s[:i] + n + s[j:])
        a, b = s.rfind("\n", 0, i) + 1, s.find("\n", j)
        edit = f"`{s[a:b].strip()}` becomes `{(s[a:i] + n + s[j:b]).strip()}`"
        t = time.time()
        err, rc = build([f"Verif.Model.{f[:-5]}"], False)
        if rc != 0:
            print("does not compile", f, name, edit, flush=True)
            continue
        failed, rc = build([], True)
        rec = {"definition": name, "edit": edit, "breaks": "", "failed": failed, "blocked": [], "tightened": [],
               "note": "mechanical mutant of Model/" + f + ", build stopped at the first failure"}
        print("SURVIVED" if rc == 0 and not failed else "killed", f, name, edit, failed, f"{time.time()-t:.0f}s", flush=True)
        with open(LOG, "a") as h:
            h.write(json.dumps(rec, ensure_ascii=False) + "\n")

if __name__ == "__main__":
    main()
