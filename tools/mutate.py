"""Runs seeded mutations of the model in a scratch copy outside /verif.

usage: mutate.py mutations.json   (list of {definition, file, old, new, edit, claim})
Appends one line per mutation to seeded/LOG.jsonl with the theorems that stop to compile.
"""
import json, os, re, shutil, subprocess, sys

SCRATCH = os.environ.get("MUT_SCRATCH", "/tmp/mut")
ROOT = os.path.join(os.path.dirname(os.path.abspath(__file__)), "..")


def sync():
    os.makedirs(SCRATCH, exist_ok=True)
    subprocess.run(["rm", "-rf", SCRATCH + "/lean"], check=True)
    subprocess.run(["cp", "-a", ROOT + "/lean", SCRATCH + "/lean"], check=True)


def theorem_at(path, line):
    name = "?"
    with open(path) as f:
        for i, l in enumerate(f, 1):
            mt = re.match(r"\s*(?:private |noncomputable |protected )*(?:theorem|lemma|def|example|instance|structure)\s*(\S*)", l)
            if mt:
                name = mt.group(1) if not l.strip().startswith("example") else f"example@{i}"
            if i >= line:
                return name


def main():
    muts = json.load(open(sys.argv[1]))
    sync()
    for mu in muts:
        path = os.path.join(SCRATCH, "lean", mu["file"])
        src = open(path).read()
        n = src.count(mu["old"])
        if n != 1:
            print("SKIP", mu["definition"], "pattern occurs", n, "times", flush=True)
            continue
        open(path, "w").write(src.replace(mu["old"], mu["new"]))
        r = subprocess.run(["lake", "build"], cwd=SCRATCH + "/lean", capture_output=True, text=True)
        failed, blocked = [], []
        for l in (r.stdout + r.stderr).splitlines():
            e = re.match(r"error: (Verif\S*\.lean):(\d+):", l)
            if e:
                t = theorem_at(os.path.join(SCRATCH, "lean", e.group(1)), int(e.group(2)))
                if t not in failed:
                    failed.append(t)
        # modules that could not be built because an imported module failed
        broken = set(re.findall(r"^- (Verif\S*)", r.stdout + r.stderr, re.M))
        mods, changed = {}, True
        for d, _, fs in os.walk(SCRATCH + "/lean/Verif"):
            for f in fs:
                if f.endswith(".lean"):
                    p = os.path.join(d, f)
                    mods[os.path.relpath(p, SCRATCH + "/lean")[:-5].replace("/", ".")] = p
        imports = {k: set(re.findall(r"^import (Verif\S*)", open(p).read(), re.M)) for k, p in mods.items()}
        down = set(broken)
        while changed:
            changed = False
            for k, im in imports.items():
                if k not in down and im & down:
                    down.add(k); changed = True
        for k in sorted(down - broken):
            blocked += re.findall(r"^theorem (C\d\d\S*)", open(mods[k]).read(), re.M) if k in mods else []
        open(path, "w").write(src)
        rec = {"definition": mu["definition"], "edit": mu["edit"], "claim": mu["claim"],
               "failed": failed, "not_checked_because_import_failed": blocked, "tightened": mu.get("tightened", [])}
        print(("SURVIVED " if r.returncode == 0 else "killed ") + mu["definition"], failed[:4], flush=True)
        with open(os.path.join(ROOT, "seeded", "LOG.jsonl"), "a") as f:
            f.write(json.dumps(rec) + "\n")


main()
