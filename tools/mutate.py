#!/usr/bin/env python3
"""Seed bugs into a scratch copy of the model and see which theorems notice.

usage: mutate.py mutants.json   (list of {file, old, new, definition, edit, claim})
Refuses to run unless the unedited copy builds. Appends one line per mutant to seeded/LOG.jsonl.
`failed` lists the declarations whose proofs broke first; modules that import them are not built, and
are listed in `not_built`. A broken helper proof alone does not show that a property became false."""
import json, os, re, shutil, subprocess, sys
root = os.path.dirname(os.path.dirname(os.path.abspath(__file__)))
scratch = "/tmp/mut/lean"
base = "/tmp/mut/base"  # what is edited: a copy of the model taken at the start

def decls(path):
    out = []
    for i, l in enumerate(open(path), 1):
        if m := re.match(r"(?:@\[[^\]]*\]\s*)?(?:private )?(?:theorem|def|example|instance|structure|inductive|abbrev|lemma)\s*(\S*)", l):
            out.append((i, m.group(1) or "example"))
    return out

def run(m):
    shutil.rmtree(scratch, ignore_errors=True)
    shutil.copytree(base, scratch, symlinks=True)
    p = scratch + "/" + m["file"]
    s = open(p).read()
    n = s.count(m["old"])
    if n == 0:
        return None, "PATTERN NOT FOUND", []
    s = s.replace(m["old"], m["new"], m.get("count", 1))
    open(p, "w").write(s)
    # false examples can exhaust memory and hide the theorem that fails; theorems are what matters
    for f in os.listdir(scratch + "/Verif/Props"):
        q = scratch + "/Verif/Props/" + f
        t = open(q).read()
        blocks = re.split(r"\n\s*\n", t)
        is_ex = lambda b: re.match(r"(/--((?!-/).)*-/\s*)?example\b", b, re.S)
        open(q, "w").write("\n\n".join(b for b in blocks if not is_ex(b)) + "\n")
    r = subprocess.run(["lake", "build"], cwd=scratch, capture_output=True, text=True)
    failed = []
    for line in (r.stdout + r.stderr).splitlines():
        if mm := re.match(r"error: (Verif/\S+\.lean):(\d+):", line):
            ds = [d for d in decls(scratch + "/" + mm.group(1)) if d[0] <= int(mm.group(2))]
            name = ds[-1][1] if ds else "?"
            if name not in failed:
                failed.append(name)
    if r.returncode != 0 and not failed:
        failed = ["(no theorem: " + (r.stdout + r.stderr).strip()[-300:] + ")"]
    props = {"Verif.Props." + f[:-5] for f in os.listdir(scratch + "/Verif/Props") if f.endswith(".lean")}
    bad = set(re.findall(r"- (Verif\.Props\.\w+)", r.stdout + r.stderr))
    missing = []
    if r.returncode != 0:
        for q in sorted(props - bad):
            rr = subprocess.run(["lake", "build", "--no-build", q], cwd=scratch, capture_output=True)
            if rr.returncode != 0:
                missing.append(q)
    return r.returncode, failed, missing

if __name__ == "__main__":
    os.makedirs(scratch, exist_ok=True)
    shutil.rmtree(base, ignore_errors=True)
    shutil.copytree(root + "/lean", base, symlinks=True)
    if subprocess.run(["lake", "build"], cwd=base, capture_output=True).returncode != 0:
        sys.exit("the unedited model does not build")
    for m in json.load(open(sys.argv[1])):
        rc, failed, missing = run(m)
        verdict = "SURVIVED" if rc == 0 else "caught"
        if failed and failed[0].startswith("(no theorem"):
            verdict = "inconclusive"
        print(verdict, m["definition"], "|", m["edit"], "|", failed if isinstance(failed, str) else failed[:8], flush=True)
        if rc is None:
            continue
        with open(root + "/seeded/LOG.jsonl", "a") as f:
            f.write(json.dumps({"definition": m["definition"], "edit": m["edit"], "claim": m["claim"],
                "verdict": verdict, "failed": failed, "not_built": missing, "tightened": m.get("tightened", [])}) + "\n")
