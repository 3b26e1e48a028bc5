#!/usr/bin/env python3
"""Seed small mechanical bugs into every definition of the model and list the ones no proof notices.

usage: sweep.py SNAPSHOT SCRATCH OUT SEED PER_DEF [file ...]
SNAPSHOT is a built copy of lean/. Each mutant is one token-level edit of one definition of a model file: a negated or swapped
condition, a dropped field of an update, a swapped constructor, an off-by-one, a swapped `++`. Building stops at the first
error. A mutant that does not type-check is not counted. One JSON line per mutant is appended to OUT."""
import json, os, random, re, shutil, signal, subprocess, sys, time
snap, scratch, out, seed, per = sys.argv[1], sys.argv[2], sys.argv[3], int(sys.argv[4]), int(sys.argv[5])
files = sys.argv[6:] or sorted("Verif/Model/" + f for f in os.listdir(snap + "/Verif/Model") if f.endswith(".lean"))
rnd = random.Random(seed)

def defs(s):
    """(name, start, end) of the definitions, without comments before them"""
    res = []
    for m in re.finditer(r"^(?:@\[[^\]]*\]\s*)?(?:protected |private )?def (\S+)", s, re.M):
        e = re.compile(r"\n(?=\S)").search(s, m.end())
        # a definition may go on with `| ...` in column 0, which does not occur here
        res.append((m.group(1), m.start(), e.start() if e else len(s)))
    return res

SWAPS = [("true", "false"), ("false", "true"), ("&&", "||"), ("||", "&&"), (" < ", " ≤ "), (" ≤ ", " < "), (" > ", " ≥ "),
    (" ≥ ", " > "), ("==", "!="), ("!=", "=="), (" = ", " ≠ "), (" ≠ ", " = "), ("∧", "∨"), ("∨", "∧"), (" + 1", ""), (" - 1", ""),
    (" + 1", " + 2"), (".isSome", ".isNone"), (".isNone", ".isSome"), (".isEmpty", ".isEmpty.not"), (".complete", ".unsubscribe"),
    (".unsubscribe", ".complete"), (".error e", ".complete"), (".tail", ""), (".reverse", ""), (".head?", ".getLast?"),
    ("∈", "∉"), ("∉", "∈"), (" + ", " - "), (" - ", " + "), (" min ", " max "), (".done", ".pending"), (".pending", ".done"), ("¬ ", ""), ("¬", ""),
    ("none", "some default"), (".cancel", ".schedule"), ("max ", "min "), ("min ", "max "), (" 0", " 1"), (" 1", " 0"), (".fst", ".snd")]

def edits(body):
    """(start, end, replacement, description) within the body"""
    es = []
    head = body.find(":=")
    bar = re.search(r"\n\s*\|", body)
    start = min([p for p in (head, bar.start() if bar else -1) if p >= 0], default=None)
    if start is None: return es
    com = [(m.start(), m.end()) for m in re.finditer(r"--[^\n]*|/-.*?-/", body, re.S)]
    ok = lambda i: i >= start and not any(a <= i < b for a, b in com)
    for a, b in SWAPS:
        i = -1
        while (i := body.find(a, i + 1)) >= 0:
            if not ok(i): continue
            if a.isalpha() and (body[i-1].isalnum() or body[i-1] in "._" or (i+len(a) < len(body) and body[i+len(a)].isalnum())): continue
            if a.startswith(".") and i+len(a) < len(body) and (body[i+len(a)].isalnum() or body[i+len(a)] == "_"): continue
            if a in (" 0", " 1") and i+2 < len(body) and (body[i+2].isalnum() or body[i+2] == "."): continue
            if a == " = " and body[max(0,i-40):i].count("let ") > body[max(0,i-40):i].count("if "): continue
            es.append((i, i+len(a), b, f"`{a.strip()}` becomes `{b.strip()}`"))
    # `!c` becomes `c`
    for m in re.finditer(r"!(?=[\w(])", body):
        if ok(m.start()): es.append((m.start(), m.end(), "", "a negation is dropped"))
    # negate a condition
    for m in re.finditer(r"\bif (?!let )(?!h :)((?:(?!\bthen\b).)*?) then\b", body, re.S):
        if ok(m.start()): es.append((m.start(1), m.end(1), "¬ (" + m.group(1) + ")", "the condition `" + " ".join(m.group(1).split()) + "` is negated"))
        if ok(m.start()): es.append((m.start(1), m.end(1), "True ∨ (" + m.group(1) + ")", "the condition `" + " ".join(m.group(1).split()) + "` is taken for true"))
        if ok(m.start()): es.append((m.start(1), m.end(1), "False ∧ (" + m.group(1) + ")", "the condition `" + " ".join(m.group(1).split()) + "` is taken for false"))
    # drop one field of `{ x with a := .., b := .. }`
    for m in re.finditer(r"\{ ?([\w.₀₁']+|\([^()]*\)) with ", body):
        if not ok(m.start()): continue
        d, j, parts, st = 0, m.end(), [], m.end()
        while j < len(body):
            c = body[j]
            if c in "([{⟨": d += 1
            elif c in ")]⟩": d -= 1
            elif c == "}":
                if d == 0: break
                d -= 1
            elif d == 0 and (c == "," or (c == "\n" and re.match(r"\n\s*[\w.]+ :=", body[j:]))) and re.match(r"[,\n]\s*[\w.]+ :=", body[j:]):
                parts.append((st, j)); st = j + 1
            j += 1
        parts.append((st, j))
        for (a, b) in parts:
            f = body[a:b].strip()
            if not re.match(r"[\w.]+ :=", f): continue
            name = f.split(" :=")[0]
            if len(parts) == 1:
                es.append((m.start(), j + 1, m.group(1), f"`{name}` is not updated"))
            else:
                rest = ", ".join(body[x:y].strip() for x, y in parts if (x, y) != (a, b))
                es.append((m.end(), j, rest + " ", f"`{name}` is not updated"))
    # `a ++ b` on one line
    for m in re.finditer(r"([\w.']+|\([^()]*\)) \+\+ ([\w.']+|\[[^\[\]]*\]|\([^()]*\))", body):
        if ok(m.start()):
            es.append((m.start(), m.end(), m.group(1), f"`{m.group(0)}` loses its second part"))
            es.append((m.start(), m.end(), m.group(2), f"`{m.group(0)}` loses its first part"))
            es.append((m.start(), m.end(), m.group(2) + " ++ " + m.group(1), f"`{m.group(0)}` is turned round"))
    # a pair of field reads
    for m in re.finditer(r"\b(\w+)\.(\w+)\b", body):
        pass
    return es

def build(limit):
    p = subprocess.Popen(["lake", "build"], cwd=scratch, stdout=subprocess.PIPE, stderr=subprocess.STDOUT, text=True, start_new_session=True)
    err, t0 = None, time.time()
    import threading
    tm = threading.Timer(limit, lambda: os.killpg(p.pid, signal.SIGKILL)); tm.start()
    for line in p.stdout:
        if m := re.match(r"error: (Verif/\S+\.lean):(\d+):", line):
            err = (m.group(1), int(m.group(2)))
            os.killpg(p.pid, signal.SIGKILL); break
    p.wait(); tm.cancel()
    return p.returncode, err

def decl_at(path, n):
    name = "?"
    for i, l in enumerate(open(path), 1):
        if i > n: break
        if m := re.match(r"(?:@\[[^\]]*\]\s*)?(?:private |protected )?(?:theorem|def|example|instance|structure|inductive|abbrev|lemma)\s*(\S*)", l):
            name = m.group(1) or "example"
    return name

done = set()
if os.path.exists(out):
    for l in open(out):
        m = json.loads(l); done.add((m["file"], m["definition"], m["edit"], m["at"]))
todo = []
for f in files:
    s = open(snap + "/" + f).read()
    for name, a, b in defs(s):
        es = edits(s[a:b])
        rnd.shuffle(es)
        todo.append([f, name, a, b, es, per])
rnd.shuffle(todo)
for f, name, a, b, es, k in todo:
    s = open(snap + "/" + f).read()
    body = s[a:b]
    for (i, j, r, d) in es:
        if k == 0: break
        if (f, name, d, i) in done: k -= 1; continue
        shutil.rmtree(scratch, ignore_errors=True); shutil.copytree(snap, scratch, symlinks=True)
        open(scratch + "/" + f, "w").write(s[:a] + body[:i] + r + body[j:] + s[b:])
        t0 = time.time()
        rc, err = build(1500)
        if err and err[0].startswith("Verif/Model/"): continue
        k -= 1
        v = "SURVIVED" if rc == 0 else ("caught" if err else "inconclusive")
        rec = dict(file=f, definition=name, edit=d, at=i, verdict=v, failed=[decl_at(scratch + "/" + err[0], err[1])] if err else [],
            where=err[0] if err else "", line=s[:a+i].count("\n") + 1, context=" ".join(body[max(0,i-60):j+60].split()), seconds=round(time.time()-t0))
        open(out, "a").write(json.dumps(rec, ensure_ascii=False) + "\n")
        print(v, f, name, "|", d, "|", rec["failed"], rec["seconds"], flush=True)
