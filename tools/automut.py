#!/usr/bin/env python3
"""Systematic seeded bugs.  usage: automut.py <model.lean> [per-def] [seed] [only-def ...]
Generates small edits (boundaries, constants, conditions, dropped updates, dropped or swapped elements) of the definitions of one model file in a scratch copy, rebuilds what depends on it, and records
which theorems stop checking.  The build is stopped at the first module that fails."""
import sys, os, re, json, subprocess, shutil, time, random, signal, select
MUT = "/tmp/automut"; SRC = "/verif/lean"; LOG = "/verif/seeded/AUTO.jsonl"
def sync():
    if os.path.isdir(MUT): subprocess.run("rsync -a --delete %s/ %s/ || (rm -rf %s && cp -a %s %s)" % (SRC, MUT, MUT, SRC, MUT), shell=True, check=True)
    else: subprocess.run(["cp", "-a", SRC, MUT], check=True)
def decl_at(path, line):
    ls = open(path).read().split("\n")
    for i in range(min(line, len(ls)) - 1, -1, -1):
        m = re.match(r"^(?:private |protected |@\[[^\]]*\] )*(theorem|lemma|def|abbrev|example|instance)\b\s*([^\s:({\[]*)", ls[i])
        if m: return (m.group(2) or m.group(1)) + " (" + os.path.relpath(path, MUT) + ")"
    return path
def strip_comments(s):
    """positions inside comments are blanked"""
    o = list(s); i = 0
    while i < len(s):
        if s.startswith("/-", i):
            j = s.index("-/", i) + 2
            for k in range(i, j):
                if o[k] != "\n": o[k] = " "
            i = j
        elif s.startswith("--", i):
            j = s.find("\n", i); j = len(s) if j < 0 else j
            for k in range(i, j): o[k] = " "
            i = j
        else: i += 1
    return "".join(o)
OPS = [(r"(?<= )<(?= )", "≤"), (r"(?<= )≤(?= )", "<"), (r"(?<= )>(?= )", "≥"), (r"(?<= )≥(?= )", ">"), (r"(?<= )=(?= )", "≠"), (r"(?<= )≠(?= )", "="), (r"(?<= )==(?= )", "!="), (r"(?<= )∧(?= )", "∨"), (r"(?<= )∨(?= )", "∧"),
       (r"(?<= )&&(?= )", "||"), (r"(?<= )\|\|(?= )", "&&"), (r"\btrue\b", "false"), (r"\bfalse\b", "true"), (r"\.drop\b", ".take"), (r"\.take\b", ".drop"), (r"(?<= )\+(?= )", "-"), (r"(?<= )-(?= )", "+"),
       (r"(?<= )\*(?= )", "+"), (r"(?<= )/(?= )", "%"), (r"(?<= )%(?= )", "/"), (r"(?<= )<<<(?= )", ">>>"), (r"(?<= )>>>(?= )", "<<<"), (r"(?<= )&&&(?= )", "|||"), (r"(?<= )\|\|\|(?= )", "&&&"), (r"!(?=[a-z(])", "")]
def muts(body):
    """(start, end, replacement) for edits of one definition body"""
    r = []
    for pat, rep in OPS:
        for m in re.finditer(pat, body): r.append((m.start(), m.end(), rep, "op"))
    for m in re.finditer(r"(?<![\w.])(0x[0-9a-fA-F]+|\d+)(?![\w.])", body):
        n = int(m.group(1), 0); r.append((m.start(1), m.end(1), str(n + 1), "lit"))
        if n > 0: r.append((m.start(1), m.end(1), str(n - 1), "lit"))
    for m in re.finditer(r"\{ ?[^{}]* with ([^{}]*)\}", body):       # dropped field updates
        base = m.start(1); parts = []; d = 0; st = 0; t = m.group(1)
        for i, c in enumerate(t):
            if c in "([⟨": d += 1
            elif c in ")]⟩": d -= 1
            elif c == "," and d == 0: parts.append((st, i)); st = i + 1
        parts.append((st, len(t)))
        for i, (a, b) in enumerate(parts):
            if len(parts) == 1: continue
            if i + 1 < len(parts): r.append((base + a, base + parts[i + 1][0], " ", "field"))
            else: r.append((base + parts[i - 1][1], base + b, " ", "field"))
    for m in re.finditer(r"\[([^\[\]]+)\]", body):                    # dropped list elements
        t = m.group(1); parts = []; d = 0; st = 0
        for i, c in enumerate(t):
            if c in "(⟨{": d += 1
            elif c in ")⟩}": d -= 1
            elif c == "," and d == 0: parts.append((st, i)); st = i + 1
        parts.append((st, len(t)))
        if len(parts) == 1: r.append((m.start(1), m.end(1), "", "elem"))
        elif len(parts) < 8:
            for i, (a, b) in enumerate(parts):
                if i + 1 < len(parts): r.append((m.start(1) + a, m.start(1) + parts[i + 1][0], "", "elem"))
                else: r.append((m.start(1) + parts[i - 1][1], m.start(1) + b, "", "elem"))
    return r
def build(model, timeout):
    p = subprocess.Popen(["lake", "build"], cwd=MUT, stdout=subprocess.PIPE, stderr=subprocess.STDOUT, text=True, start_new_session=True)
    out = []; t0 = time.time(); status = None; last = None; fail = False
    while True:
        r, _, _ = select.select([p.stdout], [], [], 1.0)
        if r:
            l = p.stdout.readline()
            if not l: break
            out.append(l); last = time.time()
            if re.match(r"error: Verif/", l): fail = True
        if fail and last and time.time() - last > 1.5: status = "caught"; break
        if time.time() - t0 > timeout: status = "timeout"; break
    if status:
        try: os.killpg(p.pid, signal.SIGKILL)
        except ProcessLookupError: pass
    p.wait()
    txt = "".join(out)
    if not status: status = "caught" if p.returncode else "SURVIVED"
    failed = []
    for x in re.finditer(r"error: (Verif/[\w/]+\.lean):(\d+):", txt):
        d = decl_at(os.path.join(MUT, x.group(1)), int(x.group(2)))
        if d not in failed: failed.append(d)
    return status, failed
def main():
    fn = sys.argv[1]; per = float(sys.argv[2]) if len(sys.argv) > 2 else 3; seed = int(sys.argv[3]) if len(sys.argv) > 3 else 1; only = sys.argv[4:]
    sync()
    f = os.path.join(MUT, "Verif", fn); src = open(f).read(); cl = strip_comments(src)
    defs = [(m.start(), m.group(1)) for m in re.finditer(r"^(?:private |@\[[^\]]*\] )*(?:def|abbrev)\s+([^\s:({\[]+)", cl, re.M)]
    tops = [m.start() for m in re.finditer(r"^\S", cl, re.M)] + [len(cl)]
    rnd = random.Random(seed); todo = []
    for pos, name in defs:
        if only and name not in only: continue
        end = min(t for t in tops if t > pos)
        k = cl.find(":=", pos, end); k2 = cl.find("\n  |", pos, end)
        ks = [x for x in (k, k2) if x >= 0]
        if not ks: continue
        b = min(ks) + 2; body = cl[b:end]
        ms = muts(body)
        n = min(len(ms), max(1, int(per * (1 + body.count("\n") / 6))))
        for (a, e, rep, kind) in rnd.sample(ms, n): todo.append((name, b + a, b + e, rep, kind))
    if len(todo) > 400: todo = rnd.sample(todo, 400)
    print(fn, len(todo), "edits", flush=True)
    done = set()
    if os.path.exists(LOG):
        for l in open(LOG):
            o = json.loads(l); done.add((o["file"], o["definition"], o["edit"]))
    for name, a, e, rep, kind in todo:
        ls = src.rfind("\n", 0, a) + 1; le = src.find("\n", e)
        edit = src[ls:le].strip() + "  ==>  " + (src[ls:a] + rep + src[e:le]).strip()
        if (fn, name, edit) in done: continue
        open(f, "w").write(src[:a] + rep + src[e:])
        t = time.time()
        try:
            r = subprocess.run(["timeout", "120", "lake", "build", "Verif." + fn[:-5].replace("/", ".")], cwd=MUT, capture_output=True, text=True)
            if r.returncode: continue
            st, failed = build(fn, 900)
        finally:
            open(f, "w").write(src)
        print(st, name, "|", edit[:220].replace("\n", " / ") if st != "caught" else "", failed[:2], "%.0fs" % (time.time() - t), flush=True)
        open(LOG, "a").write(json.dumps(dict(definition=name, file=fn, edit=edit, breaks="", failed=failed, verdict=st)) + "\n")
main()
