#!/usr/bin/env python3
"""Seeded-bug runner.  usage: mutate.py <mutations.py> [logfile]
Copies /verif/lean to /tmp/mut, applies one textual edit at a time to a model file, runs `lake build` there,
and appends one JSON line per edit (edit, broken claim, declarations that no longer check)."""
import sys, os, re, json, subprocess, shutil, time
MUT = "/tmp/mut"
SRC = "/verif/lean"
def sync():
    subprocess.run(["rsync", "-a", "--delete", SRC + "/", MUT + "/"], check=True) if shutil.which("rsync") else \
        (shutil.rmtree(MUT, ignore_errors=True), subprocess.run(["cp", "-a", SRC, MUT], check=True))
def decl_at(path, line):
    ls = open(path).read().split("\n")
    for i in range(min(line, len(ls)) - 1, -1, -1):
        m = re.match(r"^(?:private |protected |@\[[^\]]*\] )*(theorem|lemma|def|abbrev|example|instance)\b\s*([^\s:({\[]*)", ls[i])
        if m: return (m.group(2) or m.group(1)) + " (" + os.path.relpath(path, MUT) + ")"
    return path
def main():
    ns = {}
    exec(open(sys.argv[1]).read(), ns)
    log = sys.argv[2] if len(sys.argv) > 2 else "/verif/seeded/LOG.jsonl"
    sync()
    for m in ns["MUTS"]:
        f = os.path.join(MUT, "Verif", m["file"])
        src = open(f).read()
        n = src.count(m["old"])
        if n != m.get("count", 1):
            print("SKIP: %d matches for %r" % (n, m["old"])); continue
        open(f, "w").write(src.replace(m["old"], m["new"]))
        t = time.time()
        try:
            r = subprocess.run(["timeout", str(m.get("timeout", 1200)), "lake", "build"] + m.get("targets", []), cwd=MUT, capture_output=True, text=True)
        finally:
            open(f, "w").write(src)
        out = r.stdout + r.stderr
        failed = []
        for x in re.finditer(r"error: (Verif/[\w/]+\.lean):(\d+):", out):
            d = decl_at(os.path.join(MUT, x.group(1)), int(x.group(2)))
            if d not in failed: failed.append(d)
        rec = dict(definition=m["def"], file=m["file"], edit=m["old"] + "  ==>  " + m["new"], breaks=m["breaks"],
                   failed=failed, verdict="caught" if r.returncode else "SURVIVED", tightened=m.get("tightened", []), note=m.get("note", ""))
        if any(d.endswith("(Verif/%s)" % m["file"]) for d in failed):
            print("INVALID (the edited model itself does not compile)", m["def"], failed[:2], flush=True); continue
        print(rec["verdict"], m["def"], failed[:4], "%.0fs" % (time.time() - t), flush=True)
        open(log, "a").write(json.dumps(rec) + "\n")
main()
