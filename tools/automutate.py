#!/usr/bin/env python3
"""Systematic seeded bugs: derives small edits of every definition under lean/Verif/Model (operators,
comparisons, constants, negated conditions, swapped arguments, confused fields, dropped updates, deleted
statements), applies each to a scratch copy, rebuilds until the first
error and records the outcome in seeded/AUTO.jsonl.  Edits that do not type check are dropped.

Usage: automutate.py SCRATCH [FILE-SUBSTRING]"""
import json, os, re, subprocess, sys, glob, hashlib, random, threading, time
root = os.path.dirname(os.path.dirname(os.path.abspath(__file__)))
scratch = sys.argv[1]
pat = sys.argv[2] if len(sys.argv) > 2 else ""
log = f"{root}/seeded/AUTO.jsonl"
done = {json.loads(l)["key"] for l in open(log)} if os.path.exists(log) else set()
skip = f"{scratch}/invalid.txt"
if os.path.exists(skip): done |= set(open(skip).read().split())
# edits to try again, e.g. after theorems were tightened
again = set(open(f"{scratch}/again.txt").read().split()) if os.path.exists(f"{scratch}/again.txt") else set()
done -= again
if subprocess.run(["diff", "-rq", f"{root}/lean/Verif", f"{scratch}/Verif"]).returncode != 0:
    sys.exit("the scratch copy differs from /verif/lean")

OPS = [(r" < ", " ≤ "), (r" ≤ ", " < "), (r" > ", " ≥ "), (r" ≥ ", " > "), (r" ≠ ", " = "),
       (r"(?<=if )([^:]*?) = ", r"\1 ≠ "), (r" && ", " || "), (r" \|\| ", " && "), (r" ∧ ", " ∨ "), (r" ∨ ", " ∧ "),
       (r"\btrue\b", "false"), (r"\bfalse\b", "true"), (r" &&& ", " ||| "), (r" \|\|\| ", " &&& "),
       (r" >>> ", " <<< "), (r" <<< ", " >>> "), (r" \+ (?!\+)", " - "), (r" - ", " + "), (r" \* ", " + "),
       (r"(?<![\w.#:])(0x[0-9a-fA-F]+|\d+)(?![\w.])", "NUM"), (r"== ", "!= "), (r"!= ", "== "), (r"\^\^\^", "|||"),
       (r"!", ""), (r"¬ ", "")]

PAIRS = [("funTab", "notFound"), ("hDlopen", "hDlsym"), ("dlopenW", "dlsymW"), ("hMain", "hLibcMain"),
         ("mainW", "libcMainW"), ("success", "functionNotFound"), ("take", "drop"), ("any", "all"), ("min", "max"),
         ("fst", "snd"), ("getLast?", "head?"), ("find?", "findRev?"), ("takeWhile", "dropWhile"), ("lo", "hi"),
         ("next", "prev"), ("head", "tail"), ("start", "stop"), ("old", "new"), ("wrapper", "wrappee"), ("isNone", "isSome")]

def more(body):
    for m in re.finditer(r"\bif (h\w* : )?(.+?) then", body):
        yield body[:m.start()] + f"if {m.group(1) or ''}¬ ({m.group(2)}) then" + body[m.end():]
    for m in re.finditer(r"\.reverse\b", body): yield body[:m.start()] + body[m.end():]
    for m in re.finditer(r"\bsome (\w[\w.]*|\([^()]*\)|⟨[^⟨⟩]*⟩)", body): yield body[:m.start()] + "none" + body[m.end():]
    for m in re.finditer(r"(\w[\w.]*|\([^()]*\)|⟨[^⟨⟩]*⟩) :: ", body): yield body[:m.start()] + body[m.end():]
    for m in re.finditer(r"(\w[\w.]*|\([^()]*\)|⟨[^⟨⟩]*⟩|\[[^\[\]]*\]) \+\+ (\w[\w.]*|\([^()]*\)|⟨[^⟨⟩]*⟩|\[[^\[\]]*\])", body):
        yield body[:m.start()] + m.group(2) + " ++ " + m.group(1) + body[m.end():]
        yield body[:m.start()] + m.group(1) + body[m.end():]
        yield body[:m.start()] + m.group(2) + body[m.end():]
    for m in re.finditer(r"\{ (\w+) with [^{}]* \}", body): yield body[:m.start()] + m.group(1) + body[m.end():]
    for m in re.finditer(r", \w+ := [^,{}]+(?=[,} ])", body): yield body[:m.start()] + body[m.end():]
    for m in re.finditer(r"(?<= with )(\w+ := [^,{}]+, )", body): yield body[:m.start()] + body[m.end():]
    for a, b in PAIRS:
        for x, y in ((a, b), (b, a)):
            for m in re.finditer(rf"(?<=\.){re.escape(x)}(?!\w)", body): yield body[:m.start()] + y + body[m.end():]
    m0 = re.search(r"=> |:= |← ", body)
    at = m0.end() if m0 else 0
    if not re.match(r"\s*(def|\|)", body) or m0:
        for m in re.finditer(r"(?=(?<![\w.])(\w[\w.']*) (\w[\w.]*) (\w[\w.]*)(?![\w.]))", body[at:]):
            f, x, y = m.groups()
            if x != y and f not in ("if", "match", "fun", "let", "with", "then", "else", "do", "show") and \
               not {x, y} & {"then", "else", "with", "fun", "do", "from", "if", "let", "by"}:
                i = at + m.start()
                yield body[:i] + f"{f} {y} {x}" + body[i + len(f"{f} {x} {y}"):]

def code_lines(src):
    depth, res = 0, []
    for i, l in enumerate(src.split("\n")):
        d0 = depth
        depth += l.count("/-") - l.count("-/")
        code = d0 == 0 and depth == 0 and "/-" not in l
        if code and not re.match(r"\s*(--|import|open|namespace|end|deriving|notation|abbrev|structure|inductive)", l): res.append((i, l))
    return res

def mutants(path):
    src = open(path).read(); lines = src.split("\n")
    for i, l in code_lines(src):
        body = l.split(" -- ")[0]
        for p, r in OPS:
            for m in re.finditer(p, body):
                if body[:m.start()].count('"') % 2: continue
                if r == "NUM":
                    t = m.group(1)
                    if m.start() >= 2 and body[m.start()-1] in "^": continue
                    new = str(int(t, 0) + 1)
                else: new = m.expand(r)
                nl = body[:m.start()] + new + body[m.end():] + l[len(body):]
                if nl != l: yield i, l, nl
        for nb in more(body):
            if nb != body: yield i, l, nb + l[len(body):]
        if re.match(r"\s+let s (←|:=) (?!if|match)", body):
            ind = len(l) - len(l.lstrip())
            nxt = lines[i + 1] if i + 1 < len(lines) else ""
            if len(nxt) - len(nxt.lstrip()) <= ind: yield i, l, ""

def enclosing(path, line):
    name = None
    for i, l in enumerate(open(path), 1):
        m = re.match(r"(?:private |protected )?(?:theorem|lemma|def|instance|structure|example)\s*(\S*)", l)
        if m and i <= line: name = m.group(1) or "example"
        if l.startswith("example") and i <= line: name = "example"
    return name

def watchdog():
    """Stops builds of the scratch copy that need too much memory or time."""
    while True:
        time.sleep(2)
        for l in subprocess.run(["ps", "-eo", "pid,rss,etimes,args"], capture_output=True, text=True).stdout.splitlines():
            w = l.split(None, 3)
            if len(w) == 4 and "bin/lean" in w[3] and scratch in w[3] and (int(w[1]) > 5000000 or int(w[2]) > 900):
                subprocess.run(["kill", "-9", w[0]])
threading.Thread(target=watchdog, daemon=True).start()

todo = []
for path in sorted(glob.glob(f"{scratch}/Verif/Model/*.lean")):
    f = path[len(scratch) + 7:]
    if pat not in f: continue
    for i, old, new in mutants(path):
        d = enclosing(path, i + 1)
        key = hashlib.sha1(f"{f}|{d}|{old}|{new}".encode()).hexdigest()[:12]
        if key not in done: done.add(key); todo.append((key, f, path, i, old, new, d))
random.Random(7).shuffle(todo)
todo.sort(key=lambda x: x[0] not in again)
print(len(todo), "edits to try", flush=True)
if "--list" in sys.argv: sys.exit()
for key, f, path, i, old, new, d in todo:
    src = open(path).read(); lines = src.split("\n")
    assert lines[i] == old
    lines[i] = new
    open(path, "w").write("\n".join(lines))
    err = None
    try:
        p = subprocess.Popen(["lake", "build"], cwd=scratch, stdout=subprocess.PIPE, stderr=subprocess.STDOUT, text=True)
        for ln in p.stdout:
            m = re.search(r"error: (Verif/\S+?\.lean):(\d+):", ln)
            if m: err = (m.group(1), int(m.group(2))); break
        if err:
            subprocess.run(["pkill", "-P", str(p.pid)]); p.kill()
        p.wait()
    finally:
        open(path, "w").write(src)
    if err and err[0].startswith("Verif/Model"):
        open(skip, "a").write(key + "\n"); continue
    t = f"{err[0][6:-5]}:{enclosing(scratch + '/' + err[0], err[1])}" if err else None
    rec = {"key": key, "definition": d, "file": f, "edit": f"{old.strip()}  ==>  {new.strip()}", "first_failure": t,
           "build_failed": bool(err) or p.returncode != 0}
    with open(log, "a") as o: o.write(json.dumps(rec) + "\n")
    print("KILLED" if rec["build_failed"] else "SURVIVED", d, rec["edit"][:150], "--", t, flush=True)
