#!/usr/bin/env python3
"""Check the source citations of the model: every `file:a-b` must exist in /repo, the first name in
backquotes after it must occur in the cited lines, and if that name is a function defined in the file,
the lines must lie in its definition (and start where it starts, if they cover its first line)."""
import re, glob, sys

def definitions(src):
    """name -> (first, last) line of function definitions."""
    out = {}
    i = 0
    while i < len(src):
        if src[i] and not src[i][0].isspace() and src[i][0] not in '#/*}{' and '(' in src[i]:
            j = i
            while j < len(src) and '{' not in src[j] and ';' not in src[j]:
                j += 1
            if j < len(src) and '{' in src[j] and '=' not in src[i].split('(')[0]:
                m = re.search(r'(\w+)\s*\(', src[i])
                k = j
                while k < len(src) and not src[k].startswith('}'):
                    k += 1
                if src[j].rstrip().endswith('}'): k = j
                if m: out.setdefault(m.group(1), []).append((i + 1, k + 1))
                i = k
        i += 1
    return out

bad = total = 0
for f in sorted(glob.glob('/verif/lean/Verif/Model/*.lean')):
    text = open(f).read()
    for doc in re.finditer(r'/-[-!]?(.*?)-/', text, re.S):
        body = doc.group(1)
        line = text.count('\n', 0, doc.start()) + 1
        for m in re.finditer(r'((?:src|include|test)/[\w/.\-]+\.[ch]):(\d+)(?:-(\d+))?(?:,?\s+`([^`]+)`)?', body):
            total += 1
            path, a, b, name = m.group(1), int(m.group(2)), int(m.group(3) or m.group(2)), m.group(4)
            def report(msg):
                global bad
                bad += 1
                print(f'{f}:{line}: {path}:{a}-{b} {msg}')
            try:
                src = open('/repo/' + path).read().split('\n')
            except OSError:
                report('no such file'); continue
            if b > len(src) or a > b:
                report('no such lines'); continue
            if not name: continue
            words = [w for w in re.findall(r'\w+', name) if w != 'struct']
            chunk = '\n'.join(src[a-1:b])
            defs = definitions(src)
            if words and words[0] in defs:
                if not any(abs(a - x) <= 2 and abs(b - y) <= 2 or x <= a and b <= y for x, y in defs[words[0]]):
                    report(f'`{words[0]}` is defined at {defs[words[0]]}')
            elif words and not re.search(r'\b' + re.escape(words[0]) + r'\b', chunk):
                report(f'`{name}` does not occur there')
print(f'{total} citations, {bad} suspicious')
sys.exit(bad != 0)
