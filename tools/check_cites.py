#!/usr/bin/env python3
"""Check the citations in the model's comments: "`name`, file.rs:a-b" must name a file of /repo whose lines a..b
contain the name's last component (or `Display for X`, ...)."""
import re, glob, os, sys
files = {}
for root, _, fs in os.walk('/repo'):
    if '/.git' in root or '/target' in root: continue
    for f in fs:
        if f.endswith(('.rs', '.go', '.kt', '.md', '.jinja', '.py', '.lark')):
            files.setdefault(f, []).append(os.path.join(root, f))
bad = n = 0
for lean in sorted(glob.glob('/verif/lean/Verif/**/*.lean', recursive=True)):
    src = open(lean).read()
    head = re.search(r'/-!(.*?)-/', src, re.S)
    hint = head.group(1) if head else ''
    for m in re.finditer(r'/--(.*?)-/', src, re.S):
        doc = m.group(1)
        line = src[:m.start()].count('\n') + 1
        for c in re.finditer(r'`([^`]+)`(?:[^`]{0,40}?), ?(?:\n\s*)?((?:[\w/-]+/)?[\w-]+\.(?:rs|go|kt)):(\d+)(?:-(\d+))?', doc):
            name, f, a, b = c.group(1), c.group(2), int(c.group(3)), int(c.group(4) or c.group(3))
            n += 1
            cands = [p for p in files.get(os.path.basename(f), []) if p.endswith('/' + f)]
            key = re.findall(r'[A-Za-z_]\w*', name)
            ok = False
            for p in cands:
                ls = open(p).read().split('\n')
                if b <= len(ls):
                    seg = '\n'.join(ls[a-1:b])
                    if key and key[-1] in seg: ok = True
                    back = [l for l in ls[:a] if re.match(r'\s*(pub(\([a-z]+\))? )?(const )?(fn|struct|enum|impl|trait|macro_rules!)\b', l)]
                    fns = [l for l in back if re.search(r'\bfn\b', l)]
                    for l in back[-1:] + fns[-1:]:
                        if key and re.search(r'\b' + re.escape(key[-1]) + r'\b', l): ok = True
            if not ok:
                bad += 1
                print(f'{lean[len("/verif/lean/"):]}:{line}: `{name}`, {f}:{a}-{b}')
print(n, 'citations,', bad, 'to look at')
