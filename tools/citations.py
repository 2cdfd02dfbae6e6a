"""Checks the citations in the comments: the lines exist, and when the comment names a function of the file just before citing it,
the lines lie inside that function.

usage: citations.py   (prints what does not fit)
"""
import ast, glob, os, re

FILES = {os.path.basename(p): p for p in glob.glob('/repo/**/*.py', recursive=True) if '/tests' not in p}
TEXT = {n: open(p).read() for n, p in FILES.items()}
LINES = {n: t.split('\n') for n, t in TEXT.items()}
DEFS = {}
for n, t in TEXT.items():
    for node in ast.walk(ast.parse(t)):
        if isinstance(node, (ast.FunctionDef, ast.ClassDef)):
            start = min([node.lineno] + [d.lineno for d in node.decorator_list])
            DEFS.setdefault((n, node.name), []).append((start, node.end_lineno))
    for node in ast.parse(t).body:
        if isinstance(node, ast.Assign) and isinstance(node.targets[0], ast.Name):
            DEFS.setdefault((n, node.targets[0].id), []).append((node.lineno, node.end_lineno))

def spans(text):
    for part in text.split(','):
        a, _, b = part.partition('-')
        yield int(a), int(b or a)

for lean in sorted(glob.glob('/verif/lean/Verif/**/*.lean', recursive=True)):
    src = open(lean).read()
    short = lean.replace('/verif/lean/', '')
    for m in re.finditer(r'/-[-!].*?-/', src, re.S):
        c = m.group(0)
        line = src.count('\n', 0, m.start()) + 1
        last = 0
        for k in re.finditer(r'([\w/]+\.py):(\d+(?:-\d+)?(?:,\d+(?:-\d+)?)*)', c):
            name = os.path.basename(k.group(1))
            if name not in LINES:
                print(short, line, 'no such file', k.group(0)); continue
            L = LINES[name]
            bad = [(a, b) for a, b in spans(k.group(2)) if not (1 <= a <= b <= len(L)) or not L[a - 1].strip() or not L[b - 1].strip()]
            if bad:
                print(short, line, name, 'edges', bad)
            qs = [q.split('.')[-1] for q in re.findall(r'`([A-Za-z_][\w.]*)`', c[last:k.start()])]
            qs = [q for q in qs if (name, q) in DEFS]
            last = k.end()
            if qs:
                ext = [d for q in qs for d in DEFS[(name, q)]]
                for a, b in spans(k.group(2)):
                    if not any(x <= a and b <= y for x, y in ext) and not (any(x == a or x == a - 1 for x, _ in ext) and any(y == b for _, y in ext)):
                        print(short, line, qs, 'cited', a, b, 'defined', ext)
