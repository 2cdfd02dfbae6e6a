"""Make mutants of the model mechanically, for mutate.py.

usage: automut.py OUT.json SEED PER_DEF FILE... (files relative to lean/Verif, without .lean)

For each definition up to PER_DEF of the following edits, chosen at random: change a number, a text, a truth value, a comparison, a
connective or an error; negate a condition; exchange take/drop, head/last, the operands of ++; drop a statement.
"""
import json, os, random, re, sys

ROOT = os.path.join(os.path.dirname(os.path.abspath(__file__)), '..', 'lean')
SWAP = [(' = ', ' ≠ '), (' ≠ ', ' = '), (' < ', ' ≤ '), (' ≤ ', ' < '), (' > ', ' ≥ '), (' ≥ ', ' > '), (' == ', ' != '), (' != ', ' == '),
        (' ∧ ', ' ∨ '), (' ∨ ', ' ∧ '), (' && ', ' || '), (' || ', ' && '), ('.take ', '.drop '), ('.drop ', '.take '),
        ('.head?', '.getLast?'), ('.getLast?', '.head?'), ('.isSome', '.isNone'), ('.isNone', '.isSome'), (' + ', ' - '), (' - ', ' + '),
        (' ∈ ', ' ∉ '), (' ∉ ', ' ∈ '), ('.any ', '.all '), ('.all ', '.any '), ('.filter ', '.filter fun x => !'), (' ^^^ ', ' ||| '),
        (' <<< ', ' >>> '), (' >>> ', ' <<< '), (' % ', ' / '), (' / ', ' % '), (' * ', ' + ')]
ERRS = ['.value', '.type', '.attribute', '.key', '.index', '.assertion', '.exception', '.credentials']

def spans(src):
    """(name, docstring, start, end) of the definitions."""
    com = [(m.start(), m.end()) for m in re.finditer(r'/-.*?-/|--[^\n]*', src, re.S)]
    heads = [m for m in re.finditer(r'^(?:@\[[^\]]*\]\s*)?(?:private |protected )*(def|theorem|abbrev|instance|structure|inductive|example|end|namespace|section|variable|open|mutual|/-)(?![\w])\s*(\S*)', src, re.M)]
    heads = [m for m in heads if m.group(1) == '/-' or not any(a < m.start() < b for a, b in com)]
    for i, m in enumerate(heads):
        if m.group(1) != 'def' and m.group(1) != 'abbrev':
            continue
        end = heads[i + 1].start() if i + 1 < len(heads) else len(src)
        doc = ''
        if i and heads[i - 1].group(1) == '/-':
            doc = src[heads[i - 1].start():m.start()]
        yield m.group(2), ' '.join(doc.replace('/--', '').replace('-/', '').split()), m.start(), end, com

def sites(src, a, b, com):
    # skip the signature for comparisons: start after the first := or |
    body = re.search(r':=|^\s*\|', src[a:b], re.M)
    s0 = a + (body.start() if body else 0)
    def free(i): return not any(x <= i < y for x, y in com)
    strs = [(m.start(), m.end()) for m in re.finditer(r'"(?:[^"\\]|\\.)*"', src[a:b])]
    instr = lambda i: any(a + x <= i < a + y for x, y in strs)
    out = []
    for old, new in SWAP:
        i = src.find(old, s0, b)
        while i != -1:
            if free(i) and not instr(i):
                out.append((i, old, new, f'`{old.strip()}` to `{new.strip()}`'))
            i = src.find(old, i + 1, b)
    for m in re.finditer(r'(?<![\w.₀-₉])(\d+|0x[0-9a-fA-F]+)(?![\w])', src[s0:b]):
        i = s0 + m.start()
        if free(i) and not instr(i):
            n = int(m.group(1), 0)
            out.append((i, m.group(1), str(n + 1), f'{m.group(1)} to {n + 1}'))
    for m in re.finditer(r'"((?:[^"\\]|\\.)+)"', src[s0:b]):
        i = s0 + m.start()
        if free(i):
            t = m.group(1)
            out.append((i, m.group(0), '"' + t[:-1] + ('x' if t[-1] != 'x' else 'y') + '"', f'text {t[:40]} misspelt at the end'))
    for m in re.finditer(r'\b(true|false)\b', src[s0:b]):
        i = s0 + m.start()
        if free(i) and not instr(i):
            o = 'false' if m.group(1) == 'true' else 'true'
            out.append((i, m.group(1), o, f'{m.group(1)} to {o}'))
    for m in re.finditer(r'\.error (\.\w+)|fail (\.\w+)', src[s0:b]):
        i = s0 + m.start()
        if free(i):
            e = m.group(1) or m.group(2)
            o = random.choice([x for x in ERRS if x != e])
            out.append((i, m.group(0), m.group(0).replace(e, o), f'error {e} to {o}'))
    for m in re.finditer(r'\bif ((?:(?!then|\bif\b|:=).)+?) then', src[s0:b]):
        i = s0 + m.start()
        if free(i) and ':' not in m.group(1):
            out.append((i, m.group(0), f'if ¬ ({m.group(1)}) then', f'condition {m.group(1)} negated'))
    for m in re.finditer(r'([\w.]+|\([^()]*\)|\[[^\[\]]*\]) \+\+ ([\w.]+|\([^()]*\)|\[[^\[\]]*\])', src[s0:b]):
        i = s0 + m.start()
        if free(i) and m.group(1) != m.group(2):
            out.append((i, m.group(0), f'{m.group(2)} ++ {m.group(1)}', f'{m.group(0)} exchanged'))
    if re.search(r'\bdo\b', src[a:b]):
        for m in re.finditer(r'^ +(?!let|if|else|match|\||pure|for|do|fun|return)(\w[^\n←]*)\n(?= +\S)', src[s0:b], re.M):
            i = s0 + m.start()
            if free(i) and ':=' not in m.group(0):
                out.append((i, m.group(0), '', f'statement {m.group(1).strip()[:60]} dropped'))
    return out

def main():
    out, seed, per, files = sys.argv[1], int(sys.argv[2]), int(sys.argv[3]), sys.argv[4:]
    res = []
    for f in files:
        random.seed(f'{seed}{f}')
        src = open(f'{ROOT}/Verif/{f}.lean').read()
        for name, doc, a, b, com in spans(src):
            ss = sites(src, a, b, com)
            random.shuffle(ss)
            for i, old, new, edit in ss[:per]:
                line = src.count('\n', 0, i) + 1
                res.append({'def': name, 'file': f'Verif/{f}.lean', 'pos': i, 'old': old, 'new': new, 'edit': f'line {line}: {edit}',
                            'claim': 'no longer is: ' + doc[:200] if doc else f'{name} no longer does what the code does', 'props': []})
    json.dump(res, open(out, 'w'), ensure_ascii=False, indent=0)
    print(len(res))

main()
