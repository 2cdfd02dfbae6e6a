"""Mutation testing of the theorems.

usage: mutate.py MUTANTS.json [LOG.jsonl]

MUTANTS.json is a list of {"def", "file", "old", "new", "edit", "claim", "props"}: `old` (unique in `file`, or the
occurrence at offset "pos") is replaced by `new` in a scratch copy of the Lean project, which is rebuilt until a theorem
fails. The failing declarations and the property modules that depend on the failing modules are reported. A mutant
that does not compile is reported as INVALID and not logged.
"""
import json, os, re, shutil, signal, subprocess, sys, time

SRC = os.environ.get('MUT_SRC', '/verif/lean')
DST = os.environ.get('MUT_DIR', '/tmp/mut') + '/lean'
PRISTINE = os.path.dirname(DST) + '/pristine'

def sync():
    os.makedirs(os.path.dirname(DST), exist_ok=True)
    for d in (DST, PRISTINE):
        subprocess.run(['rm', '-rf', d], check=True)
    subprocess.run(['cp', '-a', SRC, DST], check=True)
    subprocess.run(['cp', '-a', SRC + '/.lake/build', PRISTINE], check=True)

def restore():
    """Put back the build products of the unmutated project."""
    b = DST + '/.lake/build'
    seen = set()
    for d, _, fs in os.walk(PRISTINE):
        r = os.path.relpath(d, PRISTINE)
        os.makedirs(os.path.join(b, r), exist_ok=True)
        for f in fs:
            p, q = os.path.join(d, f), os.path.join(b, r, f)
            seen.add(os.path.normpath(q))
            st = os.stat(p)
            try:
                t = os.stat(q)
                if t.st_mtime_ns == st.st_mtime_ns and t.st_size == st.st_size:
                    continue
            except FileNotFoundError:
                pass
            shutil.copy2(p, q)
    for d, _, fs in os.walk(b):
        for f in fs:
            q = os.path.normpath(os.path.join(d, f))
            if q not in seen:
                os.remove(q)

def enclosing(path, line):
    ls = open(os.path.join(DST, path)).read().split('\n')
    for i in range(min(line, len(ls)) - 1, -1, -1):
        m = re.match(r'(?:@\[[^\]]*\]\s*)?(?:private |protected |noncomputable )*(theorem|def|abbrev|example|instance|structure|inductive)\s*(\S*)', ls[i])
        if m:
            return m.group(1), (m.group(2) if m.group(1) != 'example' else 'example@%d' % (i + 1))
    return '?', '?'

def modules():
    g = {}
    for d, _, fs in os.walk(DST + '/Verif'):
        for f in fs:
            if f.endswith('.lean'):
                m = os.path.relpath(os.path.join(d, f), DST)[:-5].replace('/', '.')
                g[m] = re.findall(r'^import (Verif\.\S+)', open(os.path.join(d, f)).read(), re.M)
    return g

def blocked(failed):
    g = modules()
    memo = {}
    def bad(m):
        if m not in memo:
            memo[m] = False
            memo[m] = m in failed or any(bad(x) for x in g.get(m, []))
        return memo[m]
    return sorted({m.split('.')[2][:3] for m in g if m.startswith('Verif.Props.') and bad(m)})

def build(mfile):
    p = subprocess.Popen(['lake', 'build'], cwd=DST, stdout=subprocess.PIPE, stderr=subprocess.STDOUT, text=True, start_new_session=True)
    errs, failed, invalid = [], set(), False
    stop = None
    import selectors
    sel = selectors.DefaultSelector(); sel.register(p.stdout, selectors.EVENT_READ)
    while True:
        if stop is not None and time.time() > stop:
            break
        if not sel.select(timeout=0.5):
            continue
        line = p.stdout.readline()
        if not line:
            break
        m = re.match(r'error: (Verif/\S+\.lean):(\d+):', line)
        if m:
            kind, name = enclosing(m.group(1), int(m.group(2)))
            failed.add(m.group(1)[:-5].replace('/', '.'))
            if m.group(1) == mfile and kind in ('def', 'abbrev', 'instance', 'structure', 'inductive'):
                invalid = True
            n = m.group(1) + ':' + name
            if n not in errs:
                errs.append(n)
            if stop is None and kind != 'example' and not m.group(1).endswith('Audit.lean'):
                stop = time.time() + 1.5
    if p.poll() is None:
        try: os.killpg(p.pid, signal.SIGKILL)
        except ProcessLookupError: pass
    p.wait()
    strong = [e for e in errs if ':example@' not in e and 'Audit.lean' not in e]
    return invalid, errs, strong, failed

def main():
    muts = json.load(open(sys.argv[1]))
    log = sys.argv[2] if len(sys.argv) > 2 else None
    sync()
    for m in muts:
        path = os.path.join(DST, m['file'])
        s = open(path).read()
        if 'pos' in m:
            i = m['pos']
            if s[i:i+len(m['old'])] != m['old']:
                print('SKIPPED', m['def'], m['edit'], flush=True); continue
        else:
            if s.count(m['old']) != 1:
                print('SKIPPED', m['def'], m['edit'], s.count(m['old']), flush=True); continue
            i = s.index(m['old'])
        open(path, 'w').write(s[:i] + m['new'] + s[i+len(m['old']):])
        t = time.time()
        invalid, errs, strong, failed = build(m['file'])
        b = blocked(failed)
        open(path, 'w').write(s)
        restore()
        ok = bool(errs)
        tag = 'INVALID' if invalid else 'KILLED' if strong else 'EXAMPLE' if ok else 'SURVIVED'
        print(f"{tag} {m['def']} | {m['edit']} | {int(time.time()-t)}s", flush=True)
        print('   first failures:', errs[:8], flush=True)
        print('   props not rebuilt:', ' '.join(b), 'claims', m.get('props'), flush=True)
        if log and not invalid:
            with open(log, 'a') as f:
                f.write(json.dumps({'definition': m['def'], 'file': 'lean/' + m['file'], 'edit': m['edit'],
                    'claim_broken': m['claim'], 'expected': m.get('props', []), 'killed': ok,
                    'theorems_failed': errs, 'properties_not_rebuilt': b,
                    'theorems_tightened': m.get('tightened', [])}) + '\n')

main()
