"""Writes lean/Verif/Audit.lean: for every theorem named in MANIFEST.json the axioms it depends on. Needs a finished build."""
import json, os, re, subprocess
root = os.path.join(os.path.dirname(os.path.abspath(__file__)), '..')
lean = os.path.join(root, 'lean')
names = [t for c in json.load(open(os.path.join(root, 'MANIFEST.json')))['claims'] for t in c['theorems']]
files = sorted(f[:-5] for f in os.listdir(os.path.join(lean, 'Verif/Props')) if f.endswith('.lean'))
head = ''.join(f'import Verif.Props.{m}\n' for m in files)
tmp = '/tmp/axioms.lean'
open(tmp, 'w').write(head + ''.join(f'#print axioms {n}\n' for n in names))
out = subprocess.run(['lake', 'env', 'lean', tmp], cwd=lean, capture_output=True, text=True)
assert out.returncode == 0, out.stdout + out.stderr
text = re.sub(r'\s+', ' ', out.stdout)
found = dict(re.findall(r"'([^']+)' ((?:depends on axioms: \[[^\]]*\])|(?:does not depend on any axioms))", text))
allowed = {'propext', 'Classical.choice', 'Quot.sound'}
with open(os.path.join(lean, 'Verif/Audit.lean'), 'w') as f:
    f.write(head)
    f.write('''/-!
# The axioms the property theorems depend on

Written by `tools/audit.py`. The build fails if a theorem named in `MANIFEST.json` does not exist or depends on other axioms
than stated here.
-/
''')
    for n in names:
        m = re.match(r'depends on axioms: \[(.*)\]', found[n])
        assert m is None or set(x.strip() for x in m.group(1).split(',')) <= allowed, (n, found[n])
        f.write(f"\n/-- info: '{n}' {found[n]} -/\n#guard_msgs (whitespace := lax) in #print axioms {n}\n")
print(len(names), 'theorems')
