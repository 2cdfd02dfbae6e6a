"""Evaluate the Lean model on the database files of /repo. A test of the model, not a proof; no code of /repo is run.

run.py show|check NAME PASSWORD KEYFILE    ("_" is an empty password, "-" is None)

`show` prints header, inner header and tree of the opened file. `check` goes through the cases of tests.py. Argon2 is not part of
the model: it is in argon2.c, whose result is handed to the second run."""
import os, re, subprocess, sys, tempfile
HERE = os.path.dirname(os.path.abspath(__file__))
W = tempfile.mkdtemp()
mode, name, pw, kf = sys.argv[1:5]
path = lambda f: os.path.join(W, f)
with open(path('S.lean'), 'w') as f: f.write(open(os.path.join(HERE, mode + '.lean.txt')).read())
subprocess.run(['cc', '-O2', '-o', path('argon2'), os.path.join(HERE, 'argon2.c')], check=True)
def run(args):
    r = subprocess.run(['lake', 'env', 'lean', '--run', path('S.lean')] + args, capture_output=True, text=True, cwd=os.path.join(HERE, '../../lean'))
    return r.stdout + r.stderr
kf = kf if kf == '-' else '/repo/tests/' + kf
db = '/repo/pykeepass/blank_database.kdbx' if name == 'blank_database' else f'/repo/tests/{name}.kdbx'
out = run([db, pw, kf, '-'])
m = re.search(r'ARGON (\w+) \[(.*?)\] \[(.*?)\] (\d+) (\d+) (\d+) (\d+)', out)
if m:
    b = lambda s: bytes(int(x) for x in s.split(','))
    with open(path('sec'), 'wb') as f: f.write(b(m[2]))
    with open(path('salt'), 'wb') as f: f.write(b(m[3]))
    subprocess.run([path('argon2'), '2' if m[1] == 'true' else '0', path('sec'), path('salt'), m[4], m[5], m[6], m[7], path('key')], check=True)
    out = run([db, pw, kf, '-', path('salt'), path('key')])
print(out)
