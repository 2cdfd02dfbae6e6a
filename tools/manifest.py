"""Write MANIFEST.json from the theorems in lean/Verif/Props.

A property is `partial` when one of its theorems is named `*_partial` or when it is listed in PARTIAL.
NOTES holds one remark per property.
"""
import json, pathlib, re
root = pathlib.Path(__file__).resolve().parent.parent
NOTES = json.loads((root / 'tools' / 'notes.json').read_text())
claims = []
ids = [json.loads(l)['id'] for l in (root / 'properties.jsonl').read_text().splitlines()]
for i in ids:
    thms = []
    for f in sorted((root / 'lean' / 'Verif' / 'Props').glob(f'{i}_*.lean')):
        thms += ['Verif.Props.' + t for t in re.findall(rf'^theorem ({i}\w*)', f.read_text(), re.M)]
    if not thms:
        continue
    n = NOTES.get(i, {})
    part = any(t.endswith('_partial') for t in thms) or n.get('partial', False)
    claims.append(dict(property=i, status='partial' if part else 'proved', theorems=thms, note=n.get('note', '')))
(root / 'MANIFEST.json').write_text(json.dumps({'claims': claims}, indent=1) + '\n')
print(len(claims), 'claims', sum(c['status'] == 'proved' for c in claims), 'proved; none yet:',
      [i for i in ids if i not in {c['property'] for c in claims}])
