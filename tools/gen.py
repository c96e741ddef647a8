#!/usr/bin/env python3
"""Regenerate lean/Verif/Axioms.lean and MANIFEST.json from the property theorems in lean/Verif/Props.

A theorem named Cnn_... belongs to property Cnn.  Status: see NOTES; default 'proved'."""
import re, json, glob, os
root = os.path.dirname(os.path.dirname(os.path.abspath(__file__)))
exec(open(os.path.join(root, 'tools', 'notes.py')).read())
props = [json.loads(l) for l in open(os.path.join(root, 'properties.jsonl'))]
thms = {}
names = []
mods = []
for f in sorted(glob.glob(os.path.join(root, 'lean/Verif/Props/*.lean'))):
    mods.append('Verif.Props.' + os.path.basename(f)[:-5])
    for m in re.finditer(r'^theorem (C\d\d\w*)', open(f).read(), re.M):
        n = 'Yenc.Props.' + m.group(1)
        names.append(n)
        thms.setdefault(re.match(r'C\d+', m.group(1)).group(0), []).append(n)
with open(os.path.join(root, 'lean/Verif/Axioms.lean'), 'w') as o:
    for m in mods: o.write('import %s\n' % m)
    o.write('/-! Axioms of every property theorem (generated by tools/gen.py). -/\n\n')
    for n in names: o.write('#print axioms %s\n' % n)
claims = []
for p in props:
    i = p['id']
    st, note = NOTES.get(i, (None, ''))
    t = thms.get(i, [])
    if st is None:
        st = 'proved' if t else 'partial'
        if not t: note = note or 'Not yet modelled.'
    claims.append({'property': i, 'status': st, 'theorems': t, 'note': note})
json.dump({'claims': claims}, open(os.path.join(root, 'MANIFEST.json'), 'w'), indent=1, ensure_ascii=False)
print(len(names), 'theorems;', sum(1 for c in claims if c['theorems']), 'of', len(claims), 'properties covered')
