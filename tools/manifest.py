#!/usr/bin/env python3
"""Regenerates MANIFEST.json, lean/Verif.lean and lean/Verif/Audit.lean from the property files.

Theorems are attributed to a property by their name prefix (C07_...). Status and notes come from notes.json.
"""
import glob, json, os, re
root = os.path.dirname(os.path.dirname(os.path.abspath(__file__)))
lean = os.path.join(root, 'lean')
notes = json.load(open(os.path.join(root, 'tools', 'notes.json')))
props = [json.loads(l)['id'] for l in open(os.path.join(root, 'properties.jsonl')) if l.strip()]
thms, mods = {}, []
for f in sorted(glob.glob(os.path.join(lean, 'Verif', '**', '*.lean'), recursive=True)):
    mod = os.path.relpath(f, lean)[:-5].replace('/', '.')
    if mod == 'Verif.Audit':
        continue
    mods.append(mod)
    if '.Props.' in mod:
        ns = []
        for line in open(f):
            if m := re.match(r'(namespace|section|end)\b\s*(\S*)', line):
                if m.group(1) == 'end':
                    ns.pop()
                else:
                    ns.append(m.group(2) if m.group(1) == 'namespace' else '')
            elif m := re.match(r'(?:protected )?theorem (C\d\d+)_(\S+)', line):
                thms.setdefault(m.group(1), []).append('.'.join([n for n in ns if n] + ['%s_%s' % m.groups()]))
claims = []
for p in props:
    if p not in thms and p not in notes:
        continue
    n = notes.get(p, {})
    claims.append({'property': p, 'status': n.get('status', 'proved' if p in thms else 'not_applicable'),
                   'theorems': thms.get(p, []), 'note': n.get('note', '')})
json.dump({'claims': claims}, open(os.path.join(root, 'MANIFEST.json'), 'w'), indent=1, ensure_ascii=False)
open(os.path.join(root, 'MANIFEST.json'), 'a').write('\n')
with open(os.path.join(lean, 'Verif', 'Audit.lean'), 'w') as o:
    for m in mods:
        if '.Props.' in m:
            o.write('import %s\n' % m)
    o.write('/-! Axioms used by every claimed theorem (generated by tools/manifest.py). -/\n')
    for p in props:
        for t in thms.get(p, []):
            o.write('#print axioms %s\n' % t)
with open(os.path.join(lean, 'Verif.lean'), 'w') as o:
    for m in mods + ['Verif.Audit']:
        o.write('import %s\n' % m)
missing = [p for p in props if p not in thms]
dup = [t for ts in thms.values() for t in ts if ts.count(t) > 1]
print(len(claims), 'claims,', sum(map(len, thms.values())), 'theorems; without theorem:', ' '.join(missing), '; duplicates:', dup)
for p in thms:
    bad = any(('_violated' in t or '_partial' in t) for t in thms[p])
    if bad and notes.get(p, {}).get('status') != 'partial':
        print('needs status partial:', p)
