#!/usr/bin/env python3
"""Write MANIFEST.json: scan lean/Verif/Props for theorems named Cxx_... and add status/notes."""
import re, json, glob, os
root = os.path.dirname(os.path.dirname(os.path.abspath(__file__)))
notes = json.load(open(os.path.join(root, 'tools', 'status.json')))
thms = {}
for f in sorted(glob.glob(os.path.join(root, 'lean', 'Verif', 'Props', '*.lean'))):
    for m in re.finditer(r'^theorem (C(\d\d)_\w+)', open(f).read(), re.M):
        thms.setdefault('C' + m.group(2), []).append('Bml.Props.' + m.group(1))
claims = []
for l in open(os.path.join(root, 'properties.jsonl')):
    pid = json.loads(l)['id']
    t = thms.get(pid, [])
    st = notes.get(pid)
    if st is None:
        if t:
            print('no status for', pid)
        continue
    claims.append({'property': pid, 'status': st[0], 'theorems': t, 'note': st[1]})
json.dump({'claims': claims}, open(os.path.join(root, 'MANIFEST.json'), 'w'), indent=1)
print(len(claims), 'claims;', sum(len(c['theorems']) for c in claims), 'theorems')
missing = [json.loads(l)['id'] for l in open(os.path.join(root, 'properties.jsonl')) if json.loads(l)['id'] not in notes]
print('missing:', missing)
