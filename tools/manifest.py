#!/usr/bin/env python3
"""Regenerate MANIFEST.json: theorems are found by name in lean/Verif/Props, status and notes are in
tools/notes.json."""
import json, re, glob, os
root = os.path.dirname(os.path.dirname(os.path.abspath(__file__)))
thms = {}
for f in sorted(glob.glob(root + '/lean/Verif/Props/*.lean')):
    scopes = []
    for line in open(f):
        m = re.match(r'(namespace|section|end)(?: ([A-Z]\S*))?$', line)
        if m and m.group(1) == 'end':
            scopes.pop()
        elif m:
            scopes.append(m.group(2) if m.group(1) == 'namespace' else None)
        m = re.match(r'theorem (C\d+)_(\S+)', line)
        if m:
            name = '%s_%s' % m.groups()
            thms.setdefault(m.group(1), []).append('.'.join([x for x in scopes if x] + [name]))
notes = json.load(open(root + '/tools/notes.json'))
claims = []
for line in open(root + '/properties.jsonl'):
    if not line.strip():
        continue
    p = json.loads(line)
    c = p['id']
    n = notes.get(c, {})
    t = thms.get(c, [])
    if not t and n.get('status') != 'not_applicable':
        continue
    status = n.get('status') or ('partial' if any(x.endswith('_partial') for x in t) else 'proved')
    claims.append({'property': c, 'status': status, 'theorems': t, 'note': n.get('note', '')})
json.dump({'claims': claims}, open(root + '/MANIFEST.json', 'w'), indent=1, ensure_ascii=False)
print(len(claims), 'claims', sum(len(c['theorems']) for c in claims), 'theorems')
