#!/usr/bin/env python3
"""Write MANIFEST.json from the theorem names Cxx_* under lean/Verif and the notes in tools/notes.json.

notes.json: {"C01": {"status": "proved" | "partial" | "not_applicable", "note": "..."}}
"""
import json, re, glob, os
root = os.path.dirname(os.path.dirname(os.path.abspath(__file__)))
notes = json.load(open(os.path.join(root, 'tools/notes.json')))
ids = [json.loads(l)['id'] for l in open(os.path.join(root, 'properties.jsonl')) if l.strip()]
thms = {}
for f in sorted(glob.glob(os.path.join(root, 'lean/Verif/**/*.lean'), recursive=True)):
    ns = []
    for line in open(f):
        m = re.match(r'namespace (\S+)', line)
        if m:
            ns.append(m.group(1))
        m = re.match(r'end (\S+)', line)
        if m and ns and ns[-1] == m.group(1):
            ns.pop()
        m = re.match(r'theorem (C\d\d\d?)_(\S+)', line)
        if m:
            thms.setdefault(m.group(1), []).append('.'.join(ns + [m.group(1) + '_' + m.group(2)]))
claims = []
for i in ids:
    if i in thms:
        n = notes.get(i, {})
        st = n.get('status', 'partial' if any(t.endswith('_partial') for t in thms[i]) else 'proved')
        claims.append({'property': i, 'status': st, 'theorems': thms[i], 'note': n.get('note', '')})
    elif i in notes:
        claims.append({'property': i, 'status': notes[i]['status'], 'theorems': [], 'note': notes[i]['note']})
unknown = set(thms) - set(ids)
assert not unknown, unknown
json.dump({'claims': claims}, open(os.path.join(root, 'MANIFEST.json'), 'w'), indent=1, ensure_ascii=False)
print(len(claims), 'claims;', 'missing:', [i for i in ids if i not in {c['property'] for c in claims}])
