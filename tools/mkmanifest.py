#!/usr/bin/env python3
"""Collect the property theorems (named C<nn>_...) from the Lean sources into MANIFEST.json.
Status and notes come from tools/status.json: {"C01": {"status": ..., "note": ...}}; the default
status is "proved"."""
import json, re, pathlib
root = pathlib.Path(__file__).resolve().parent.parent
props = [json.loads(l) for l in open(root/'properties.jsonl')]
status = json.load(open(root/'tools/status.json'))
thms = {}
for f in sorted((root/'lean/Verif').rglob('*.lean')):
    ns = []
    for line in f.read_text().splitlines():
        m = re.match(r'namespace\s+(\S+)', line)
        if m: ns.append(m.group(1))
        m = re.match(r'end\s+(\S+)', line)
        if m and ns and ns[-1] == m.group(1): ns.pop()
        m = re.match(r'(?:@\[[^\]]*\]\s*)?theorem\s+(C\d\d+)_(\S+)', line)
        if m:
            thms.setdefault(m.group(1), []).append('.'.join(ns + [m.group(1)+'_'+m.group(2)]))
claims = []
for p in props:
    i = p['id']
    st = status.get(i, {})
    t = thms.get(i, [])
    s = st.get('status', 'proved' if t else 'todo')
    if s == 'todo':
        continue
    claims.append({'property': i, 'status': s, 'theorems': t, 'note': st.get('note', '')})
missing = [i for i in thms if i not in {p['id'] for p in props}]
if missing: print('no property for', missing)
print('todo:', [p['id'] for p in props if p['id'] not in {c['property'] for c in claims}])
json.dump({'claims': claims}, open(root/'MANIFEST.json', 'w'), indent=1, ensure_ascii=False)
print(len(claims), 'claims,', sum(len(c['theorems']) for c in claims), 'theorems')
