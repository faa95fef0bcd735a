"""Regenerates MANIFEST.json from the theorem names `Cxx_...` found in lean/Verif, and notes in tools/notes.json."""
import glob, json, re
notes = json.load(open('/verif/tools/notes.json'))
props = [json.loads(l) for l in open('/verif/properties.jsonl') if l.strip()]
thms = {}
for f in sorted(glob.glob('/verif/lean/Verif/*/*.lean')):
    ns = []
    for line in open(f).read().split('\n'):
        m = re.match(r'namespace (\S+)', line)
        if m: ns.append(m.group(1))
        m = re.match(r'end (\S+)', line)
        if m and ns and ns[-1] == m.group(1): ns.pop()
        m = re.match(r'^(?:private )?theorem (C\d+_\S+)', line)
        if m: thms.setdefault(m.group(1).split('_')[0], []).append('.'.join(ns + [m.group(1)]))
claims = []
for p in props:
    i = p['id']
    t = thms.get(i, [])
    n = notes.get(i, {})
    if not t:
        st = n.get('status', 'not_applicable') if isinstance(n, dict) else 'not_applicable'
    elif any(x.endswith('_partial') or 'counterexample' in x for x in t):
        st = 'partial'
    else:
        st = 'proved'
    st = n.get('status', st) if isinstance(n, dict) else st
    note = n.get('note', '') if isinstance(n, dict) else n
    claims.append({'property': i, 'status': st, 'theorems': t, 'note': note})
json.dump({'claims': claims}, open('/verif/MANIFEST.json', 'w'), indent=1, ensure_ascii=False)
from collections import Counter
print(Counter(c['status'] for c in claims), sum(len(c['theorems']) for c in claims))
print('missing:', [c['property'] for c in claims if not c['theorems']])
