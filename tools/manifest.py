#!/usr/bin/env python3
"""Regenerate MANIFEST.json from the theorem names in lean/Verif/Props and tools/notes.json."""
import json, re, glob, collections
props = [json.loads(l) for l in open('/verif/properties.jsonl') if l.strip()]
notes = json.load(open('/verif/tools/notes.json'))
th = collections.defaultdict(list)
for f in sorted(glob.glob('/verif/lean/Verif/Props/*.lean')):
    src = open(f).read()
    ns = ''
    for m in re.finditer(r'^namespace (\S+)|^theorem (C\d+_\w*)', src, re.M):
        if m.group(1):
            ns = m.group(1)
        else:
            th[m.group(2).split('_')[0]].append(ns + '.' + m.group(2))
claims = []
for p in props:
    i = p['id']
    n = notes.get(i, {})
    if not th[i]:
        print('no theorem for', i); continue
    claims.append({'property': i, 'status': n.get('status', 'proved'), 'theorems': th[i], 'note': n.get('note', '')})
json.dump({'claims': claims}, open('/verif/MANIFEST.json', 'w'), indent=1)
