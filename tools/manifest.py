#!/usr/bin/env python3
"""Regenerates MANIFEST.json, lean/Verif.lean from the Lean sources and tools/notes.json."""
import re, json, os, glob
root = os.path.dirname(os.path.dirname(os.path.abspath(__file__)))
mods = sorted(p[len(root)+6:-5].replace('/', '.') for p in glob.glob(root + '/lean/Verif/**/*.lean', recursive=True))
open(root + '/lean/Verif.lean', 'w').write(''.join(f'import {m}\n' for m in mods))
thms = {}
for p in sorted(glob.glob(root + '/lean/Verif/Props/**/*.lean', recursive=True)):
    ns = ''
    for line in open(p):
        m = re.match(r'namespace (\S+)', line)
        if m: ns = m.group(1)
        m = re.match(r'(?:protected |private )?theorem ((C\d\d+)_\w+)', line)
        if m and not line.startswith('private'):
            thms.setdefault(m.group(2), []).append(ns + '.' + m.group(1))
notes = json.load(open(root + '/tools/notes.json'))
ids = [json.loads(l)['id'] for l in open(root + '/properties.jsonl') if l.strip()]
claims = []
for i in ids:
    t = thms.get(i, [])
    n = notes.get(i, {})
    if not t and n.get('status') != 'not_applicable':
        continue
    status = n.get('status') or ('partial' if any(x.endswith('_partial') for x in t) or not t else 'proved')
    note = n.get('note', '' if t else 'not proved yet')
    claims.append({'property': i, 'status': status, 'theorems': t, 'note': note})
json.dump({'claims': claims}, open(root + '/MANIFEST.json', 'w'), indent=1, ensure_ascii=False)
print({s: sum(1 for c in claims if c['status'] == s) for s in ('proved', 'partial', 'not_applicable')}, [i for i in ids if i not in thms])
