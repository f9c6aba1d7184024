#!/usr/bin/env python3
"""Writes AXIOMS.md: the axioms each theorem of MANIFEST.json depends on, as printed by Lean (needs a completed `lake build`)."""
import json, os, re, subprocess
root = os.path.dirname(os.path.dirname(os.path.abspath(__file__)))
thms = [t for c in json.load(open(root + '/MANIFEST.json'))['claims'] for t in c['theorems']]
src = '/tmp/Axioms.lean'
open(src, 'w').write('import Verif\n' + ''.join(f'#print axioms {t}\n' for t in thms))
out = subprocess.run(['lake', 'env', 'lean', src], cwd=root + '/lean', capture_output=True, text=True).stdout
out = re.sub(r'\n\s+', ' ', out)
dep = {}
for m in re.finditer(r"'([^']+)' (?:depends on axioms: \[([^\]]*)\]|(does not depend on any axioms))", out):
    dep[m.group(1)] = m.group(2) or 'none'
groups = {}
for t in thms:
    groups.setdefault(', '.join(sorted(dep[t].split(', '))), []).append(t.replace('Intervals.Props.', ''))
with open(root + '/AXIOMS.md', 'w') as f:
    f.write('# Axioms used (output of `#print axioms`, grouped; generated by tools/axioms.py)\n')
    for g in sorted(groups, key=lambda g: (g.count(','), g)):
        f.write(f'\n## {g} ({len(groups[g])} theorems)\n\n' + ', '.join(f'`{t}`' for t in groups[g]) + '\n')
print({g: len(v) for g, v in groups.items()})
