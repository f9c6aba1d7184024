#!/usr/bin/env python3
"""Lists the lines of the library headers that no citation comment in lean/Verif mentions."""
import re, glob, os, sys
root = os.path.dirname(os.path.dirname(os.path.abspath(__file__)))
inc = '/repo/include/intervals/'
cov = {}
for p in glob.glob(root + '/lean/Verif/Model/*.lean'):
    for m in re.finditer(r'((?:detail/|examples/|src/)?[\w-]+\.(?:hpp|cpp)):((?:\d+(?:–\d+)?(?:, )?)+)', open(p).read()):
        for r in re.findall(r'\d+(?:–\d+)?', m.group(2)):
            a, *b = r.split('–')
            cov.setdefault(m.group(1), set()).update(range(int(a), int((b or [a])[0]) + 1))
for f in sorted(glob.glob(inc + '*.hpp') + glob.glob(inc + 'detail/*.hpp')):
    n = f[len(inc):]
    ls = open(f).read().split('\n')
    c = cov.get(n, set())
    code = [i for i, l in enumerate(ls, 1) if l.strip() and not l.strip().startswith(('//', '#', '{', '}'))]
    print(f'== {n}: {sum(1 for i in code if i in c)}/{len(code)} code lines cited')
    if len(sys.argv) > 1:
        for i in code:
            if i not in c: print(f'{i:5} {ls[i-1]}')
