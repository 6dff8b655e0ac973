"""Write AXIOMS.md: the axioms each theorem named in MANIFEST.json depends on, as Lean reports them."""
import json, re, subprocess, tempfile, os
m = json.load(open('/verif/MANIFEST.json'))
names = [t for c in m['claims'] for t in c['theorems']]
with tempfile.TemporaryDirectory() as d:
    f = os.path.join(d, 'a.lean')
    open(f, 'w').write('import Verif\n' + ''.join(f'#print axioms {n}\n' for n in names))
    out = subprocess.run(['lake', 'env', 'lean', f], cwd='/verif/lean', capture_output=True, text=True).stdout
res = {}
for n, a in re.findall(r"'([^']+)' (depends on axioms: \[[^\]]*\]|does not depend on any axioms)", out):
    res[n] = ', '.join(x.strip() for x in re.sub(r'.*\[|\]', '', a.replace('\n', ' ')).split(',')) if '[' in a else 'none'
missing = [n for n in names if n not in res]
groups = {}
for n in names:
    if n in res: groups.setdefault(res[n], []).append(n)
with open('/verif/AXIOMS.md', 'w') as f:
    f.write('# Axioms the theorems depend on\n\nGenerated by `tools/axioms.py` from `#print axioms`.\n')
    for g, l in sorted(groups.items(), key=lambda x: -len(x[1])):
        f.write(f'\n## {g} ({len(l)} theorems)\n\n' + ''.join(f'* `{n}`\n' for n in l))
print({g: len(l) for g, l in groups.items()}, missing[:5], len(missing))
