"""Write AXIOMS.md: the axioms each theorem named in MANIFEST.json depends on.
Run from /verif after `lake build` in /verif/lean."""
import json, os, re, subprocess, tempfile
claims = json.load(open('MANIFEST.json'))['claims']
names = [(c['property'], t) for c in claims for t in c['theorems']]
src = 'import Verif\n' + ''.join('#print axioms %s\n' % t for t in dict.fromkeys(t for _, t in names))
with tempfile.NamedTemporaryFile('w', suffix='.lean', delete=False) as f:
    f.write(src)
out = subprocess.run(['lake', 'env', 'lean', f.name], cwd='lean', capture_output=True, text=True).stdout
os.unlink(f.name)
ax = {}
for m in re.finditer(r"'([^']+(?:'[^']*)*?)' (does not depend on any axioms|depends on axioms: \[([^\]]*)\])", out):
    ax[m.group(1)] = [] if m.group(3) is None else [a.strip() for a in m.group(3).split(',')]
bad = [t for _, t in names if t not in ax]
assert not bad, (bad[:5], out[:500])
allowed = {'propext', 'Classical.choice', 'Quot.sound'}
assert all(set(v) <= allowed for v in ax.values())
with open('AXIOMS.md', 'w') as f:
    f.write('# Axioms of the property theorems\n\nGenerated by tools/axioms.py with `#print axioms`.\n\n| property | theorem | axioms |\n|---|---|---|\n')
    for p, t in names:
        f.write('| %s | `%s` | %s |\n' % (p, t, ', '.join(sorted(ax[t])) or 'none'))
print(len(ax), 'theorems')
