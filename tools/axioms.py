#!/usr/bin/env python3
"""Regenerate AXIOMS.md: the axioms every theorem of the manifest depends on (run after `lake build`)."""
import json, os, re, subprocess, tempfile
root = os.path.dirname(os.path.dirname(os.path.abspath(__file__)))
claims = json.load(open(root + '/MANIFEST.json'))['claims']
names = [t for c in claims for t in c['theorems']]
with tempfile.NamedTemporaryFile('w', suffix='.lean', delete=False) as f:
    f.write('import Verif\n' + ''.join(f'#print axioms {n}\n' for n in names))
out = subprocess.run(['lake', 'env', 'lean', f.name], cwd=root + '/lean', capture_output=True, text=True).stdout
os.unlink(f.name)
ax = {}
for n, rest in re.findall(r"'([^']+)' (does not depend on any axioms|depends on axioms: \[[^\]]*\])", out):
    ax[n] = 'none' if rest.startswith('does') else ', '.join(re.sub(r'.*\[|\]', '', rest.replace('\n', ' ')).split(', '))
with open(root + '/AXIOMS.md', 'w') as f:
    f.write('# Axioms of the property theorems\n\nGenerated by tools/axioms.py from `#print axioms`.\n\n')
    f.write('| property | theorem | axioms |\n|---|---|---|\n')
    for c in claims:
        for t in c['theorems']:
            f.write(f"| {c['property']} | {t} | {ax[t]} |\n")
print(len(ax), sorted(set(ax.values())))
