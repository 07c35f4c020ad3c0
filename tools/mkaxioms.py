"""Write AXIOMS.md: the axioms every theorem of MANIFEST.json depends on (run after lake build)."""
import json, os, re, subprocess, tempfile
here = os.path.dirname(os.path.abspath(__file__))
root = os.path.join(here, '..')
ths = []
for c in json.load(open(os.path.join(root, 'MANIFEST.json')))['claims']:
    for t in c['theorems']:
        if t not in ths:
            ths.append(t)
with tempfile.NamedTemporaryFile('w', suffix='.lean', delete=False) as f:
    f.write('import Verif\n' + ''.join('#print axioms %s\n' % t for t in ths))
out = subprocess.run(['lake', 'env', 'lean', f.name], cwd=os.path.join(root, 'lean'), capture_output=True, text=True).stdout
groups = {}
for m in re.finditer(r"'([^']+)' (?:depends on axioms: \[([^\]]*)\]|does not depend on any axioms)", out):
    groups.setdefault(' '.join((m.group(2) or 'none').replace(',', ' ').split()), []).append(m.group(1))
n = sum(map(len, groups.values()))
assert n == len(ths), (n, len(ths), out[:2000])
with open(os.path.join(root, 'AXIOMS.md'), 'w') as g:
    g.write('# Axioms of the theorems\n\nGenerated by tools/mkaxioms.py from `#print axioms`.\n')
    for k in sorted(groups):
        g.write('\n## %s\n\n%s\n' % (k, '\n'.join('- ' + t for t in groups[k])))
print({k: len(v) for k, v in groups.items()})
