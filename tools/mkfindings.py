"""Write FINDINGS.md: what the refuting theorems say, in the words of their comments."""
import glob, json, os, re
here = os.path.dirname(os.path.abspath(__file__))
root = os.path.join(here, '..')
props = {}
for line in open(os.path.join(root, 'properties.jsonl')):
    o = json.loads(line)
    props[o['id']] = o
out = {}
for f in sorted(glob.glob(os.path.join(root, 'lean/Verif/**/*.lean'), recursive=True)):
    s = open(f).read()
    for m in re.finditer(r'/--((?:(?!-/).)*)-/\s*(?:@\[[^\]]*\]\s*)?theorem\s+((C\d\d+)_\w*refuted\w*)', s, re.S):
        doc = ' '.join(m.group(1).split())
        doc = re.sub(r'^\*?\*?C\d+\*?\*?\s*(\([^)]*\))?:?\s*', '', doc)
        out.setdefault(m.group(3), []).append((m.group(2), doc, os.path.relpath(f, os.path.join(root, 'lean'))))
missing = []
for f in glob.glob(os.path.join(root, 'lean/Verif/**/*.lean'), recursive=True):
    for m in re.finditer(r'^theorem\s+(C\d\d+_\w*refuted\w*)', open(f).read(), re.M):
        if not any(m.group(1) == n for l in out.values() for n, _, _ in l):
            missing.append(m.group(1))
with open(os.path.join(root, 'FINDINGS.md'), 'w') as g:
    g.write('# Where the code does not do what was expected of it\n\n'
            'Generated by tools/mkfindings.py from the comments of the refuting theorems. Each of these theorems '
            'is about the model: it gives an input, or a class of inputs, for which the property fails.\n')
    for k in sorted(out):
        g.write('\n## %s %s\n\n%s\n\n' % (k, props[k]['title'], props[k]['statement']))
        for n, d, f in out[k]:
            g.write('- `%s` (%s): %s\n' % (n, f, d))
print(sum(map(len, out.values())), 'findings; without comment:', missing)
