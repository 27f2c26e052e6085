#!/usr/bin/env python3
"""Regenerates the generated parts of DESIGN.md (property table and axioms) from properties.jsonl, MANIFEST.json and
`#print axioms` on the built project. Run from /verif after `lake build`."""
import json, re, subprocess, os, tempfile, collections
root = os.path.dirname(os.path.dirname(os.path.abspath(__file__)))
M = {c['property']: c for c in json.load(open(root + '/MANIFEST.json'))['claims']}
P = [json.loads(l) for l in open(root + '/properties.jsonl')]
names = [t for p in P for t in M[p['id']]['theorems']]
f = tempfile.NamedTemporaryFile('w', suffix='.lean', delete=False)
f.write('import Verif\n' + ''.join('#print axioms %s\n' % n for n in names)); f.close()
out = subprocess.run(['lake', 'env', 'lean', f.name], cwd=root + '/lean', capture_output=True, text=True).stdout
os.unlink(f.name)
out = re.sub(r'\n\s+', ' ', out)
ax = {}
for m in re.finditer(r"'([^']+)' (?:depends on axioms: \[([^\]]*)\]|does not depend on any axioms)", out):
    ax[m.group(1)] = ', '.join(sorted(x.strip() for x in (m.group(2) or '').split(',') if x.strip())) or 'none'
groups = collections.OrderedDict()
for n in names: groups.setdefault(ax.get(n, 'UNKNOWN'), []).append(n.replace('Wis.', ''))
s = open(root + '/DESIGN.md').read()
def put(tag, text):
    global s
    a, b = '<!-- %s -->' % tag, '<!-- end %s -->' % tag
    i, j = s.index(a) + len(a), s.index(b)
    s = s[:i] + '\n' + text + '\n' + s[j:]
put('axioms', '\n'.join('* **%s** (%d theorems): %s' % (k, len(set(v)), ', '.join(sorted(set(v)))) for k, v in sorted(groups.items())))
put('status', '| id | property | status | theorems | remarks |\n|---|---|---|---|---|\n' + '\n'.join(
    '| %s | %s | %s | %s | %s |' % (p['id'], p['title'], M[p['id']]['status'],
    ', '.join(t.replace('Wis.', '') for t in M[p['id']]['theorems']), M[p['id']]['note'].replace('|', '/')) for p in P))
open(root + '/DESIGN.md', 'w').write(s)
print({k: len(v) for k, v in groups.items()})
