#!/usr/bin/env python3
"""Measure the axioms of every theorem of MANIFEST.json and rewrite the appendix of DESIGN.md.
usage: tools/axioms.py   (needs a built lean/)"""
import json, re, subprocess, os, textwrap
root = os.path.dirname(os.path.dirname(os.path.abspath(__file__)))
names = list(dict.fromkeys(t for c in json.load(open(root + '/MANIFEST.json'))['claims'] for t in c['theorems']))
open('/tmp/ax.lean', 'w').write('import Verif\n' + ''.join('#print axioms %s\n' % n for n in names))
out = subprocess.run(['lake', 'env', 'lean', '/tmp/ax.lean'], cwd=root + '/lean', capture_output=True, text=True).stdout
out = re.sub(r'\n\s+', ' ', out)
sets = {}
for l in out.split('\n'):
    m = re.match(r"'(\S+)' depends on axioms: \[(.*)\]", l)
    if m:
        sets.setdefault(frozenset(m.group(2).split(', ')), []).append(m.group(1))
    elif 'does not depend' in l:
        sets.setdefault(frozenset(), []).append(l.split("'")[1])
    elif l.strip():
        raise SystemExit('unexpected: ' + l)
assert sum(map(len, sets.values())) == len(names)
assert set().union(*sets) <= {'propext', 'Quot.sound', 'Classical.choice'}
head = '## Appendix: the axioms of each theorem'
text = [head, '', 'Generated by `tools/axioms.py` from `#print axioms` over every theorem of MANIFEST.json.', '']
for s in sorted(sets, key=lambda s: (len(s), sorted(s))):
    t = ', '.join('`%s`' % a for a in sorted(s)) or 'no axiom at all'
    text.append('* **%s** (%d theorems):' % (t, len(sets[s])))
    body = ' '.join(sorted((n.split('.')[-1] for n in sets[s]), key=lambda n: (int(re.match(r'C(\d+)', n).group(1)), n)))
    text += textwrap.wrap(body, 120, initial_indent='  ', subsequent_indent='  ', break_long_words=False)
p = root + '/DESIGN.md'
d = open(p).read()
d = d.split('\n' + head)[0].rstrip('\n') + '\n\n' + '\n'.join(text) + '\n'
open(p, 'w').write(d)
print({', '.join(sorted(k)) or 'none': len(v) for k, v in sets.items()})
