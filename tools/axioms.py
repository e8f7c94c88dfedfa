#!/usr/bin/env python3
"""Rewrite the axiom list at the end of DESIGN.md from lines `name<TAB>axioms` (output of collectAxioms) given as argument."""
import sys, re
groups = {}
for l in open(sys.argv[1]):
    m = re.match(r'Madg\.(\S+)\t(.*)$', l.rstrip('\n'))
    if m:
        groups.setdefault(m.group(2), []).append(m.group(1))
d = open('/verif/DESIGN.md').read()
d = d[:d.index('## Axioms per theorem')]
out = '## Axioms per theorem\n\nOutput of `collectAxioms` on every property theorem (namespace `Madg`).\n'
for k in sorted(groups, key=lambda k: (k.count(','), k != '', k)):
    out += '\n### ' + (', '.join('`%s`' % x for x in k.split(',')) if k else 'No axioms') + '\n\n'
    out += ', '.join('`%s`' % n for n in sorted(groups[k])) + '\n'
open('/verif/DESIGN.md', 'w').write(d + out)
