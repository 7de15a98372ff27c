#!/usr/bin/env python3
"""Write lean/Verif/Axioms.lean: for every property theorem the axioms it depends on, checked by the build.

Needs a finished `lake build`.  Fails if a theorem uses an axiom other than the three standard ones.
"""
import glob, re, subprocess, sys, os
LEAN = os.path.join(os.path.dirname(os.path.abspath(__file__)), '..', 'lean')
OK = {'propext', 'Classical.choice', 'Quot.sound'}
ths, mods = [], []
for f in sorted(glob.glob(LEAN + '/Verif/Props/*.lean')):
    mods.append('Verif.Props.' + os.path.basename(f)[:-5])
    ns = ''
    for m in re.finditer(r'^namespace (\S+)|^theorem (C\d+_\w*)', open(f).read(), re.M):
        if m.group(1): ns = m.group(1)
        else: ths.append(ns + '.' + m.group(2))
imports = ''.join('import %s\n' % m for m in mods)
tmp = '/tmp/axioms_chk.lean'
open(tmp, 'w').write(imports + '\n'.join('#print axioms %s' % t for t in ths))
out = subprocess.run(['lake', 'env', 'lean', tmp], cwd=LEAN, capture_output=True, text=True).stdout
found = {}
for m in re.finditer(r"'([^']+)' (does not depend on any axioms|depends on axioms: \[([^\]]*)\])", out):
    found[m.group(1)] = [a.strip() for a in (m.group(3) or '').split(',') if a.strip()]
bad = [t for t in ths if t not in found or set(found[t]) - OK]
if bad: sys.exit('not accounted for: %s' % bad[:10])
src = imports + '''/-!
The axioms of every property theorem.  Generated by tools/axioms.py; the build fails if one of these
lists is wrong.
-/
'''
for t in ths:
    a = found[t]
    msg = "'%s' %s" % (t, 'depends on axioms: [%s]' % ', '.join(a) if a else 'does not depend on any axioms')
    src += '\n/-- info: %s -/\n#guard_msgs (whitespace := lax) in #print axioms %s\n' % (msg, t)
open(LEAN + '/Verif/Axioms.lean', 'w').write(src)
print(len(ths), 'theorems')
