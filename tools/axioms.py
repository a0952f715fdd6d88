#!/usr/bin/env python3
"""Writes AXIOMS.md: for every theorem named in MANIFEST.json, the axioms it depends on (run after `lake build`)."""
import json, re, subprocess
claims = json.load(open('/verif/MANIFEST.json'))['claims']
names = []
for c in claims:
    for t in c['theorems']:
        if t not in names: names.append(t)
open('/tmp/ax.lean', 'w').write("\n".join(["import Verif", "open Flate Flate.Props"] + ["#print axioms " + t for t in names]))
out = subprocess.run(['lake', 'env', 'lean', '/tmp/ax.lean'], cwd='/verif/lean', capture_output=True, text=True).stdout
d = {}
for m in re.finditer(r"'([^']+)' (does not depend on any axioms|depends on axioms: \[([^\]]*)\])", out):
    d[m.group(1).split('.')[-1]] = ', '.join(x.strip() for x in (m.group(3) or 'none').split(','))
allowed = {'propext', 'Quot.sound', 'Classical.choice', 'none'}
with open('/verif/AXIOMS.md', 'w') as f:
    f.write("# Axioms of each theorem\n\nAs printed by Lean (`tools/axioms.py`).\n\n| property | theorem | axioms |\n|---|---|---|\n")
    for c in claims:
        for t in c['theorems']:
            a = d[t.split('.')[-1]]
            assert set(a.split(', ')) <= allowed, (t, a)
            f.write(f"| {c['property']} | {t} | {a} |\n")
