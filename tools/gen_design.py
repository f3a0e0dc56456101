#!/usr/bin/env python3
"""Generates /verif/DESIGN.md. Usage: gen_design.py  (runs `lake env lean` for the axioms)."""
import json, re, subprocess, os, tempfile
V = '/verif'
props = [json.loads(l) for l in open(f'{V}/properties.jsonl')]
man = {c['property']: c for c in json.load(open(f'{V}/MANIFEST.json'))['claims']}
exec(open(f'{V}/tools/design_plan.py').read())   # PLAN: id -> (modelled by, proof)
names = sorted({t for c in man.values() for t in c['theorems']})
with tempfile.NamedTemporaryFile('w', suffix='.lean', delete=False) as f:
    f.write('import Verif\n' + ''.join(f'#print axioms {n}\n' for n in names))
out = subprocess.run(['lake', 'env', 'lean', f.name], cwd=f'{V}/lean', capture_output=True, text=True).stdout
os.unlink(f.name)
ax = {}
for m in re.finditer(r"'([^']+)' (depends on axioms: \[([^\]]*)\]|does not depend on any axioms)", out):
    ax[m.group(1)] = set(a.strip() for a in (m.group(3) or '').split(',') if a.strip())
assert set(names) <= set(ax), set(names) - set(ax)
allowed = {'propext', 'Quot.sound', 'Classical.choice'}
for n in names: assert ax[n] <= allowed, (n, ax[n])
short = {'propext': 'p', 'Quot.sound': 'q', 'Classical.choice': 'c'}
s = open(f'{V}/tools/design_head.md').read()
s += '''
## Per property

Proof shapes: *inv* = invariant over all executions of the `P` monad (Hoare-style rules for every `Readable`);
*ref* = refinement between model and `Spec/Format`; *rel* = model result ↔ inductive relation in `Spec`;
*neg* = concrete refutation, with the provable remainder as `_partial`.
Axioms: p = `propext`, q = `Quot.sound`, c = `Classical.choice`.

| id | status | modelled by | proof | theorems (`Btf.Props.`) | axioms |
|---|---|---|---|---|---|
'''
for p in props:
    c = man[p['id']]
    a = set().union(*[ax[t] for t in c['theorems']]) if c['theorems'] else set()
    ths = ', '.join('`' + t.replace('Btf.Props.', '') + '`' for t in c['theorems'])
    m, pr = PLAN[p['id']]
    s += f"| {p['id']} {p['title']} | {c['status']} | {m} | {pr} | {ths} | {''.join(short[x] for x in ('propext','Quot.sound','Classical.choice') if x in a)} |\n"
s += '\n## What is missing from the partial ones\n\n'
for p in props:
    c = man[p['id']]
    if c['status'] == 'partial': s += f"* **{p['id']}** {c['note']}\n"
open(f'{V}/DESIGN.md', 'w').write(s)
