"""Writes DESIGN.md from design_top.md, MANIFEST.json, properties.jsonl and the axioms Lean reports."""
import json, re, subprocess
R = '/verif/'
HOW = {}
def h(ids, model, proof):
    for i in ids.split(): HOW[i] = (model, proof)
exec(open(R + 'tools/how.py').read())
claims = json.load(open(R + 'MANIFEST.json'))['claims']
props = {d['id']: d for d in map(json.loads, open(R + 'properties.jsonl'))}
ths = [t for c in claims for t in c['theorems']]
open('/tmp/ax.lean', 'w').write('import Verif\n' + '\n'.join('#print axioms ' + t for t in ths))
out = subprocess.run(['lake', 'env', 'lean', '/tmp/ax.lean'], cwd=R + 'lean', capture_output=True, text=True).stdout
ax = {}
for t in ths:
    g = re.search("'" + re.escape(t) + r"' (does not depend on any axioms|depends on axioms: \[([^\]]*)\])", out)
    ax[t] = tuple(sorted(x.strip() for x in (g[2] or '').split(',') if x.strip()))
s = open(R + 'tools/design_top.md').read()
s += '## Properties\n\n| id | property | modelled by | proved by | theorems | status |\n|---|---|---|---|---|---|\n'
missing = [c['property'] for c in claims if c['property'] not in HOW]
if missing: raise SystemExit(f'no entry in how.py: {missing}')
for c in claims:
    i = c['property']; m, p = HOW[i]
    s += f"| {i} | {props[i]['title']} | {m} | {p} | {', '.join('`' + t[3:] + '`' for t in c['theorems'])} | {c['status']} |\n"
notes = [(c['property'], c['note']) for c in claims if c['note']]
s += '\nNotes on single properties:\n\n' + ''.join(f'* {i}: {n}\n' for i, n in notes)
s += '\n## Axioms per theorem\n\n'
for a in sorted(set(ax.values())):
    s += f"* {', '.join(a) or 'none'}: " + ', '.join('`' + t[3:] + '`' for t in ths if ax[t] == a) + '\n'
open(R + 'DESIGN.md', 'w').write(s)
print(len(ths), set(ax.values()))
