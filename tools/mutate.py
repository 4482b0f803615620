"""Test the theorems against wrong programs.

All modules are put into one file outside /verif, one definition of the model is edited, and Lean runs over the whole file.
Lean carries on after a failed proof, so the output tells for each property theorem whether it still holds without `sorry`.

usage: mutate.py baseline | mutate.py run|part|aim|mon all|ID... [k/n]

`part` rechecks only the modules that depend on the edited one and takes the others as built there; for modules few others use.
`aim` checks only the modules which the theorems of the claim need, and tells nothing about other theorems; `aim=C69` those of C69.
"""
import json, os, re, subprocess, sys, time
ROOT = os.environ.get('SRC', '/verif') + '/lean'   # a snapshot, when the sources are being edited
OUT = '/tmp/mut'
CLEAN = OUT + '/clean' + ROOT.replace('/', '_')   # written when everything passes without edits

def modules(roots=('Verif',)):
    order, seen = [], set()
    def visit(m):
        if m in seen: return
        seen.add(m)
        p = f"{ROOT}/{m.replace('.', '/')}.lean"
        for l in open(p):
            g = re.match(r'import (\S+)', l)
            if g and g[1].startswith('Verif'): visit(g[1])
        order.append(m)
    for m in roots: visit(m)
    return order

def depending(ms):
    """the modules that import one of `ms`, directly or not, and these"""
    out = set(ms)
    for m in modules():
        p = f"{ROOT}/{m.replace('.', '/')}.lean"
        if any(g and g[1] in out for g in (re.match(r'import (\S+)', l) for l in open(p))): out.add(m)
    return out

def roots_of(claim):
    """the modules with the theorems of a claim"""
    ts = [t for c in json.load(open(f'{ROOT}/../MANIFEST.json'))['claims'] if c['property'] == claim for t in c['theorems']]
    return sorted({m for m in modules() for t in ts
                   if re.search(r'^theorem ' + re.escape(t.removeprefix('LS.')) + r'\b', open(f"{ROOT}/{m.replace('.', '/')}.lean").read(), re.M)})

class Unfinished(Exception): pass

def build(edits, tag, part=None, roots=('Verif',)):
    """edits: list of (module, old, new)"""
    imports, body = set(), []
    theorems = [t for c in json.load(open(f'{ROOT}/../MANIFEST.json'))['claims'] for t in c['theorems']]
    if roots != ('Verif',):
        text = '\n'.join(open(f"{ROOT}/{m.replace('.', '/')}.lean").read() for m in modules(roots))
        theorems = [t for t in theorems if re.search(r'^theorem ' + re.escape(t.removeprefix('LS.')) + r'\b', text, re.M)]
    for m in modules(roots):
        if part is not None and m not in part:
            imports.add('import ' + m)
            continue
        s = open(f"{ROOT}/{m.replace('.', '/')}.lean").read()
        for (mm, old, new) in edits:
            if mm == m:
                if s.count(old) != 1: raise SystemExit(f'{tag}: {s.count(old)} occurrences of {old!r} in {m}')
                s = s.replace(old, new)
        keep = []
        for l in s.split('\n'):
            g = re.match(r'import (\S+)', l)
            if g:
                if not g[1].startswith('Verif'): imports.add(l)
            else: keep.append(l)
        body.append(f'section -- {m}\n' + '\n'.join(keep) + '\nend\n')
    src = '\n'.join(sorted(imports)) + '\nset_option linter.all false\n' + '\n'.join(body)
    src += '\n' + '\n'.join(f'#print axioms LS.{t.removeprefix("LS.")}' for t in theorems) + '\n'
    f = f'{OUT}/{tag}.lean'
    open(f, 'w').write(src)
    t0 = time.time()
    r = subprocess.run(['lake', 'env', 'lean', '-DmaxErrors=100000', f], cwd=ROOT if os.path.isdir(ROOT + '/.lake') else '/verif/lean', capture_output=True, text=True)
    out = r.stdout + r.stderr
    open(f'{OUT}/{tag}.out', 'w').write(out)
    if r.returncode not in (0, 1) or out.count('LS.') == 0 or f'LS.{theorems[-1].removeprefix("LS.")}' not in out[-3000:]:
        raise Unfinished(f'{tag}: stopped with {r.returncode}')   # killed: what was not reached is not known
    lines = src.split('\n')
    failed_decls = []
    for g in re.finditer(r'^\S*?:(\d+):\d+: error\S*: (.*)', out, re.M):
        n = int(g[1]) - 1
        while n >= 0 and not re.match(r'(private |protected |@\[.*?\] )*(theorem|def|example|structure|inductive|abbrev|#print)\b', lines[n]): n -= 1
        d = re.match(r'(?:private |protected |@\[.*?\] )*(theorem|def|example|structure|inductive|abbrev|#print)\s*(\S*)', lines[n])
        if not d: raise SystemExit(f'{tag}: {g[0]}')
        name = d[2] if d[1] != 'example' else 'example'
        if d[1] == '#print': name = '#print ' + lines[n].split()[-1]
        if name not in failed_decls: failed_decls.append(name)
    bad = []
    for t in theorems:
        q = 'LS.' + t.removeprefix('LS.')
        g = re.search(r"'" + re.escape(q) + r"' (does not depend|depends on axioms: \[([^\]]*)\])", out)
        if not g or (g[2] and not set(re.findall(r'[\w.]+', g[2])) <= {'propext', 'Classical.choice', 'Quot.sound'}): bad.append(t)
    return bad, failed_decls, time.time() - t0

def load(f):
    try: return {d['id']: d for d in map(json.loads, open(f))}
    except FileNotFoundError: return {}

if __name__ == '__main__':
    if sys.argv[1] == 'baseline':
        bad, decls, dt = build([], 'baseline')
        print(bad, decls, round(dt))
        if not bad and not decls: open(CLEAN, 'w').write(ROOT)
    else:
        # run / mon: the proofs or the monitors; ids, or `all` for those without a result; part k of n with k/n
        sys.path.insert(0, '/verif/tools')
        from mutants import MUTANTS
        import monitor
        kind, ids = sys.argv[1], sys.argv[2:]
        kind, _, target = kind.partition('=')   # aim=C69: at another claim than the one the edit was made for
        out = f"{OUT}/{'run' if kind in ('part', 'aim') else kind}.jsonl"
        # without edits everything must pass, or the failures say nothing about the edit
        if kind == 'run' and not os.path.exists(CLEAN):
            raise SystemExit('run `baseline` on this snapshot first: it is not known to pass')
        todo = MUTANTS
        if '/' in ids[-1]:
            k, n = map(int, ids.pop().split('/'))
            todo = MUTANTS[k::n]
        if ids == ['all']:
            done = load(out)
            ids = [m['id'] for m in todo if m['id'] not in done]
        clean, pure = [], {}   # parts of the snapshot known to pass
        for m in todo:
            if m['id'] not in ids: continue
            try:
                if kind == 'run':
                    bad, decls, dt = build(m['edits'], m['id'])
                    d = dict(id=m['id'], failed=bad, decls=decls, clean=True, time=round(dt))
                elif kind == 'part':
                    part = depending({e[0] for e in m['edits']})
                    if part not in clean:
                        bad, decls, dt = build([], m['id'], part)   # the same without the edit
                        if bad or decls: raise SystemExit(f"{m['id']}: not clean without the edit: {bad} {decls}")
                        if ROOT != '/verif/lean': clean.append(part)
                    bad, decls, dt = build(m['edits'], m['id'], part)
                    d = dict(id=m['id'], failed=bad, decls=decls, clean=True, time=round(dt))
                elif kind == 'aim':
                    roots = tuple(roots_of(target or m['claim']))
                    if roots not in pure:
                        bad, decls, dt = build([], m['id'], None, roots)
                        if bad or decls: raise SystemExit(f"{m['id']}: not clean without the edit: {bad} {decls}")
                        pure[roots] = True
                    bad, decls, dt = build(m['edits'], m['id'], None, roots)
                    d = dict(id=m['id'], failed=bad, decls=decls, clean=True, only=list(roots), time=round(dt))
                else:
                    viol, steps, dt = monitor.build(m['edits'], m['id'])
                    d = dict(id=m['id'], violated=viol, steps=steps, time=round(dt))
            except Unfinished as e:
                print(e, flush=True)
                continue
            if kind != 'mon' and m['definition'] in d['decls']:
                print(m['id'], 'does not compile', flush=True)
                continue
            open(out, 'a').write(json.dumps(d) + '\n')
            print(json.dumps(d)[:300], flush=True)
            try: os.remove(f"{OUT}/{m['id']}.lean")
            except FileNotFoundError: pass
