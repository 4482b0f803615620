"""Evaluate tools/monitor.lean.txt behind the (possibly edited) model: which theorem statements does the program violate?"""
import os, re, subprocess, time
import mutate
KEEP = ('Verif.Model.', 'Verif.Spec.', 'Verif.Demo')

def build(edits, tag):
    imports, body = set(), []
    for m in mutate.modules():
        if not m.startswith(KEEP): continue
        s = open(f"{mutate.ROOT}/{m.replace('.', '/')}.lean").read()
        for (mm, old, new) in edits:
            if mm == m:
                if s.count(old) != 1: raise SystemExit(f'{tag}: {s.count(old)} occurrences of {old!r} in {m}')
                s = s.replace(old, new)
        keep = []
        for l in s.split('\n'):
            g = re.match(r'import (\S+)', l)
            if g:
                if not g[1].startswith('Verif'): imports.add(l)
            else: keep.append(l)
        body.append(f'section -- {m}\n' + '\n'.join(keep) + '\nend\n')
    src = '\n'.join(sorted(imports)) + '\nset_option linter.all false\n' + '\n'.join(body) + open(os.environ.get('MON', '/verif/tools/monitor.lean.txt')).read()
    os.makedirs(mutate.OUT, exist_ok=True)
    f = f'{mutate.OUT}/mon_{tag}.lean'
    open(f, 'w').write(src)
    t0 = time.time()
    r = subprocess.run(['lake', 'env', 'lean', f], cwd='/verif/lean', capture_output=True, text=True)
    out = r.stdout + r.stderr
    open(f'{mutate.OUT}/mon_{tag}.out', 'w').write(out)
    viol = sorted(set(re.findall(r'\("?(C\d+\w*|deliver)"?, ?\d+\)', out)))
    head = re.search(r'MON \((\d+)', out)
    return viol, int(head[1]) if head else None, time.time() - t0

if __name__ == '__main__':
    print(build([], 'baseline'))
