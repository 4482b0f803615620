"""Writes MANIFEST.json.  Theorem names are looked up in the Lean sources, so a missing name is an error."""
import json, re, glob, sys
C = {}
def c(p, status, ths, note=""): C[p] = dict(property=p, status=status, theorems=["LS." + t for t in ths.split()], note=note)
exec(open('/verif/tools/claims.py').read())
src = "\n".join(open(f).read() for f in glob.glob('/verif/lean/Verif/**/*.lean', recursive=True))
names = set(re.findall(r'^theorem\s+(\S+)', src, re.M))
bad = [t for x in C.values() for t in x['theorems'] if t[3:] not in names]
if bad: sys.exit("unknown theorems: %s" % bad)
json.dump({"claims": [C[k] for k in sorted(C)]}, open('/verif/MANIFEST.json', 'w'), indent=1)
print(len(C), "claims")
