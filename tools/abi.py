"""Compares the table of endpoints of lean/Verif/Model/Abi.lean with the annotations in the Rust text.  Prints the differences."""
import re,glob,os
here=os.path.dirname(os.path.abspath(__file__))
TY={"BigUint":"big","u64":"u64","usize":"usize","bool":"bool","ManagedAddress":"addr","ManagedBuffer":"buffer","ScoringConfig":"scoring"}
def ty(t):
    t=t.strip().lstrip("&").strip(); t=re.sub(r"<Self::Api>$","",t)
    m=re.match(r"(OptionalValue|MultiValueEncoded)<(.*)>$",t)
    if m: return {"OptionalValue":"opt","MultiValueEncoded":"many"}[m[1]],TY[re.sub(r"<Self::Api>$","",m[2].strip())]
    return "fixed",TY[t]
def rust():
    out={}
    for f in glob.glob("/repo/liquid-staking/src/**/*.rs",recursive=True):
        if "/proxy/" in f: continue
        s=open(f).read()
        for m in re.finditer(r"((?:[ \t]*(?:#\[[^\n]*\]|//[^\n]*)\n)+)\s*fn (\w+)\s*\(\s*&self\s*,?([^)]*)\)",s):
            n=re.search(r"#\[(?:endpoint|view)\((\w+)\)\]",m[1])
            if not n: continue
            p=re.search(r'#\[payable\("([^"]*)"\)\]',m[1]); p={None:"none","EGLD":"egld","*":"any"}[p and p[1]]
            a=[ty(x.split(":",1)[1]) for x in re.sub(r"//[^\n]*","",m[3]).split(",") if x.strip()]
            out[n[1]]=(p,[t for k,t in a if k=="fixed"],next(((k,t) for k,t in a if k!="fixed"),"none"),"only_owner" in m[1])
    return out
def lean():
    s=open(here+"/../lean/Verif/Model/Abi.lean").read()
    body=s[s.index("def Fn.sig"):s.index("/-- A call.")]
    out={}
    for m in re.finditer(r"((?:\| \.\w+\s+)+)=> ⟨\.(\w+), \[([^\]]*)\], \.(\w+)(?: \.(\w+))?⟩",body):
        for n in re.findall(r"\.(\w+)",m[1]):
            out[n]=(m[2],[x.strip().lstrip(".") for x in m[3].split(",") if x.strip()],(m[4],m[5]) if m[5] else "none")
    t=open(here+"/../lean/Verif/Props/Interface.lean").read()
    o=re.findall(r'"(\w+)"',t[t.index("def Spec.ownersOnly"):t.index("def Spec.managersOnly")])
    return {n:v+(n in o,) for n,v in out.items()}
r,l=rust(),lean()
wasm=open("/repo/liquid-staking/wasm/src/lib.rs").read()
w=dict(re.findall(r"^\s+(\w+) => (\w+)$",wasm,re.M))
print(len(r),len(l),len(w))
for n in sorted(set(r)|set(l)):
    if r.get(n)!=l.get(n): print(n,r.get(n),l.get(n))
print(sorted(set(r)-set(w)),sorted(set(w)-set(r)))
