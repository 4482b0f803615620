#!/usr/bin/env python3
"""Translate the repository's own tests (liquid-staking/tests/*.rs) into Lean replays.
Every `sc_setup.*` call of a test becomes one action; `for` loops deploying providers are unrolled; the random node
counts and APYs of some tests become a fixed pseudo-random sequence."""
import re, random
T='/repo/liquid-staking/tests/'
ERR={'ERROR_INSUFFICIENT_PENDING_EGLD':'insufficientPendingEgld','ERROR_NOT_ACTIVE':'notActive',
'ERROR_INSUFFICIENT_UNSTAKE_PENDING_EGLD':'insufficientUnstakePendingEgld','ERROR_BAD_PAYMENT_AMOUNT':'badPaymentAmount',
'ERROR_BAD_PAYMENT_TOKEN':'badPaymentToken','ERROR_INSUFFICIENT_UNBONDED_AMOUNT':'insufficientUnbondedAmount',
'ERROR_UNSTAKE_PERIOD_NOT_PASSED':'unstakePeriodNotPassed','ERROR_NO_DELEGATION_CONTRACTS':'noDelegationContracts'}
def num(s):
    s=re.sub(r'(?<=[0-9])u(64|128)|_','',s.strip()); return int(s)
def e18(s): return num(s)*10**18
def e17(s): return num(s)*10**17
def big(s):
    s=s.strip()
    m=re.match(r'exp(\d+)\((.*)\)$',s)
    if m: return num(m.group(2))*10**int(m.group(1))
    raise Exception(s)
def splitargs(s):
    out=[];d=0;cur=''
    for ch in s:
        if ch in '([': d+=1
        if ch in ')]': d-=1
        if ch==',' and d==0: out.append(cur.strip()); cur=''
        else: cur+=ch
    if cur.strip(): out.append(cur.strip())
    return out
class Tr:
    def __init__(s): s.users={};s.nu=10;s.np=100;s.provs={};s.out=[];s.rng=random.Random(7)
    def addr(s,a):
        a=a.strip().lstrip('&').replace('.clone()','')
        if a=='sc_setup.owner_address': return 1
        if a.startswith('sc_setup.sc_wrapper'): return 1000
        if a in s.users: return s.users[a]
        return s.provs[a]
    def opt(s,a,unit):
        a=a.replace('OptionalValue::','')
        if a=='None': return 'none'
        return '(some %d)'%(int(re.match(r'Some\((\d+)\)',a).group(1))*unit)
    def deploy(s,args,env):
        ev=lambda x:int(eval(re.sub(r'as u64|u64|(?<=[0-9])_','',x.replace('if i <= 50 { 100 } else { 10 }','(100 if i<=50 else 10)')),{},env))
        s.np+=1
        s.out.append('.deploy %d %d %d %d %d %d'%(s.np,10**18,ev(args[2])*10**18,ev(args[3])*10**18,ev(args[4]),ev(args[5])))
        return s.np
    def call(s,fn,args,lhs,env):
        A=s.addr; o=s.out.append
        if fn=='deploy_staking_contract':
            p=s.deploy(args,env)
            if lhs: s.provs[lhs]=p
        elif fn=='setup_new_user':
            s.nu+=1; s.users[lhs]=s.nu; o('.ok (.fund %d %d)'%(s.nu,e18(args[0])))
        elif fn=='add_liquidity': o('.ok (.delegate %d %d)'%(A(args[0]),e18(args[1])))
        elif fn=='add_liquidity_exp17': o('.ok (.delegate %d %d)'%(A(args[0]),e17(args[1])))
        elif fn=='add_liquidity_error': o('.fails (.delegate %d %d) .%s'%(A(args[0]),e18(args[1]),ERR[args[2]]))
        elif fn=='add_liquidity_exp17_error': o('.fails (.delegate %d %d) .%s'%(A(args[0]),e17(args[1]),ERR[args[2]]))
        elif fn=='remove_liquidity': o('.ok (.unDelegate %d 0 [⟨500, 0, %d⟩])'%(A(args[0]),e18(args[2])))
        elif fn=='remove_liquidity_exp17': o('.ok (.unDelegate %d 0 [⟨500, 0, %d⟩])'%(A(args[0]),e17(args[2])))
        elif fn=='remove_liquidity_exp17_error': o('.fails (.unDelegate %d 0 [⟨500, 0, %d⟩]) .%s'%(A(args[0]),e17(args[2]),ERR[args[3]]))
        elif fn=='delegate_pending': o('.ok (.delegatePending %d %s)'%(A(args[0]),s.opt(args[1],10**18)))
        elif fn=='delegate_pending_error': o('.fails (.delegatePending %d %s) .%s'%(A(args[0]),s.opt(args[1],10**17),ERR[args[2]]))
        elif fn=='un_delegate_pending': o('.ok (.unDelegatePending %d %s)'%(A(args[0]),s.opt(args[1],10**18)))
        elif fn=='un_delegate_pending_error': o('.fails (.unDelegatePending %d %s) .%s'%(A(args[0]),s.opt(args[1],10**17),ERR[args[2]]))
        elif fn=='withdraw_pending': o('.ok (.withdrawPending %d %d)'%(A(args[0]),A(args[1])))
        elif fn=='claim_rewards': o('.ok (.claimRewards %d)'%A(args[0]))
        elif fn=='set_inactive_state': o('.ok (.owner %d .stateInactive)'%A(args[0]))
        elif fn in('withdraw','withdraw_error'):
            tok=501 if args[1]=='UNSTAKE_TOKEN_ID' else 666
            op='(.withdraw %d 0 [⟨%d, %d, %d⟩])'%(A(args[0]),tok,num(args[2]),big(args[3]))
            o('.ok '+op if fn=='withdraw' else '.fails %s .%s'%(op,ERR[args[4]]))
        elif fn=='update_staking_contract_params':
            o('.ok (.changeParams %d %d %d %d %d %d %s)'%(A(args[0]),A(args[1]),e18(args[2]),e18(args[3]),num(args[4]),num(args[5]),args[6]))
        elif fn=='check_contract_storage': o('.storage '+' '.join(str(e18(x)) for x in args))
        elif fn=='check_pending_egld_exp17': o('.pending %d'%e17(args[0]))
        elif fn=='check_total_withdrawn_egld_exp17': o('.withdrawn %d'%e17(args[0]))
        elif fn=='check_pending_ls_for_unstake': o('.toUnstake %d'%e18(args[0]))
        elif fn=='check_pending_ls_for_unstake_exp17': o('.toUnstake %d'%e17(args[0]))
        elif fn=='check_pending_ls_for_unstake_denominated': o('.toUnstake %d'%num(args[0]))
        elif fn=='check_user_balance': o('.lsIs %d %d'%(A(args[0]),e18(args[2])))
        elif fn=='check_user_balance_exp17': o('.lsIs %d %d'%(A(args[0]),e17(args[2])))
        elif fn=='check_user_egld_balance': o('.egldIs %d %d'%(A(args[0]),e18(args[1])))
        elif fn=='check_user_egld_balance_exp17': o('.egldIs %d %d'%(A(args[0]),e17(args[1])))
        elif fn=='check_user_egld_balance_denominated': o('.egldIs %d %d'%(A(args[0]),num(args[1])))
        elif fn=='check_user_nft_balance_denominated':
            m=re.search(r'new\((\d+), (\d+)\)',args[4])
            at='(some ⟨%s, %s⟩)'%m.groups() if m else 'none'
            o('.nftIs %d %d %d %s'%(A(args[0]),num(args[2]),big(args[3]),at))
        elif fn=='check_delegation_contract_values': o('.provIs %d %d %d'%(A(args[0]),e18(args[1]),e18(args[2])))
        elif fn in('print_pending_egld','debug_providers'): pass
        else: raise Exception(fn)
def statements(body):
    body=re.sub(r'//.*','',body)
    body=re.sub(r'/\*.*?\*/','',body,flags=re.S)
    return body
def run(tr,body,env):
    i=0
    loop=re.compile(r'\s*for (\w+) in 0\.\.(\d+) \{')
    while True:
        m=loop.match(body,i)
        if m:
            d=1;j=m.end()
            while d:
                d+= {'{':1,'}':-1}.get(body[j],0); j+=1
            inner=body[m.end():j-1]
            for k in range(int(m.group(2))):
                e=dict(env); e[m.group(1)]=k
                if 'random_nodes' in inner: e['random_nodes']=tr.rng.randint(1,100); e['random_apy']=tr.rng.randint(500,1000)
                run(tr,inner,e)
            i=j; continue
        j=i;d=0
        while j<len(body) and not (body[j]==';' and d==0):
            if body[j] in '([{': d+=1
            if body[j] in ')]}': d-=1
            j+=1
        st=re.sub(r'\s+',' ',body[i:j]).strip()
        i=j+1
        if j>=len(body) and not st: return
        m=re.match(r'(?:let (?:mut )?(\w+) = )?sc_setup ?\.(\w+)\((.*?),? ?\)$',st)
        mb=re.match(r'sc_setup ?\. ?b_mock ?\.(\w+)\((.*)\)$',st)
        if mb:
            if mb.group(1)=='set_block_epoch': tr.out.append('.ok (.advance %d)'%num(mb.group(2)))
        elif m: tr.call(m.group(2),splitargs(m.group(3)),m.group(1),env)
        if j>=len(body): return
res=[]
for f in ['test.rs','delegate_test.rs','unDelegate_test.rs','unbond_test.rs']:
    src=open(T+f).read()
    src='\n'.join('' if re.match(r'\s*//',l) else l for l in src.split('\n'))
    for m in re.finditer(r'#\[test\]\s*fn (\w+)\(\) \{',src):
        line=src[:m.start()].count('\n')+1
        d=1;j=m.end()
        while d:
            d+={'{':1,'}':-1}.get(src[j],0); j+=1
        endline=src[:j].count('\n')+1
        tr=Tr(); run(tr,statements(src[m.end():j-1]),{})
        if not tr.out: continue
        res.append('/-- liquid-staking/tests/%s:%d-%d `%s` -/\nexample : passes 400 [\n    %s] = true := by decide +kernel\n'%(f,line,endline,m.group(1),',\n    '.join(tr.out)))
open('/verif/lean/Verif/TestReplay/Cases.lean','w').write('import Verif.TestReplay.Harness\n\n/-! The repository\'s own tests, replayed on the model.  Generated by tools/replay.py from liquid-staking/tests/*.rs.\nThese are tests of the model\'s fidelity, not proofs of properties. -/\n\nnamespace LS.Replay\n\n'+'\n'.join(res)+'\nend LS.Replay\n')
print(len(res))
