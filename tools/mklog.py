"""Write seeded/LOG.jsonl: one line per wrong program tried, from the results of mutate.py."""
import json, os, sys
sys.path.insert(0, os.path.dirname(__file__))
from mutants import MUTANTS

# Wrong programs that at first no theorem, or no theorem stating the broken claim, rejected; and what was added or tightened.
TIGHTENED = {}
def t(thms, *ids):
    for i in ids: TIGHTENED[i] = thms.split()
t('C33_delegation_score C33_undelegation_score C33_scores C45_fair_shares', 'apy-range', 'score-weights', 'score-total')
t('C14_delegate_split C15_deposit_iff C16_redemption_iff', 'inc-min')
t('C12_stays_matured', 'adv-back')
t('C92_batch_partial', 'dc-apy')
t('C46_withdrawPending C46_claimRewards', 'wp-listed', 'cr-list', 'cr-part')
t('C47_setters', 'oc-fees', 'oc-inactive', 'oc-remove')
t('C48_exchange_rate C48_provider_views', 'vw-rate', 'vw-rate0', 'vw-staked')
t('C49_deployment', 'init-state', 'init-swap', 'init-max')
t('C54_givers C54_complete C54_first C54_at_least C54_at_most', 'und-hard', 'amt-left', 'amt-left2', 'net-pending')
t('C100_count', 'px-read-first')

# Wrong programs that break no claim.
HARMLESS = {
 'max-len': 'the selection loop ends with the list anyway',
 'amt-remaining': 'the parts are at most the amount that remains already',
 'cm-missing': 'a claim only names listed providers, and these are mocks (C59_records_match)',
 'wl-limit': 'the same limit is checked on the un-delegation list, which has the same members',
 'cf-withdraw': 'the figure of the provider is at most the total unbonding, and taking more than it fails',
 'dg-08': 'nothing redeemed is worth nothing, which is refused one line later',
 'dg-15': 'subtracting the amount from what is pending fails two lines later',
 'dg-36': 'the same limit is checked on the un-delegation list, which has the same members',
 'dg-37': 'the same limit is checked on the delegation list, which has the same members',
 'dg-43': 'reading the missing record fails',
 'dg-46': 'the record was read one line before',
 'dg-51': 'the migration address is a contract when it is set, and stays one',
 'dg-77': 'a registered nonce exists only once the token does (C13)',
 'dg-78': 'the split leaves the queue empty or with one EGLD at least (C14)',
 'dg-80': 'the split leaves the pending EGLD empty or with one EGLD at least (C14)',
 'op-e79873': 'adding nothing changes nothing',
 'op-2dd43e': 'the nonce does not depend on the amount',
 'op-91994e': 'with one EGLD pending the instant part is zero either way',
 'op-2b7967': 'equal amounts are handled before',
 'op-e96ffa': 'the instant part leaves one EGLD pending by its definition',
 'op-f5cd26': 'an instant part of zero is what the other branch gives',
 'op-63294f': 'adding nothing changes nothing',
 'op-24929c': 'adding nothing changes nothing',
 'op-4d16e7': 'the parts add up to the payment, which is not zero',
 'op-c616bd': 'the two lists have the same members',
 'op-33dde1': 'the two lists have the same members',
 'op-df0c2d': 'only the owner gets past the next line',
 'op-f956ea': 'only the owner gets past the next lines',
 'op-828ed5': 'the caller is the owner',
 'op-65826f': 'the caller is the owner, or is refused later',
 'ms-33': 'the split never leaves dust in the queue (C14), so this message never appears',
 'ms-14': 'the two lists have the same length, so the other message is as true',
 'dg-84': 'with no providers none is selected, which is refused later',
}
ARTEFACT = {'sels_of', 'considerProvider_iff', 'selectDelegationLoop_iff', 'shareOut_iff'}
UNDECIDED = {'C54_givers', 'C54_complete', 'C54_first', 'C54_at_least', 'C54_at_most', 'C54_plenty', 'C69_accepted_iff', 'C70_holder_exit', 'C70_queue_exit', 'C70_first_needed'}
def load(f):
    try: return {d['id']: d for d in map(json.loads, open(f))}
    except FileNotFoundError: return {}
def unreached(r):
    """What is known to have failed, if the output of the build does not mention everything it was said to have failed."""
    try: out = open(f"/tmp/mut/{r['id']}.out").read()
    except FileNotFoundError: return None
    l = [x.removeprefix('LS.') for x in r['failed']]
    if all(f"'LS.{x}'" in out or f'LS.{x}`' in out for x in l): return None
    return [x for x in l if x in r['decls'] or f"'LS.{x}'" in out]
run, mon = load('/tmp/mut/run.jsonl'), load('/tmp/mut/mon.jsonl')
names = {x for c in json.load(open(os.path.join(os.path.dirname(__file__), '..', 'MANIFEST.json')))['claims'] for x in c['theorems']}
n = 0
with open(os.path.join(os.path.dirname(__file__), '..', 'seeded', 'LOG.jsonl'), 'w') as f:
    for m in MUTANTS:
        r, o = run.get(m['id']), mon.get(m['id'])
        if o and o['steps'] is None: o = None   # does not compile
        if not r and not o: continue
        d = dict(id=m['id'], definition=m['definition'], edit=m['edit'], claim=m['claim'])
        if r:
            d['failed'] = [x.removeprefix('LS.') for x in r['failed']]
            seen = unreached(r)
            if seen is not None:
                # the build stopped early (too many errors, or killed): no result for the theorems it did not get to
                d['failed'] = seen
                d['undecided'] = 'all theorems not listed: the rebuild stopped before reaching them'
            if not r.get('clean') and ARTEFACT & set(r['decls']):
                # two names clashed in the one-file build, so these failed without any edit: no result for them
                d['failed'] = [x for x in d['failed'] if x not in UNDECIDED]
                d['undecided'] = sorted(UNDECIDED)
            if r.get('only'): d['rebuilt'] = 'what these need: ' + ', '.join(r['only'])
        else:
            # only the statements were evaluated on runs of the edited program: which theorems fail is not known
            d['failed'] = None
            d['rebuilt'] = False
        d['tightened'] = TIGHTENED.get(m['id'], [])
        for x in d['tightened']:
            if "LS." + x not in names and x not in names: print('unknown theorem', x)
        if o: d['statements_false_on_random_runs'] = o['violated']
        if m['id'] in HARMLESS: d['note'] = 'breaks no claim: ' + HARMLESS[m['id']]
        f.write(json.dumps(d) + '\n'); n += 1
        if not d['failed'] and not (o and o['violated']) and m['id'] not in HARMLESS: print('survives' if r else 'undecided', m['id'])
print(n, 'lines')
