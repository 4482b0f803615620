"""Wrong programs: each is a realistic slip in one definition of the model, with the claim it breaks."""
MUTANTS = []
def m(id, mod, definition, edit, claim, *pairs):
    MUTANTS.append(dict(id=id, definition=definition, edit=edit, claim=claim,
                        edits=[(f'Verif.Model.{mod}', a, b) for a, b in pairs]))

# --- Base / Types / Score
m('norm-lt', 'Score', 'normClamp', 'values at the lower end count as below it (<=)', 'C33',
  ('if value < min then .ok 0', 'if value ≤ min then .ok 0'))
m('norm-max', 'Score', 'normClamp', 'values above the range normalise to 0 instead of 10000', 'C33',
  ('else if max < value then .ok BPS', 'else if max < value then .ok 0'))
m('norm-dir', 'Score', 'normLinearClamp', 'direction flag inverted', 'C33',
  ('if down then csub BPS normalized else .ok normalized', 'if down then .ok normalized else csub BPS normalized'))
m('node-dir', 'Score', 'nodeScore', 'node score not inverted on delegation', 'C33',
  ('cfg.minNodes.toNat cfg.maxNodes.toNat isDelegate', 'cfg.minNodes.toNat cfg.maxNodes.toNat (!isDelegate)'))
m('apy-dir', 'Score', 'apyScore', 'APY score uses the same direction as the others', 'C33',
  ('cfg.maxApy.toNat (!isDelegate)', 'cfg.maxApy.toNat isDelegate'))
m('apy-range', 'Score', 'apyScore', 'APY normalised over the node range', 'C33',
  ('normLinearClamp apy.toNat cfg.minApy.toNat cfg.maxApy.toNat', 'normLinearClamp apy.toNat cfg.minNodes.toNat cfg.maxNodes.toNat'))
m('stake-dir', 'Score', 'stakeScore', 'stake score direction inverted', 'C33',
  ('normLinearClamp staked 0 totalStake isDelegate', 'normLinearClamp staked 0 totalStake (!isDelegate)'))
m('score-weights', 'Score', 'combineScores', 'node and APY weights swapped', 'C33',
  ('node * cfg.nodesWeight.toNat + apy * cfg.apyWeight.toNat', 'node * cfg.apyWeight.toNat + apy * cfg.nodesWeight.toNat'))
m('score-total', 'Score', 'updateScores', 'total score forgets the provider itself', 'C33',
  ("i'.score + tot)", "tot)"))
m('net-pending', 'Types', 'ProviderData.totalWithPending', 'pending stake not counted', 'C19',
  ('csub (d.staked + d.pStake) d.pUnstake', 'csub d.staked d.pUnstake'))
m('net-unstake', 'Types', 'ProviderData.totalWithPending', 'pending un-stake not subtracted', 'C20',
  ('csub (d.staked + d.pStake) d.pUnstake', '.ok (d.staked + d.pStake)'))

# --- Selection
m('max-min', 'Selection', 'maxProviders', 'maximum of the two limits instead of the minimum', 'C18',
  ('min (min trunc st.maxSelectedProviders) providersLen', 'min (max trunc st.maxSelectedProviders) providersLen'))
m('max-len', 'Selection', 'maxProviders', 'limit by the list length dropped', 'C18',
  ('min (min trunc st.maxSelectedProviders) providersLen', 'min trunc st.maxSelectedProviders'))
m('elig-flag', 'Selection', 'isProviderEligible', 'eligibility flag ignored', 'C18',
  ('if !d.eligible then .ok false\n  else if', 'if'))
m('elig-space', 'Selection', 'isProviderEligible', 'room not compared with the minimum', 'C19',
  ('.ok (decide (minEgld ≤ space))', '.ok (decide (0 ≤ space))'))
m('elig-strict', 'Selection', 'isProviderEligible', 'room must exceed the minimum', 'C36',
  ('.ok (decide (minEgld ≤ space))', '.ok (decide (minEgld < space))'))
m('space-cap', 'Selection', 'spaceLeftOf', 'space left is the whole cap', 'C19',
  ('let s ← csub d.cap d.totalStaked', 'let s ← csub d.cap 0'))
m('sel-max', 'Selection', 'selectDelegationLoop', 'stops one provider too late', 'C18',
  ("if sel'.length = maxP then", "if sel'.length = maxP + 1 then"))
m('take-dust', 'Selection', 'amountToTake', 'takes everything but one wei', 'C20',
  ('else .ok staked', 'else csub staked 1'))
m('und-hard', 'Selection', 'selectUndelegationLoop', 'hard limit off by one', 'C20',
  ('if asUsize hard ≤ sel.length then', 'if asUsize hard < sel.length then'))
m('amt-space', 'Selection', 'providerAmount', 'space left ignored on delegation', 'C19',
  ('.ok (min (min proportion space) remaining)', '.ok (min proportion remaining)'))
m('amt-remaining', 'Selection', 'providerAmount', 'remaining amount ignored on delegation without cap', 'C17',
  ('| none => .ok (min proportion remaining)', '| none => .ok proportion'))
m('amt-left', 'Selection', 'providerAmount', 'dust left at the provider allowed', 'C20',
  ('if left < minEgld then\n', 'if left < 0 then\n'))
m('amt-left2', 'Selection', 'providerAmount', 'second dust check dropped', 'C20',
  ("if left' < minEgld then .ok 0 else .ok remaining", '.ok remaining'))
m('dist-min', 'Selection', 'distributeLoop', 'amounts below one EGLD are sent', 'C18',
  ('if minEgld ≤ amt then do', 'if 0 < amt then do'))
m('dist-rem', 'Selection', 'distributeLoop', 'remaining amount not reduced', 'C17',
  ("let remaining' ← csub remaining amt\n", "let remaining' ← csub remaining 0\n"))
m('fill-dust', 'Selection', 'fillOne', 'top-up of an un-delegation may leave dust', 'C20',
  ('if 0 < canUse ∧ (MIN_EGLD ≤ space - canUse ∨ space = canUse) then', 'if 0 < canUse then'))
m('fill-space', 'Selection', 'fillOne', 'top-up of a delegation ignores the space', 'C19',
  ('      let canUse := min space remaining\n      if 0 < canUse then', '      let canUse := remaining\n      if 0 < canUse then'))
m('fill-none', 'Selection', 'fillOne', 'top-up of an uncapped provider keeps the remainder too', 'C17',
  ('| none => .ok (addAmount p remaining, 0)', '| none => .ok (addAmount p remaining, remaining)'))
m('left-lost', 'Selection', 'handleRemaining', 'what could not be placed is not put back', 'C17',
  ('{ c with r := { c.r with pending := c.r.pending + left } }', 'c'))
m('left-swap', 'Selection', 'handleRemaining', 'what could not be un-delegated goes to the other queue', 'C20',
  ('{ c with r := { c.r with toUnstake := c.r.toUnstake + left } }', '{ c with r := { c.r with pending := c.r.pending + left } }'))
m('space-after', 'Selection', 'spaceAfter', 'space of a chosen provider not reduced', 'C19',
  ('let x ← csub s amt\n', 'let x ← csub s 0\n'))
m('space-after-u', 'Selection', 'spaceAfter', 'available stake of a chosen provider not reduced', 'C20',
  ('let x ← csub info.stakedLs amt\n', 'let x ← csub info.stakedLs 0\n'))
m('list-swap', 'Selection', 'getDelegationContract', 'un-delegation reads the delegation list', 'C20',
  ('if isDelegate then st.delegList else st.undelegList', 'if isDelegate then st.undelegList else st.delegList'))

# --- Chain
m('commit-none', 'Chain', 'commit', 'cache not written back', 'C01',
  ('{ w with st := { w.st with r := c.r } }', 'w'))
m('commit-state', 'Chain', 'commit', 'cache write-back reactivates the contract', 'C27',
  ('{ w with st := { w.st with r := c.r } }', '{ w with st := { w.st with r := c.r, state := .active } }'))
m('emit-order', 'Chain', 'emit', 'event carries the stored figures instead of the cached ones', 'C40',
  ('[.change k caller c.lsTokenId c.r w.epoch]', '[.change k caller c.lsTokenId w.st.r w.epoch]'))
m('mgr-owner', 'Chain', 'isManager', 'everybody is a manager while none is listed', 'C25',
  ('w.st.managers.contains a || a == w.owner', 'w.st.managers.isEmpty || w.st.managers.contains a || a == w.owner'))
m('owner-check', 'Chain', 'requireOwner', 'managers pass the owner check', 'C25',
  ('req (a = w.owner) .onlyOwner', 'req (isManager w a = true) .onlyOwner'))
m('active-check', 'Chain', 'requireActive', 'state check dropped', 'C26',
  ('req (c.state = .active) .notActive', 'req True .notActive'))
m('move-front', 'Chain', 'moveToBack', 'provider removed from the list instead of moved to its end', 'C31',
  ('setInsert (l.erase a) a', 'l.erase a'))
m('move-none', 'Chain', 'moveToBack', 'provider not moved', 'C32',
  ('setInsert (l.erase a) a', 'setInsert l a'))
m('insert-dup', 'Chain', 'setInsert', 'duplicates allowed', 'C31',
  ('if a ∈ l then l else l ++ [a]', 'l ++ [a]'))
m('swap-remove', 'Chain', 'swapRemove', 'removes the last manager instead of the named one', 'C27',
  ('if last = a then l.dropLast else l.dropLast.map (fun x => if x = a then last else x)', 'l.dropLast'))
m('burn-none', 'Chain', 'burnLs', 'redeemed tokens stay with the contract', 'C05',
  ('let m ← debit w.ls w.self v\n  .ok { w with ls := m }', 'let _ ← debit w.ls w.self v\n  .ok w'))
m('nft-nonce', 'Chain', 'nftCreate', 'nonce reused', 'C12',
  ('let n := w.lastNonce + 1', 'let n := max w.lastNonce 1'))
m('nft-attrs-any', 'Chain', 'nftAttrs', 'attributes of another nonce', 'C10',
  ('else match w.attrs.get none n with', 'else match w.attrs.get none 1 with'))
m('promise-egld', 'Chain', 'registerPromise', 'EGLD not taken from the contract', 'C17',
  ('.ok { w with egld := m, flights', '.ok { w with flights'))

# --- Pool
m('egld-round', 'Pool', 'getEgldAmount', 'redemption rounded up', 'C02',
  ('let e ← cdiv (ls * c.r.reserve) c.r.lsSupply', 'let e ← cdiv (ls * c.r.reserve + (c.r.lsSupply - 1)) c.r.lsSupply'))
m('ls-round', 'Pool', 'getLsAmount', 'minting rounded up', 'C01',
  ('cdiv (a * c.r.lsSupply) c.r.reserve', 'cdiv (a * c.r.lsSupply + (c.r.reserve - 1)) c.r.reserve'))
m('ls-swap', 'Pool', 'getLsAmount', 'supply and reserve swapped', 'C01',
  ('cdiv (a * c.r.lsSupply) c.r.reserve', 'cdiv (a * c.r.reserve) c.r.lsSupply'))
m('ls-zero', 'Pool', 'getLsAmount', 'zero tokens accepted', 'C15',
  ('req (0 < l) .insufficientLiquidity', 'req (0 ≤ l) .insufficientLiquidity'))
m('ls-first', 'Pool', 'getLsAmount', 'one-to-one while the supply (not the reserve) is zero', 'C01',
  ('if 0 < c.r.reserve then cdiv', 'if 0 < c.r.lsSupply then cdiv'))
m('add-reserve', 'Pool', 'poolAdd', 'reserve grows by the tokens minted', 'C01',
  ('reserve := c.r.reserve + a', 'reserve := c.r.reserve + l'))
m('rem-supply', 'Pool', 'poolRemove', 'supply not reduced', 'C05',
  ('lsSupply := s, reserve := r', 'reserve := r'))
m('rem-reserve', 'Pool', 'poolRemove', 'reserve reduced by the tokens burned', 'C02',
  ('let r ← csub c.r.reserve e', 'let r ← csub c.r.reserve ls'))
m('clean-epoch', 'Pool', 'cleanOldUnbondEpochs', 'registration kept when the spare token is burned', 'C13',
  ('w.st.unstakeNonce.set a.unbondEpoch 0', 'w.st.unstakeNonce.set a.unstakeEpoch 0'))
m('clean-le', 'Pool', 'cleanOldUnbondEpochs', 'also cleans registrations of the current epoch', 'C13',
  ('if a.unstakeEpoch < currentEpoch then', 'if a.unstakeEpoch ≤ currentEpoch then'))
m('mint-plus', 'Pool', 'mintUnstakeTokens', 'no spare token kept', 'C13',
  ('let w1 := (nftCreate w (amount + 1) a).1\n    let n1 := (nftCreate w (amount + 1) a).2', 'let w1 := (nftCreate w amount a).1\n    let n1 := (nftCreate w amount a).2'))
m('mint-key', 'Pool', 'mintUnstakeTokens', 'nonce registered under the current epoch', 'C12',
  ('w1.st.unstakeNonce.set unbondEpoch n1', 'w1.st.unstakeNonce.set currentEpoch n1'))
m('share', 'Pool', 'calculateShare', 'share in percent instead of basis points', 'C23',
  ('cdiv (total * cut) BPS', 'cdiv (total * cut) 100'))
m('inst-min', 'Pool', 'instantAmount', 'leaves one wei less than the minimum', 'C14',
  ('let maxInstant ← csub sent minAmt', 'let maxInstant ← csub sent (minAmt - 1)'))
m('inst-smaller', 'Pool', 'instantAmount', 'takes the larger of the two', 'C14',
  ('if maxInstant ≤ p then .ok maxInstant else', 'if p ≤ maxInstant then .ok maxInstant else'))
m('inst-le', 'Pool', 'instantAmount', 'never splits when the payment is below two EGLD', 'C14',
  ('if pending ≤ minAmt ∨ sent ≤ minAmt then', 'if pending ≤ minAmt ∨ sent ≤ 2 * minAmt then'))
m('can-dust', 'Pool', 'canInstant', 'instant action may leave dust', 'C14',
  ('decide (minAmt ≤ pending - payment)', 'decide (0 ≤ pending - payment)'))
m('can-strict', 'Pool', 'canInstant', 'leaving exactly one EGLD is refused', 'C14',
  ('decide (minAmt ≤ pending - payment)', 'decide (minAmt < pending - payment)'))
m('redeem-dust', 'Pool', 'canRedeemPending', 'the rest of the payment may be dust', 'C14',
  ('decide (minAmt ≤ payment - pending)', 'decide (0 ≤ payment - pending)'))
m('partial-swap', 'Pool', 'partialRedeem', 'parts swapped', 'C14',
  ('.ok (i, left)', '.ok (left, i)'))
m('action-none', 'Pool', 'getActionAmount', 'partial match never tried', 'C14',
  ('else partialRedeem pending payment MIN_EGLD', 'else .ok (0, payment)'))
m('dec-withdrawn', 'Pool', 'decreasePending', 'matched EGLD not made withdrawable', 'C14',
  ('toUnstake := p, withdrawn := c.r.withdrawn + v', 'toUnstake := p'))
m('dec-queue', 'Pool', 'decreasePending', 'queue not reduced', 'C07',
  ('toUnstake := p, withdrawn := c.r.withdrawn + v', 'withdrawn := c.r.withdrawn + v'))
m('inc-min', 'Pool', 'increasePending', 'dust deposits accepted', 'C15',
  ('req (MIN_EGLD ≤ c1.r.pending) .insufficientPendingEgld\n  .ok c1', '.ok c1'))
m('deleg-amount', 'Pool', 'processDelegation', 'matched part earns no LS tokens', 'C01',
  ('let (l, c3) ← poolAdd m2 c2', 'let (l, c3) ← poolAdd toAdd c2'))
m('inst-pending', 'Pool', 'instantRedemption', 'pending EGLD not reduced', 'C09',
  ('{ c with r := { c.r with pending := p } }\n    req (MIN_EGLD ≤ c1.r.pending ∨', '{ c with r := { c.r with pending := c.r.pending } }\n    req (MIN_EGLD ≤ p ∨'))
m('und-queue', 'Pool', 'undelegateAmount', 'queue not increased', 'C07',
  ('{ c with r := { c.r with toUnstake := c.r.toUnstake + v } }', 'c'))
m('und-epoch', 'Pool', 'undelegateAmount', 'unbond period ignored', 'C12',
  ('let unbondEpoch := w.epoch + w.st.unbondPeriod', 'let unbondEpoch := w.epoch'))
m('und-attrs', 'Pool', 'undelegateAmount', 'attribute epochs swapped', 'C12',
  ('{ unstakeEpoch := w.epoch, unbondEpoch := unbondEpoch }', '{ unstakeEpoch := unbondEpoch, unbondEpoch := w.epoch }'))
m('und-twice', 'Pool', 'processUnDelegation', 'unstake tokens for the instant part too', 'C02',
  ('undelegateAmount w1 caller c1 toRemove', 'undelegateAmount w1 caller c1 (toRemove + fromPending)'))

# --- Endpoints
m('dlg-inactive', 'Endpoints', 'delegate', 'deposit while paused', 'C26',
  ('  requireActive c\n  req (0 < value) .badPaymentAmount\n', '  req (0 < value) .badPaymentAmount\n'))
m('dlg-queue', 'Endpoints', 'delegate', 'matched against the wrong queue', 'C14',
  ('getActionAmount c.r.toUnstake value', 'getActionAmount c.r.toUnbond value'))
m('und-token', 'Endpoints', 'unDelegate', 'any token accepted', 'C02',
  ('    req (p.token = c.lsTokenId) .badPaymentToken\n', ''))
m('und-noburn', 'Endpoints', 'unDelegate', 'LS tokens not burned', 'C02',
  ('let w1 ← burnLs w0 p.amount', 'let w1 ← burnLs w0 0'))
m('und-match', 'Endpoints', 'unDelegate', 'matched against the withdrawable EGLD', 'C14',
  ('getActionAmount c1.r.pending e', 'getActionAmount c1.r.withdrawn e'))
m('wd-token', 'Endpoints', 'withdrawOne', 'token identifier not checked', 'C10',
  ('  req (p.token = unstakeId) .badPaymentToken\n', ''))
m('wd-epoch', 'Endpoints', 'withdrawOne', 'maturity compared with the unstake epoch', 'C10',
  ('req (a.unbondEpoch ≤ w.epoch)', 'req (a.unstakeEpoch ≤ w.epoch)'))
m('wd-strict', 'Endpoints', 'withdrawOne', 'maturity one epoch early', 'C10',
  ('req (a.unbondEpoch ≤ w.epoch)', 'req (a.unbondEpoch ≤ w.epoch + 1)'))
m('wd-noburn', 'Endpoints', 'withdrawOne', 'paid tokens not burned', 'C11',
  ('let w1 ← nftBurn w p.nonce p.amount', 'let w1 ← nftBurn w p.nonce 0'))
m('wd-nosub', 'Endpoints', 'withdrawOne', 'withdrawable EGLD not reduced', 'C09',
  ('let t ← csub c.r.withdrawn p.amount', 'let t ← csub c.r.withdrawn 0'))
m('wd-rest', 'Endpoints', 'withdrawOne', 'rest of a partly paid token is lost', 'C11',
  ('let w2 ← sendNft w1 caller p.nonce rest\n', 'let w2 ← sendNft w1 caller p.nonce (rest - rest)\n'))
m('wd-partial', 'Endpoints', 'withdrawOne', 'partly paid token pays in full', 'C11',
  ('toSend + c.r.withdrawn)', 'toSend + p.amount)'))
m('wd-reset', 'Endpoints', 'withdrawOne', 'withdrawable EGLD not emptied by a partial payment', 'C11',
  ('{ c with r := { c.r with withdrawn := 0 } }', 'c'))
m('batch-left', 'Endpoints', 'batchAmount', 'batch may leave dust in the queue', 'C17',
  ('    req (MIN_EGLD ≤ left ∨ left = 0) .insufficientPendingEgld\n    .ok a', '    .ok a'))
m('batch-min', 'Endpoints', 'batchAmount', 'batch may be below one EGLD', 'C17',
  ('    req (MIN_EGLD ≤ a) .insufficientPendingEgld\n', ''))
m('batch-all', 'Endpoints', 'batchAmount', 'stated amount ignored', 'C17',
  ('    .ok a\n  | none', '    .ok pending\n  | none'))
m('dp-manager', 'Endpoints', 'delegatePending', 'manager check dropped', 'C25',
  ('  requireManager w caller\n  let amt ← batchAmount c.r.pending amount', '  let amt ← batchAmount c.r.pending amount'))
m('dp-callback', 'Endpoints', 'delegateLoop', 'pending counter not increased', 'C21',
  ('{ d with pStake := d.pStake + s.amount }', 'd'))
m('dp-wronglist', 'Endpoints', 'delegateLoop', 'rotates the other list', 'C32',
  ('{ w.st with delegList := moveToBack w.st.delegList s.address }', '{ w.st with undelegList := moveToBack w.st.undelegList s.address }'))
m('dp-queue', 'Endpoints', 'delegatePending', 'queue not reduced', 'C17',
  ('let p ← csub c1.r.pending amt', 'let p ← csub c1.r.pending 0'))
m('ud-queue', 'Endpoints', 'unDelegatePending', 'queue emptied instead of reduced', 'C20',
  ('let p ← csub c1.r.toUnstake amt', 'let p ← csub amt amt'))
m('ud-callback', 'Endpoints', 'undelegateLoop', 'counts in the wrong counter', 'C21',
  ('{ d with pUnstake := d.pUnstake + s.amount }', '{ d with pStake := d.pStake + s.amount }'))
m('ud-manager', 'Endpoints', 'unDelegatePending', 'manager check dropped', 'C25',
  ('  requireManager w caller\n  let amt ← batchAmount c.r.toUnstake amount', '  let amt ← batchAmount c.r.toUnstake amount'))
m('wp-listed', 'Endpoints', 'withdrawPending', 'unknown providers accepted', 'C44',
  ('  req (w.st.data.get none contract ≠ none) .notWhitelisted\n  let w1 ← registerPromise w (.withdraw contract) 0', '  let w1 ← registerPromise w (.withdraw contract) 0'))
m('wp-active', 'Endpoints', 'withdrawPending', 'works while paused', 'C26',
  ('  requireActive c\n  req (w.st.data.get none contract ≠ none) .notWhitelisted\n  let w1 ← reg', '  req (w.st.data.get none contract ≠ none) .notWhitelisted\n  let w1 ← reg'))
m('cr-list', 'Endpoints', 'claimRewards', 'works without providers', 'C23',
  ('  req (w.st.delegList ≠ []) .noDelegationContracts\n', ''))
m('cr-part', 'Endpoints', 'claimRewards', 'claims from all but the first provider', 'C23',
  ('registerPromise w (.claim w.st.delegList) 0', 'registerPromise w (.claim (w.st.delegList.drop 1)) 0'))
m('cf-reset', 'Endpoints', 'claimFeesWith', 'fees not reset', 'C24',
  ('{ c with r := { c.r with fees := 0 } }', 'c'))
m('cf-pending', 'Endpoints', 'claimFeesWith', 'pays the pending EGLD instead of the fees', 'C24',
  ('sendEgld w w.st.accumulator c.r.fees', 'sendEgld w w.st.accumulator c.r.pending'))
m('cf-caller', 'Endpoints', 'claimFeesWith', 'pays the caller', 'C24',
  ('sendEgld w w.st.accumulator c.r.fees', 'sendEgld w caller c.r.fees'))
m('wl-dup', 'Endpoints', 'whitelist', 'a whitelisted provider may be whitelisted again', 'C29',
  ('  req (w0.st.data.get none contract = none) .alreadyWhitelisted\n', ''))
m('wl-manager', 'Endpoints', 'whitelist', 'manager check dropped', 'C25',
  ('  requireManager w0 caller\n  req (w0.st.data', '  req (w0.st.data'))
m('wl-min', 'Endpoints', 'whitelist', 'first delegation may be dust', 'C29',
  ('  req (MIN_EGLD ≤ value) .minEgldToDelegate\n', ''))
m('wl-cap', 'Endpoints', 'whitelist', 'cap not checked', 'C31',
  ('  req (totalStaked ≤ cap ∨ cap = 0) .delegationCap\n  req (MIN_EGLD ≤ value)', '  req (MIN_EGLD ≤ value)'))
m('wl-limit', 'Endpoints', 'whitelist', 'limit on the number of providers dropped', 'C30',
  ('  req (w0.st.delegList.length ≤ w0.st.maxDelegationAddresses) .maxDelegationAddresses\n', ''))
m('ca-manager', 'Endpoints', 'changeAdmin', 'anyone may change the admin', 'C25',
  ('  requireManager w caller\n  updateData w contract (fun d => .ok { d with admin := admin })', '  updateData w contract (fun d => .ok { d with admin := admin })'))
m('cp-admin', 'Endpoints', 'changeParams', 'anyone may change parameters', 'C25',
  ('  req (old.admin = caller ∨ isManager w caller = true) .onlyDelegationAdmin\n', ''))
m('cp-cap', 'Endpoints', 'changeParams', 'cap not checked', 'C43',
  ('  req (totalStaked ≤ cap ∨ cap = 0) .delegationCap\n  updateData w contract', '  updateData w contract'))
m('cp-staked', 'Endpoints', 'changeParams', 'overwrites the stake of the contract', 'C43',
  ('{ d with totalStaked := totalStaked, cap := cap,', '{ d with totalStaked := totalStaked, staked := totalStaked, cap := cap,'))
m('cp-elig', 'Endpoints', 'changeParams', 'eligibility not updated', 'C43',
  ('apy := apy, eligible := eligible })', 'apy := apy })'))
m('mg-caller', 'Endpoints', 'requireMigration', 'any contract may migrate', 'C25',
  ('    req (caller = m) .migrationNotAllowed\n', ''))
m('mg-user', 'Endpoints', 'migrate', 'tokens go to the original caller', 'C39',
  ('let w3 ← sendLs w2 caller l', 'let w3 ← sendLs w2 originalCaller l'))
m('mg-pending', 'Endpoints', 'migrate', 'also counts as pending EGLD', 'C39',
  ("  let (l, c1) ← poolAdd virtualAmount c\n  let w1 := mintLs w l\n  let w2 := emit w1 c1 (.addLiquidity virtualAmount) originalCaller",
   "  let (l, c0) ← poolAdd virtualAmount c\n  let c1 : Cache := { c0 with r := { c0.r with pending := c0.r.pending + virtualAmount } }\n  let w1 := mintLs w l\n  let w2 := emit w1 c1 (.addLiquidity virtualAmount) originalCaller"))
m('mp-reserve', 'Endpoints', 'migratePending', 'also raises the reserve', 'C39',
  ('{ c with r := { c.r with pending := c.r.pending + value } }', '{ c with r := { c.r with pending := c.r.pending + value, reserve := c.r.reserve + value } }'))
m('ar-pending', 'Endpoints', 'addRewards', 'rewards not made pending', 'C08',
  ('reserve := c.r.reserve + value, pending := c.r.pending + value', 'reserve := c.r.reserve + value'))
m('ar-reserve', 'Endpoints', 'addRewards', 'rewards not added to the reserve', 'C08',
  ('reserve := c.r.reserve + value, pending := c.r.pending + value', 'pending := c.r.pending + value'))
m('sm-owner', 'Endpoints', 'setMigrationSc', 'owner check dropped', 'C25',
  ('  requireOwner w caller\n  req (a ∈ w.contracts) .migrationNotAllowed', '  req (a ∈ w.contracts) .migrationNotAllowed'))
m('rt-again', 'Endpoints', 'registerLsToken', 'LS token may be replaced', 'C27',
  ('req (w.st.lsToken = none ∧ w.st.lsPending = false) .tokenAlreadySet', 'req (w.st.lsPending = false) .tokenAlreadySet'))
m('ru-same', 'Callbacks', 'issued', 'unstake token may be the LS token', 'C05',
  ('    req (o = none ∨ tokenOf w.st x.kind.other ≠ o) .tokenAlreadySet\n', ''))
m('is-pending', 'Endpoints', 'registerLsToken', 'a second issue may be started while one is awaited', 'C55',
  ('req (w.st.lsToken = none ∧ w.st.lsPending = false) .tokenAlreadySet', 'req (w.st.lsToken = none) .tokenAlreadySet'))
m('is-nowait', 'Endpoints', 'registerUnstakeToken', 'the slot is not marked as pending', 'C55',
  ('st := { w.st with unstakePending := true }', 'st := w.st'))
m('is-owner', 'Endpoints', 'registerUnstakeToken', 'owner check dropped', 'C55',
  ('  requireOwner w caller\n  req (w.st.unstakeToken = none', '  req (w.st.unstakeToken = none'))
m('is-clear', 'Callbacks', 'issueCb', 'a refused issue leaves the slot pending', 'C55',
  ('.ok { w1 with st := setToken w1.st x.kind none }', '.ok w1'))
m('is-refund', 'Callbacks', 'issueCb', 'the payment of a refused issue stays with the contract', 'C55',
  ('let w1 ← sendEgld w x.caller x.cost\n    .ok { w1', 'let w1 ← sendEgld w w.self x.cost\n    .ok { w1'))
m('is-slot', 'Callbacks', 'setToken', 'both tokens written to the same slot', 'C55',
  ('| .unstake => { st with unstakeToken := t, unstakePending := false }', '| .unstake => { st with lsToken := t, unstakePending := false }'))
m('oc-fees', 'Endpoints', 'applyOwnerCmd', 'setting the fee has no effect', 'C27',
  ('| .fees v => .ok { st with feeRate := v }', '| .fees _ => .ok st'))
m('oc-maxsel', 'Endpoints', 'applyOwnerCmd', 'zero providers per batch allowed', 'C18',
  ('    req (1 ≤ v) .maxChangedDelegationAddresses\n', ''))
m('oc-swap', 'Endpoints', 'applyOwnerCmd', 'the two limits swapped', 'C27',
  ('.ok { st with maxDelegationAddresses := v }', '.ok { st with maxSelectedProviders := v }'))
m('oc-inactive', 'Endpoints', 'applyOwnerCmd', 'pausing has no effect', 'C27',
  ('| .stateInactive => .ok { st with state := .inactive }', '| .stateInactive => .ok st'))
m('oc-unbond', 'Endpoints', 'applyOwnerCmd', 'setting the unbond period changes the minimum rounds', 'C27',
  ('| .unbondPeriod v => .ok { st with unbondPeriod := v }', '| .unbondPeriod v => .ok { st with minimumRounds := v }'))
m('oc-remove', 'Endpoints', 'applyOwnerCmd', 'removing a manager has no effect', 'C27',
  ('{ st with managers := swapRemove st.managers a }', 'st'))
m('sc-weights', 'Endpoints', 'setScoringConfig', 'weights not checked', 'C34',
  ('  req (cfg.stakeWeight + cfg.apyWeight + cfg.nodesWeight = 100) .weightsMustSumTo100\n', ''))
m('sc-noop', 'Endpoints', 'setScoringConfig', 'configuration not stored', 'C34',
  ('{ w.st with scoring := some cfg }', '{ w.st with scoring := w.st.scoring }'))
m('sc-manager', 'Endpoints', 'setScoringConfig', 'manager check dropped', 'C25',
  ('  requireManager w caller\n  req (cfg.stakeWeight', '  req (cfg.stakeWeight'))
m('vw-ls', 'Endpoints', 'viewLsValue', 'view quotes LS tokens instead of EGLD', 'C28',
  ('let e ← getEgldAmount ls c', 'let e ← getLsAmount ls c'))
m('vw-rate', 'Endpoints', 'viewExchangeRate', 'rate inverted', 'C28',
  ('else cdiv (w.st.r.reserve * 1000000000000000000) w.st.r.lsSupply', 'else cdiv (w.st.r.lsSupply * 1000000000000000000) w.st.r.reserve'))
m('vw-rate0', 'Endpoints', 'viewExchangeRate', 'rate of an empty pool is zero', 'C28',
  ('if w.st.r.lsSupply = 0 then .ok 1000000000000000000', 'if w.st.r.lsSupply = 0 then .ok 0'))
m('vw-staked', 'Endpoints', 'viewStaked', 'reads the unstaked amount', 'C21',
  ('.ok d.staked', '.ok d.unstaked'))
m('init-state', 'Endpoints', 'initWorld', 'deployed active', 'C26',
  ('state := .inactive, lsToken := none', 'state := .active, lsToken := none'))
m('init-max', 'Endpoints', 'initWorld', 'zero providers per batch allowed at deployment', 'C18',
  ('  req (1 ≤ maxSelected) .maxSelectedProviders\n', ''))
m('init-swap', 'Endpoints', 'initWorld', 'deployment parameters swapped', 'C27',
  ('maxDelegationAddresses := maxAddresses, maxSelectedProviders := maxSelected', 'maxDelegationAddresses := maxSelected, maxSelectedProviders := maxAddresses'))

# --- Callbacks
m('rl-unbond', 'Callbacks', 'removeLiquidityCb', 'unbonding total not increased', 'C44',
  ('{ c with r := { c.r with toUnbond := c.r.toUnbond + amount } }', 'c'))
m('rl-staked', 'Callbacks', 'removeLiquidityCb', 'stake not reduced', 'C08',
  ('{ d with staked := s, unstaked := d.unstaked + amount, pUnstake := u }', '{ d with unstaked := d.unstaked + amount, pUnstake := u }'))
m('rl-fail', 'Callbacks', 'removeLiquidityCb', 'failed un-delegation is not queued again', 'C22',
  ('{ c with r := { c.r with toUnstake := c.r.toUnstake + amount } }', 'c'))
m('rl-fail-cnt', 'Callbacks', 'removeLiquidityCb', 'counter kept after a failure', 'C21',
  ('      .ok { d with pUnstake := u })\n', '      .ok d)\n'))
m('al-staked', 'Callbacks', 'addLiquidityCb', 'stake not increased', 'C08',
  ('{ d with staked := d.staked + amount, pStake := s }', '{ d with pStake := s }'))
m('al-fail', 'Callbacks', 'addLiquidityCb', 'failed delegation is not queued again', 'C22',
  ('{ c with r := { c.r with pending := c.r.pending + amount } }', 'c'))
m('al-elig', 'Callbacks', 'addLiquidityCb', 'failing provider stays eligible', 'C22',
  ('{ d with eligible := false, pStake := s }', '{ d with pStake := s }'))
m('al-cnt', 'Callbacks', 'addLiquidityCb', 'counter kept after success', 'C21',
  ('{ d with staked := d.staked + amount, pStake := s }', '{ d with staked := d.staked + amount }'))
m('wt-withdrawn', 'Callbacks', 'withdrawTokensCb', 'returned EGLD counted as pending', 'C44',
  ('withdrawn := c.r.withdrawn + value, toUnbond := u', 'pending := c.r.pending + value, toUnbond := u'))
m('wt-unbond', 'Callbacks', 'withdrawTokensCb', 'unbonding total not reduced', 'C44',
  ('withdrawn := c.r.withdrawn + value, toUnbond := u', 'withdrawn := c.r.withdrawn + value'))
m('wt-data', 'Callbacks', 'withdrawTokensCb', 'unstaked amount of the provider set to zero', 'C44',
  ('{ d with unstaked := x }', '{ d with unstaked := 0 }'))
m('cl-fee', 'Callbacks', 'claimRewardsCb', 'fees also added to the reserve', 'C23',
  ('reserve := c.r.reserve + post', 'reserve := c.r.reserve + total'))
m('cl-pending', 'Callbacks', 'claimRewardsCb', 'rewards not made pending', 'C08',
  ('pending := c.r.pending + post, ', ''))
m('cl-nofee', 'Callbacks', 'claimRewardsCb', 'fees not recorded', 'C23',
  ('fees := c.r.fees + fees, ', ''))
m('wc-lists', 'Callbacks', 'whitelistCb', 'provider not entered in the un-delegation list', 'C31',
  ('undelegList := setInsert w2.st.undelegList p', 'undelegList := w2.st.undelegList'))
m('wc-staked', 'Callbacks', 'whitelistCb', 'first delegation not recorded', 'C08',
  ('(fun d => .ok { d with staked := d.staked + amount })', '(fun d => .ok d)'))
m('wc-refund', 'Callbacks', 'whitelistCb', 'refund kept by the contract', 'C29',
  ('let w2 ← sendEgld w1 caller amount', 'let w2 ← sendEgld w1 w1.self amount'))
m('wc-data', 'Callbacks', 'whitelistCb', 'record kept after a failure', 'C29',
  ('{ w with st := { w.st with data := w.st.data.set p none } }', 'w'))
m('wc-to', 'Callbacks', 'whitelistCb', 'LS tokens sent to the provider', 'C29',
  ('let w6 ← sendLs w5 caller l', 'let w6 ← sendLs w5 p l'))
m('cb-order', 'Callbacks', 'runCallback', 'success and failure of a delegation confused', 'C22',
  ('| .delegate p a, .err => addLiquidityCb w p a false', '| .delegate p a, .err => addLiquidityCb w p a true'))
m('cb-attached', 'Callbacks', 'attached', 'EGLD of a failed delegation does not come back', 'C22',
  ('| .delegate _ amount, .err => amount', '| .delegate _ _, .err => 0'))
m('cb-dead', 'Callbacks', 'deliver', 'a failed callback keeps its promise', 'C21',
  ('| .error _ => .ok { arrive w i f o with dead := (arrive w i f o).dead ++ [f] }', '| .error _ => .ok { arrive w i f o with flights := w.flights }'))

# --- Step / Providers
m('tr-self', 'Step', 'transferNft', 'unstake tokens of the contract may be moved by anyone', 'C13',
  ('  requireUser w src\n  requireUser w dst\n  let m ← debit w.nft (n, src) v', '  requireUser w dst\n  let m ← debit w.nft (n, src) v'))
m('adv-back', 'Step', 'advance', 'time may go backwards', 'C10',
  ('  req (w.epoch ≤ e) .badEpoch\n', ''))
m('pv-undelegate', 'Providers', 'serveOne', 'un-delegation keeps the stake', 'C38',
  ('.ok { stake := s, unbonding := b.unbonding + a }', '.ok { stake := b.stake, unbonding := b.unbonding + a }'))
m('pv-delegate', 'Providers', 'serveOne', 'provider accepts a delegation without booking it', 'C38',
  ('| .delegate _ a, .ok _ _ => .ok { b with stake := b.stake + a }', '| .delegate _ _, .ok _ _ => .ok b'))
m('pv-order', 'Providers', 'InOrder', 'answers may overtake', 'C38',
  ("target f = target g →\n      target f = none", "target f = target g →\n      target f = none ∨ True"))

# --- Mock, network
m('mk-delegate', 'Mock', 'Mock.delegate', 'delegated EGLD not added to the deposit', 'C59',
  ('{ m with deposit := m.deposit + v, supply := m.supply + v, egld := m.egld + v }', '{ m with supply := m.supply + v, egld := m.egld + v }'))
m('mk-delegate-egld', 'Mock', 'Mock.delegate', 'received EGLD not booked', 'C56',
  ('{ m with deposit := m.deposit + v, supply := m.supply + v, egld := m.egld + v }', '{ m with deposit := m.deposit + v, supply := m.supply + v }'))
m('mk-und-limit', 'Mock', 'Mock.unDelegate', 'un-delegation of the whole deposit refused', 'C59',
  ('req (0 < a ∧ a ≤ m.deposit) .badPaymentAmount', 'req (0 < a ∧ a < m.deposit) .badPaymentAmount'))
m('mk-und-keep', 'Mock', 'Mock.unDelegate', 'second un-delegation replaces the first', 'C59',
  ('undAmount := m.undAmount + a, undEpoch', 'undAmount := a, undEpoch'))
m('mk-und-late', 'Mock', 'UNBOND_PERIOD', 'unbonding takes eleven epochs', 'C58',
  ('def UNBOND_PERIOD : UInt64 := 10', 'def UNBOND_PERIOD : UInt64 := 11'))
m('mk-wd-strict', 'Mock', 'Mock.withdraw', 'withdrawal only after the unbonding epoch', 'C58',
  ('m.undEpoch ≤ now) .unstakePeriodNotPassed', 'm.undEpoch < now) .unstakePeriodNotPassed'))
m('mk-wd-again', 'Mock', 'Mock.withdraw', 'amount to withdraw not cleared', 'C59',
  ('{ m with supply := s, undEpoch := 0, undAmount := 0, egld', '{ m with supply := s, undEpoch := 0, egld'))
m('mk-wd-egld', 'Mock', 'Mock.withdraw', 'balance not reduced', 'C56',
  ('undAmount := 0, egld := m.egld - m.undAmount }', 'undAmount := 0 }'))
m('mk-wd-half', 'Mock', 'Mock.withdraw', 'half of the amount paid', 'C56',
  ('egld := m.egld - m.undAmount }, m.undAmount)', 'egld := m.egld - m.undAmount }, m.undAmount / 2)'))
m('mk-cl-last', 'Mock', 'Mock.claimRewards', 'epoch of the last claim not updated: rewards paid twice', 'C57',
  ('{ m with lastClaim := now, egld := m.egld - m.rewards now }', '{ m with egld := m.egld - m.rewards now }'))
m('mk-cl-egld', 'Mock', 'Mock.claimRewards', 'rewards out of nothing', 'C56',
  ('{ m with lastClaim := now, egld := m.egld - m.rewards now }', '{ m with lastClaim := now }'))
m('mk-cl-poor', 'Mock', 'Mock.claimRewards', 'pays what it has when it cannot pay all', 'C57',
  ('    req (m.rewards now ≤ m.egld) .insufficientFunds\n    .ok ({ m with lastClaim := now, egld := m.egld - m.rewards now }, m.rewards now)',
   '    .ok ({ m with lastClaim := now, egld := m.egld - m.rewards now }, min m.egld (m.rewards now))'))
m('mk-rate', 'Mock', 'Mock.rewards', 'rewards not scaled to the year', 'C57',
  (' * (now.toNat - m.lastClaim.toNat) / EPOCHS_IN_YEAR else 0', ' * (now.toNat - m.lastClaim.toNat) else 0'))
m('mk-round', 'Mock', 'Mock.rewards', 'epochs divided before multiplying', 'C57',
  (' * (now.toNat - m.lastClaim.toNat) / EPOCHS_IN_YEAR else 0', ' * ((now.toNat - m.lastClaim.toNat) / EPOCHS_IN_YEAR) else 0'))
m('cm-missing', 'Mock', 'claimMulti', 'missing providers skipped', 'C57',
  ('    | none => .error .calleeFailed\n    | some m => do\n      let (m\', r) ← m.claimRewards now',
   '    | none => claimMulti now ps ms\n    | some m => do\n      let (m\', r) ← m.claimRewards now'))
m('cm-sum', 'Mock', 'claimMulti', 'only the last provider counted', 'C57',
  ("      .ok (ms', r + t)", "      .ok (ms', if t = 0 then r else t)"))
m('cm-state', 'Mock', 'claimMulti', 'state of the provider not written back', 'C57',
  ("claimMulti now ps (ms.set p (some m'))", "claimMulti now ps ms"))
m('on-mock', 'Mock', 'onMock', 'state of the provider not written back', 'C59',
  ("| .ok (m', g) => (.ok g 0, ms.set p (some m'))", "| .ok (_, g) => (.ok g 0, ms)"))
m('rs-claim', 'Mock', 'respond', 'rewards announced but not sent', 'C56',
  ("(.ok t t, ms')", "(.ok 0 t, ms')"))
m('rs-claim0', 'Mock', 'respond', 'rewards sent but not announced', 'C57',
  ("(.ok t t, ms')", "(.ok t 0, ms')"))
m('rs-claim-err', 'Mock', 'respond', 'failed claim answered as successful with nothing', 'C57',
  ("    | .error _ => (.err, ms)\n\n/-- Contract and mocks", "    | .error _ => (.ok 0 0, ms)\n\n/-- Contract and mocks"))
m('rs-delegate', 'Mock', 'respond', 'EGLD of a delegation comes back with the answer', 'C56',
  ('onMock ms p fun m => .ok (m.delegate a, 0)', 'onMock ms p fun m => .ok (m.delegate a, a)'))
m('ns-serve', 'Mock', 'netStep', 'request stays unanswered after it has been served', 'C56',
  ('.ok { n with msgs := n.msgs.set i (f, some o), mocks := ms }', '.ok { n with mocks := ms }'))
m('ns-answer', 'Mock', 'netStep', 'answer delivered twice', 'C56',
  ("    | some (_, some o) => do\n      let w' ← step n.w (.deliver i o)\n      .ok { n with w := w', msgs := n.msgs.eraseIdx i }",
   "    | some (_, some o) => do\n      let w' ← step n.w (.deliver i o)\n      .ok { n with w := w' }"))
m('ns-deploy', 'Mock', 'netStep', 'a provider can be deployed over another', 'C56',
  ('    | some _ => .error .alreadyWhitelisted', '    | some _ => .ok { n with mocks := n.mocks.set p (some Mock.new) }'))
m('ns-order', 'Mock', 'NetInOrder', 'answers may overtake', 'C59',
  ("target f = target g →\n      target f = none\n  | .lose _ => False", "target f = target g →\n      target f = none ∨ True\n  | .lose _ => False"))
m('nl-order', 'Mock', 'NetInOrder', 'callbacks may run out of gas', 'C59', ("  | .lose _ => False", "  | .lose _ => True"))
m('nl-keep', 'Mock', 'netStep', 'a lost answer arrives again', 'C56',
  ("    | some (_, some o) => do\n      let w' ← step n.w (.starve i o)\n      .ok { n with w := w', msgs := n.msgs.eraseIdx i }",
   "    | some (_, some o) => do\n      let w' ← step n.w (.starve i o)\n      .ok { n with w := w' }"))
m('nl-egld', 'Mock', 'netStep', 'the EGLD of a lost answer vanishes', 'C56',
  ("step n.w (.starve i o)", "step n.w (.starve i (match o with | .ok _ _ => .ok 0 0 | .err => .err))"))
m('nl-unserved', 'Mock', 'netStep', 'a request can be lost before it is served, without its EGLD', 'C56',
  ("    | some (_, some o) => do\n      let w' ← step n.w (.starve i o)", "    | some (_, o) => do\n      let w' ← step n.w (.starve i (o.getD (.ok 0 0)))"))

# --- chain
m('ch-debit', 'Chain', 'debit', 'accounts may be overdrawn', 'C56',
  ('if v ≤ m.get 0 k then .ok (m.set k (m.get 0 k - v)) else .error .insufficientFunds', '.ok (m.set k (m.get 0 k - v))'))
m('ch-credit', 'Chain', 'credit', 'credit replaces the balance', 'C56',
  ('m.set k (m.get 0 k + v)', 'm.set k v'))
m('ch-send', 'Chain', 'sendEgld', 'sent EGLD not received', 'C56',
  ('  let m ← debit w.egld w.self v\n  .ok { w with egld := credit m dst v }', '  let m ← debit w.egld w.self v\n  .ok { w with egld := m }'))
m('ch-promise', 'Chain', 'registerPromise', 'EGLD of a promise stays with the contract', 'C56',
  ('.ok { w with egld := m, flights := w.flights ++ [f] }', '.ok { w with flights := w.flights ++ [f] }'))
m('ch-burnnft', 'Chain', 'nftBurn', 'unstake tokens not burned', 'C42',
  ('  let m ← debit w.nft (n, w.self) v\n  .ok { w with nft := m }', '  let _ ← debit w.nft (n, w.self) v\n  .ok w'))
m('ch-payls', 'Chain', 'payEsdt1', 'LS tokens paid in are not taken from the sender', 'C05',
  ('      let m ← debit w.ls caller p.amount\n      .ok { w with ls := credit m w.self p.amount }', '      let _ ← debit w.ls caller p.amount\n      .ok { w with ls := credit w.ls w.self p.amount }'))
m('tr-ls', 'Step', 'transferLs', 'transfers duplicate the tokens', 'C05',
  ('  let m ← debit w.ls src v\n  .ok { w with ls := credit m dst v }', '  let _ ← debit w.ls src v\n  .ok { w with ls := credit w.ls dst v }'))

# --- effects: what else is touched, events, positions
m('ev-order', 'Pool', 'processDelegation', 'event of a deposit carries the figures before it', 'C65',
  ('.ok (emit w2 c3 (.addLiquidity (toAdd + fromPending)) caller, c3)', '.ok (emit w2 c (.addLiquidity (toAdd + fromPending)) caller, c3)'))
m('ev-amount', 'Pool', 'processDelegation', 'event of a deposit names only the part that is not matched with the queue', 'C65',
  ('.addLiquidity (toAdd + fromPending)', '.addLiquidity toAdd'))
m('ev-caller', 'Endpoints', 'migrate', 'event of a migration names the migration contract', 'C65',
  ('(.addLiquidity virtualAmount) originalCaller', '(.addLiquidity virtualAmount) caller'))
m('ev-withdraw', 'Callbacks', 'withdrawTokensCb', 'event of a withdrawal emitted for empty answers too', 'C65',
  ('  else .ok w\n\n/-- Address of the delegation manager', '  else do\n    let c ← cacheNew w.st\n    .ok (emit w c (.withdrawPending value p) p)\n\n/-- Address of the delegation manager'))
m('ev-revenue', 'Callbacks', 'claimRewardsCb', 'announced revenue is what is left after the fee', 'C66',
  ('.protocolRevenue fees w.epoch', '.protocolRevenue post w.epoch'))
m('ev-success', 'Callbacks', 'addLiquidityCb', 'a successful delegation emits an event', 'C65',
  ('.ok (commit w1 c)\n  else do\n    let c1 : Cache := { c with r := { c.r with pending', '.ok (commit (emit w1 c .general p) c)\n  else do\n    let c1 : Cache := { c with r := { c.r with pending'))
m('ev-double', 'Endpoints', 'withdraw', 'event of a withdrawal emitted twice', 'C65',
  ('.ok (commit (emit w2 c1 .general caller) c1)\n\n/-- Validation', '.ok (commit (emit (emit w2 c1 .general caller) c1 .general caller) c1)\n\n/-- Validation'))
m('ev-claimfees', 'Endpoints', 'claimFeesWith', 'paying the fees emits an event with the old figures', 'C66',
  ('.ok (commit w2 { c with r := { c.r with fees := 0 } })', '.ok (commit (emit w2 c .general caller) { c with r := { c.r with fees := 0 } })'))
m('ev-epoch', 'Chain', 'emit', 'events carry the unbond period instead of the epoch', 'C65',
  ('c.r w.epoch] }', 'c.r w.st.unbondPeriod] }'))
m('pt-order', 'Endpoints', 'delegateLoop', 'delegating moves the provider in the un-delegation order too', 'C64',
  ('let w1 := { w with st := { w.st with delegList := moveToBack w.st.delegList s.address } }\n    let w2 ← updateData w1 s.address (fun d => .ok { d with pStake',
   'let w1 := { w with st := { w.st with delegList := moveToBack w.st.delegList s.address, undelegList := moveToBack w.st.undelegList s.address } }\n    let w2 ← updateData w1 s.address (fun d => .ok { d with pStake'))
m('pt-elig', 'Callbacks', 'removeLiquidityCb', 'a refused un-delegation makes the provider ineligible', 'C64',
  ('      let u ← csub d.pUnstake amount\n      .ok { d with pUnstake := u })', '      let u ← csub d.pUnstake amount\n      .ok { d with pUnstake := u, eligible := false })'))
m('pt-elig2', 'Callbacks', 'addLiquidityCb', 'a successful delegation makes the provider eligible again', 'C64',
  ('.ok { d with staked := d.staked + amount, pStake := s })', '.ok { d with staked := d.staked + amount, pStake := s, eligible := true })'))
m('pt-total', 'Callbacks', 'addLiquidityCb', 'a successful delegation raises the declared total', 'C64',
  ('.ok { d with staked := d.staked + amount, pStake := s })', '.ok { d with staked := d.staked + amount, pStake := s, totalStaked := d.totalStaked + amount })'))
m('pt-admin', 'Endpoints', 'changeAdmin', 'changing the admin resets eligibility', 'C64',
  ('.ok { d with admin := admin })', '.ok { d with admin := admin, eligible := true })'))
m('pt-owner', 'Endpoints', 'applyOwnerCmd', 'removing a manager also pauses', 'C64',
  ('managers := swapRemove st.managers a }', 'managers := swapRemove st.managers a, state := .inactive }'))
m('pt-lists', 'Callbacks', 'whitelistCb', 'newcomers are put first', 'C32',
  ('delegList := setInsert w1.st.delegList p }', 'delegList := p :: w1.st.delegList.erase p }'))
m('po-clean', 'Pool', 'cleanOldUnbondEpochs', 'retired nonce stays registered', 'C68',
  ('let w1 := { w with st := { w.st with unstakeNonce := w.st.unstakeNonce.set a.unbondEpoch 0 } }', 'let w1 := w'))
m('po-burn', 'Pool', 'cleanOldUnbondEpochs', 'retired nonce keeps its unit', 'C68',
  ('    nftBurn w1 n (w1.nft.get 0 (n, w1.self))', '    .ok w1'))
m('po-never', 'Pool', 'mintUnstakeTokens', 'previous nonce never retired', 'C68',
  ('    if 1 < n1 then do\n      let w3 ← cleanOldUnbondEpochs w2 (n1 - 1) currentEpoch\n      .ok (w3, n1)\n    else .ok (w2, n1)', '    .ok (w2, n1)'))
m('po-fresh', 'Pool', 'mintUnstakeTokens', 'every redemption opens a new nonce', 'C68',
  ('  if n = 0 then do', '  if n = n then do'))
m('po-unstake', 'Pool', 'undelegateAmount', 'maturity written as the epoch of redemption', 'C68',
  ('{ unstakeEpoch := w.epoch, unbondEpoch := unbondEpoch }', '{ unstakeEpoch := unbondEpoch, unbondEpoch := unbondEpoch }'))
m('cf-fail', 'Callbacks', 'removeLiquidityCb', 'more un-delegated than staked is accepted', 'C67',
  ('let s ← csub d.staked amount\n', 'let s := d.staked - amount\n'))
m('cf-withdraw', 'Callbacks', 'withdrawTokensCb', 'more sent back than is unbonding is accepted', 'C67',
  ('let u ← csub c.r.toUnbond value\n', 'let u := c.r.toUnbond - value\n'))
m('cf-fee', 'Callbacks', 'claimRewardsCb', 'a fee above the rewards is accepted', 'C67',
  ('let post ← csub total fees\n', 'let post := total - fees\n'))

# --- acceptance: guards added or moved, and (below) every guard removed in turn
m('ac-del-active', 'Endpoints', 'addRewards', 'rewards are refused while paused', 'C69',
  ('  let c ← cacheNew w0.st\n  let c1 : Cache := { c with r := { c.r with reserve := c.r.reserve + value', '  let c ← cacheNew w0.st\n  requireActive c\n  let c1 : Cache := { c with r := { c.r with reserve := c.r.reserve + value'))
m('ac-min', 'Endpoints', 'delegate', 'every deposit must be one EGLD, even when dust is already pending', 'C69',
  ('  req (0 < value) .badPaymentAmount\n  let (p, extra)', '  req (MIN_EGLD ≤ value) .badPaymentAmount\n  let (p, extra)'))
m('ac-fees', 'Endpoints', 'claimFeesWith', 'fees may be claimed by managers only', 'C69',
  ('  req (0 < c.r.fees) .insufficientFeesReserve', '  requireManager w caller\n  req (0 < c.r.fees) .insufficientFeesReserve'))
m('ac-fees-active', 'Endpoints', 'claimFeesWith', 'fees cannot be claimed while paused', 'C69',
  ('  req (0 < c.r.fees) .insufficientFeesReserve', '  requireActive c\n  req (0 < c.r.fees) .insufficientFeesReserve'))
m('ac-wl-limit', 'Endpoints', 'whitelist', 'the limit on providers is strict', 'C69',
  ('req (w0.st.delegList.length ≤ w0.st.maxDelegationAddresses)', 'req (w0.st.delegList.length < w0.st.maxDelegationAddresses)'))
m('ac-wl-cap', 'Endpoints', 'whitelist', 'a provider without a cap is refused', 'C69',
  ('  req (totalStaked ≤ cap ∨ cap = 0) .delegationCap\n  req (MIN_EGLD ≤ value)', '  req (totalStaked ≤ cap) .delegationCap\n  req (MIN_EGLD ≤ value)'))
m('ac-wl-full', 'Endpoints', 'whitelist', 'a provider at its cap is refused', 'C69',
  ('  req (totalStaked ≤ cap ∨ cap = 0) .delegationCap\n  req (MIN_EGLD ≤ value)', '  req (totalStaked < cap ∨ cap = 0) .delegationCap\n  req (MIN_EGLD ≤ value)'))
m('ac-params', 'Endpoints', 'changeParams', 'the admin may not lower the cap below the stake recorded', 'C69',
  ('  req (old.admin = caller ∨ isManager w caller = true) .onlyDelegationAdmin', '  req (old.admin = caller ∨ isManager w caller = true) .onlyDelegationAdmin\n  req (old.staked ≤ cap ∨ cap = 0) .delegationCap'))
m('ac-inflight', 'Endpoints', 'delegatePending', 'no batch while calls are on their way', 'C69',
  ('  let amt ← batchAmount c.r.pending amount', '  req (w.flights = []) .notActive\n  let amt ← batchAmount c.r.pending amount'))
m('ac-wd-dup', 'Endpoints', 'withdrawLoop', 'two payments of one nonce are refused', 'C69',
  ('    let (w1, c1, t1) ← withdrawOne caller unstakeId w c toSend p', '    req (ps.all (fun q => q.nonce != p.nonce) = true) .badPaymentToken\n    let (w1, c1, t1) ← withdrawOne caller unstakeId w c toSend p'))
m('ac-wd-empty', 'Endpoints', 'withdraw', 'a withdrawal without payments is refused', 'C69',
  ('    let (w1, c1, toSend) ← withdrawLoop caller uid ps w0 c 0', '    req (ps ≠ []) .badPaymentToken\n    let (w1, c1, toSend) ← withdrawLoop caller uid ps w0 c 0'))
m('ac-wd-full', 'Endpoints', 'withdrawOne', 'a partial withdrawal is refused', 'C69',
  ('  else if 0 < c.r.withdrawn then do', '  else if c.r.withdrawn < 0 then do'))
m('ac-mature', 'Endpoints', 'withdrawOne', 'maturity must have passed, not just been reached', 'C69',
  ('req (a.unbondEpoch ≤ w.epoch)', 'req (a.unbondEpoch < w.epoch)'))
m('ac-scoring', 'Endpoints', 'setScoringConfig', 'empty ranges refused', 'C69',
  ('  .ok { w with st := { w.st with scoring := some cfg } }', '  req (cfg.minNodes < cfg.maxNodes) .weightsMustSumTo100\n  .ok { w with st := { w.st with scoring := some cfg } }'))
m('ac-withdraw-pending', 'Endpoints', 'withdrawPending', 'refused when nothing is unbonding', 'C69',
  ('  let w1 ← registerPromise w (.withdraw contract) 0', '  req (0 < c.r.toUnbond) .notWhitelisted\n  let w1 ← registerPromise w (.withdraw contract) 0'))
m('ac-mig-paused', 'Endpoints', 'migrate', 'refused while paused', 'C69',
  ('  let (l, c1) ← poolAdd virtualAmount c', '  requireActive c\n  let (l, c1) ← poolAdd virtualAmount c'))
m('ac-owner-twice', 'Endpoints', 'applyOwnerCmd', 'unbond period zero refused', 'C69',
  ('  | .unbondPeriod v => .ok { st with unbondPeriod := v }', '  | .unbondPeriod v => do\n    req (v ≠ 0) .badEpoch\n    .ok { st with unbondPeriod := v }'))
m('ac-fees-max', 'Endpoints', 'applyOwnerCmd', 'fee above 100% refused', 'C69',
  ('  | .fees v => .ok { st with feeRate := v }', '  | .fees v => do\n    req (v ≤ 10000) .badEpoch\n    .ok { st with feeRate := v }'))
m('ac-batch-one', 'Endpoints', 'batchAmount', 'more than one EGLD must be pending', 'C69',
  ('  req (MIN_EGLD ≤ pending) .insufficientPendingEgld', '  req (MIN_EGLD < pending) .insufficientPendingEgld'))
m('ac-batch-exact', 'Endpoints', 'batchAmount', 'asking for the whole queue by amount is refused', 'C69',
  ('    req (a ≤ pending) .insufficientPendingEgld', '    req (a < pending) .insufficientPendingEgld'))
m('ac-all-providers', 'Selection', 'getDelegationContract', 'every provider must be in order, not only those looked at', 'C69',
  ('  req (list ≠ []) .noDelegationContracts', '  req (list ≠ []) .noDelegationContracts\n  req (list.all (fun p => decide ((st.data.get none p).isSome → (((st.data.get none p).map (·.eligible)).getD true = true))) = true) .badDelegationAddress'))

# the order of answers
m('od-back', 'Callbacks', 'addLiquidityCb', 'a provider that refuses goes to the back of the delegation order', 'C71',
  ('      .ok { d with eligible := false, pStake := s })\n    .ok (commit (emit w1 c1 .general p) c1)',
   '      .ok { d with eligible := false, pStake := s })\n    let w2 := { w1 with st := { w1.st with delegList := moveToBack w1.st.delegList p } }\n    .ok (commit (emit w2 c1 .general p) c1)'))
m('od-fee', 'Callbacks', 'claimRewardsCb', 'the fee is not taken while fees are waiting', 'C71',
  ('      let fees ← calculateShare total w.st.feeRate', '      let fees ← calculateShare total (if c.r.fees = 0 then w.st.feeRate else 0)'))
m('od-cap', 'Callbacks', 'withdrawTokensCb', 'EGLD that comes back is added to the pending EGLD while nothing is withdrawable', 'C71',
  ('    let c1 : Cache := { c with r := { c.r with withdrawn := c.r.withdrawn + value, toUnbond := u } }',
   '    let c1 : Cache := if c.r.pending < c.r.withdrawn then { c with r := { c.r with pending := c.r.pending + value, toUnbond := u } } else { c with r := { c.r with withdrawn := c.r.withdrawn + value, toUnbond := u } }'))
m('od-queue', 'Callbacks', 'removeLiquidityCb', 'a refused un-delegation replaces the queue when it is larger', 'C71',
  ('    let c1 : Cache := { c with r := { c.r with toUnstake := c.r.toUnstake + amount } }',
   '    let c1 : Cache := { c with r := { c.r with toUnstake := max c.r.toUnstake amount } }'))
m('od-first', 'Callbacks', 'whitelistCb', 'the first delegation joins the queue of withdrawals when there is one', 'C71',
  ('    let (l, c1) ← poolAdd amount c\n    let w4', '    let (l, c1) ← poolAdd (amount + c.r.withdrawn) c\n    let w4'))

# rewards and roles
m('rw-mint', 'Endpoints', 'addRewards', 'rewards also mint LS tokens to the sender', 'C72',
  ('  let c1 : Cache := { c with r := { c.r with reserve := c.r.reserve + value, pending := c.r.pending + value } }\n  .ok (commit (emit w0 c1 .general caller) c1)',
   '  let c1 : Cache := { c with r := { c.r with reserve := c.r.reserve + value, pending := c.r.pending + value, lsSupply := c.r.lsSupply + value } }\n  let w1 ← sendLs (mintLs w0 value) caller value\n  .ok (commit (emit w1 c1 .general caller) c1)'))
m('rw-gross', 'Callbacks', 'claimRewardsCb', 'the reserve is raised by the rewards before the fee', 'C72',
  ('pending := c.r.pending + post, reserve := c.r.reserve + post', 'pending := c.r.pending + post, reserve := c.r.reserve + total'))
m('rw-feecut', 'Callbacks', 'claimRewardsCb', 'fee taken twice from the reserve', 'C72',
  ('reserve := c.r.reserve + post } }', 'reserve := c.r.reserve + (post - fees) } }'))
m('rw-mig', 'Endpoints', 'migratePending', 'EGLD brought by the migration raises the reserve too', 'C72',
  ('pending := c.r.pending + value } }\n  .ok { commit (emit w0 c1 .general caller) c1 with migratedPending', 'pending := c.r.pending + value, reserve := c.r.reserve + value } }\n  .ok { commit (emit w0 c1 .general caller) c1 with migratedPending'))
m('rw-fees-back', 'Endpoints', 'claimFeesWith', 'collected fees are also taken from the reserve', 'C72',
  ('{ c with r := { c.r with fees := 0 } }', '{ c with r := { c.r with fees := 0, reserve := c.r.reserve - c.r.fees } }'))
m('rw-unclaimed', 'Callbacks', 'withdrawTokensCb', 'EGLD coming back from a provider raises the reserve', 'C72',
  ('withdrawn := c.r.withdrawn + value, toUnbond := u', 'withdrawn := c.r.withdrawn + value, toUnbond := u, reserve := c.r.reserve + value'))
m('rw-penalty', 'Pool', 'poolRemove', 'one per thousand of a redemption stays in the pool', 'C72',
  ('  let e ← getEgldAmount ls c\n  let s ← csub', '  let e0 ← getEgldAmount ls c\n  let e := e0 - e0 / 1000\n  let s ← csub'))
m('ro-handover', 'Step', 'changeOwner', 'anybody can hand the contract over', 'C73',
  ('  requireOwner w caller\n  .ok { w with owner := dst }', '  .ok { w with owner := dst }'))
m('ro-managers', 'Step', 'changeOwner', 'the old owner becomes a manager', 'C73',
  ('  .ok { w with owner := dst }', '  .ok { w with owner := dst, st := { w.st with managers := setInsert w.st.managers caller } }'))
m('ro-admin', 'Endpoints', 'changeAdmin', 'the admin of a provider can name the next one', 'C73',
  ('  requireManager w caller\n  updateData w contract (fun d => .ok { d with admin := admin })', '  let old ← getData w.st contract\n  req (old.admin = caller ∨ isManager w caller = true) .notManager\n  updateData w contract (fun d => .ok { d with admin := admin })'))
m('ro-params', 'Endpoints', 'changeParams', 'whoever changes the parameters becomes the admin', 'C73',
  ('.ok { d with totalStaked := totalStaked,', '.ok { d with admin := caller, totalStaked := totalStaked,'))
m('ro-manager-adds', 'Endpoints', 'ownerCmd', 'a manager can use the setters', 'C73',
  ('  requireOwner w caller\n  let st ← applyOwnerCmd w.st cmd', '  requireManager w caller\n  let st ← applyOwnerCmd w.st cmd'))
m('ro-mig', 'Endpoints', 'setMigrationSc', 'a manager can set the migration contract', 'C73',
  ('  requireOwner w caller\n  req (a ∈ w.contracts) .migrationNotAllowed', '  requireManager w caller\n  req (a ∈ w.contracts) .migrationNotAllowed'))
m('ro-wladmin', 'Callbacks', 'whitelistCb', 'the sender of the whitelisting becomes the admin when it is answered', 'C73',
  ('.ok { d with staked := d.staked + amount })\n    let w2', '.ok { d with staked := d.staked + amount, admin := caller })\n    let w2'))
m('ro-stale', 'Chain', 'isManager', 'whoever has ever issued a token keeps manager rights', 'C73',
  ('w.st.managers.contains a || a == w.owner', 'w.st.managers.contains a || a == w.owner || w.issues.any (fun x => x.caller == a)'))
m('ro-refund', 'Callbacks', 'issueCb', 'the refund of a refused issue goes to the present owner', 'C55',
  ('sendEgld w x.caller x.cost', 'sendEgld w w.owner x.cost'))

# burns, EGLD outside the books, callbacks without gas, rewards on the way
m('bu-supply', 'Step', 'holderBurnLs', 'burning LS tokens reduces the recorded supply', 'C74',
  ('  .ok { w with ls := m, burntLs := w.burntLs + v }', '  .ok { w with ls := m, burntLs := w.burntLs + v, st := { w.st with r := { w.st.r with lsSupply := w.st.r.lsSupply - v } } }'))
m('bu-reserve', 'Step', 'holderBurnLs', 'burning LS tokens reduces the reserve', 'C74',
  ('  .ok { w with ls := m, burntLs := w.burntLs + v }', '  .ok { w with ls := m, burntLs := w.burntLs + v, st := { w.st with r := { w.st.r with reserve := w.st.r.reserve - v } } }'))
m('bu-free', 'Step', 'holderBurnLs', 'the burn is counted but the tokens stay', 'C74',
  ('  .ok { w with ls := m, burntLs := w.burntLs + v }', '  .ok { w with burntLs := w.burntLs + v }'))
m('bu-nft-other', 'Step', 'holderBurnNft', 'the unit of the contract is burned instead', 'C74',
  ('  let m ← debit w.nft (n, a) v\n  .ok { w with nft := m, burntUnstake', '  let m ← debit w.nft (n, w.self) v\n  .ok { w with nft := m, burntUnstake'))
m('bu-nft-queue', 'Step', 'holderBurnNft', 'burning unstake tokens gives their EGLD back to the pool', 'C74',
  ('  .ok { w with nft := m, burntUnstake := w.burntUnstake + v }', '  .ok { w with nft := m, burntUnstake := w.burntUnstake + v, st := { w.st with r := { w.st.r with toUnstake := w.st.r.toUnstake - v } } }'))
m('bu-nft-pay', 'Step', 'holderBurnNft', 'burning unstake tokens pays them out', 'C74',
  ('  .ok { w with nft := m, burntUnstake := w.burntUnstake + v }', '  sendEgld { w with nft := m, burntUnstake := w.burntUnstake + v } a v'))
m('le-surplus', 'Callbacks', 'claimRewardsCb', 'one unit of every reward is booked as withdrawable', 'C75',
  ('        fees := c.r.fees + fees, pending := c.r.pending + post,', '        fees := c.r.fees + fees, withdrawn := c.r.withdrawn + 1, pending := c.r.pending + post,'))
m('le-refund', 'Callbacks', 'addLiquidityCb', 'a refused delegation is booked with one unit less', 'C75',
  ('pending := c.r.pending + amount } }', 'pending := c.r.pending + (amount - 1) } }'))
m('le-keep', 'Callbacks', 'whitelistCb', 'the refund of a refused whitelisting is kept and booked as fees', 'C75',
  ('    let w2 ← sendEgld w1 caller amount\n    .ok (commit w2 c)', '    .ok (commit w1 { c with r := { c.r with fees := c.r.fees + amount } })'))
m('le-attached', 'Callbacks', 'runCallback', 'EGLD coming with the answer to an un-delegation is booked as withdrawable', 'C75',
  ('  | .undelegate p a, .ok _ _ => removeLiquidityCb w p a true', '  | .undelegate p a, .ok g _ => do\n    let w1 ← removeLiquidityCb w p a true\n    .ok { w1 with st := { w1.st with r := { w1.st.r with withdrawn := w1.st.r.withdrawn + g } } }'))
m('st-refund', 'Callbacks', 'starve', 'the EGLD of the answer is lost', 'C78',
  ('  | some f => .ok { arrive w i f o with dead', '  | some f => .ok { arrive w i f .err with egld := w.egld, dead'))
m('st-kept', 'Callbacks', 'starve', 'the call stays in flight', 'C78',
  ('  | some f => .ok { arrive w i f o with dead := (arrive w i f o).dead ++ [f] }', '  | some f => .ok { arrive w i f o with flights := w.flights, dead := (arrive w i f o).dead ++ [f] }'))
m('st-forget', 'Callbacks', 'starve', 'nothing remembers the call', 'C78',
  ('  | some f => .ok { arrive w i f o with dead := (arrive w i f o).dead ++ [f] }', '  | some f => .ok (arrive w i f o)'))
m('st-run', 'Callbacks', 'starve', 'a callback without gas for its last line still books a delegation', 'C78',
  ('  | some f => .ok { arrive w i f o with dead := (arrive w i f o).dead ++ [f] }', '  | some f => match runCallback (arrive w i f o) f o with\n    | .ok w1 => .ok { w1 with dead := w1.dead ++ [f] }\n    | .error _ => .ok { arrive w i f o with dead := (arrive w i f o).dead ++ [f] }'))
m('st-retry', 'Callbacks', 'deliver', 'the next answer takes up the calls whose callback failed', 'C78',
  ('    | .ok w\' => .ok w\'\n    | .error _ => .ok { arrive', '    | .ok w\' => .ok { w\' with dead := [] }\n    | .error _ => .ok { arrive'))
m('sh-late', 'Callbacks', 'claimRewardsCb', 'rewards are credited twice to the reserve', 'C77',
  ('reserve := c.r.reserve + post } }', 'reserve := c.r.reserve + post + post } }'))
m('sh-fees', 'Callbacks', 'claimRewardsCb', 'the fees stay in the reserve too', 'C77',
  ('reserve := c.r.reserve + post } }', 'reserve := c.r.reserve + total } }'))

# plain transfers of smart contracts to the contract
m('gi-burn-one', 'Pool', 'cleanOldUnbondEpochs', 'exactly one unit is burned instead of the whole balance', 'C68',
  ('    nftBurn w1 n (w1.nft.get 0 (n, w1.self))', '    nftBurn w1 n 1'))
m('gi-fees-balance', 'Endpoints', 'claimFeesWith', 'the fee payout is everything in the account that is neither pending nor withdrawable', 'C75',
  ('  let w1 ← sendEgld w w.st.accumulator c.r.fees\n', '  let w1 ← sendEgld w w.st.accumulator (w.egld.get 0 w.self - c.r.pending - c.r.withdrawn)\n'))
m('gi-egld-reward', 'Step', 'giveEgld', 'EGLD sent to the contract is booked as rewards', 'C79',
  ('  .ok { w with egld := credit m w.self v }', '  .ok { w with egld := credit m w.self v, st := { w.st with r := { w.st.r with pending := w.st.r.pending + v, reserve := w.st.r.reserve + v } } }'))
m('gi-egld-fees', 'Step', 'giveEgld', 'EGLD sent to the contract is booked as fees', 'C79',
  ('  .ok { w with egld := credit m w.self v }', '  .ok { w with egld := credit m w.self v, st := { w.st with r := { w.st.r with fees := w.st.r.fees + v } } }'))
m('gi-ls-burn', 'Step', 'giveLs', 'LS tokens sent to the contract are burned and leave the supply', 'C79',
  ('  .ok { w with ls := credit m w.self v }', '  .ok { w with ls := m, st := { w.st with r := { w.st.r with lsSupply := w.st.r.lsSupply - v } } }'))
m('gi-unstake-uncounted', 'Step', 'giveUnstake', 'unstake tokens sent to the contract still count as held by a user', 'C07',
  ('nft := credit m (n, w.self) v, burntUnstake := w.burntUnstake + v }', 'nft := credit m (n, w.self) v }'))
m('gi-unstake-pay', 'Step', 'giveUnstake', 'sending unstake tokens to the contract pays them out', 'C79',
  ('  .ok { w with nft := credit m (n, w.self) v, burntUnstake := w.burntUnstake + v }', '  sendEgld { w with nft := credit m (n, w.self) v, burntUnstake := w.burntUnstake + v } src v'))
m('gi-user', 'Step', 'giveLs', 'anybody can send LS tokens to the contract', 'C79',
  ('  req (src ∈ w.contracts) .notPayable\n  let m ← debit w.ls src v', '  let m ← debit w.ls src v'))
m('gi-sweep-ls', 'Endpoints', 'unDelegate', 'redeeming burns all LS tokens the contract holds', 'C75',
  ('    let w1 ← burnLs w0 p.amount\n', '    let w1 ← burnLs w0 (w0.ls.get 0 w0.self)\n'))
m('gi-redeem-balance', 'Endpoints', 'unDelegate', 'the amount redeemed is read off the balance of the contract', 'C79',
  ('    let (e, c1) ← poolRemove p.amount c\n    let w1 ← burnLs w0 p.amount\n', '    let (e, c1) ← poolRemove (w0.ls.get 0 w0.self) c\n    let w1 ← burnLs w0 (w0.ls.get 0 w0.self)\n'))
m('gi-withdraw-balance', 'Endpoints', 'withdrawOne', 'the amount burned is read off the balance of the contract', 'C68',
  ('    let w1 ← nftBurn w p.nonce p.amount\n    let t ← csub c.r.withdrawn p.amount', '    let w1 ← nftBurn w p.nonce (w.nft.get 0 (p.nonce, w.self))\n    let t ← csub c.r.withdrawn p.amount'))
m('gi-transfer-egld', 'Step', 'transferEgld', 'EGLD is sent without leaving the sender', 'C60',
  ('  let m ← debit w.egld src v\n  .ok { w with egld := credit m dst v }', '  let _m ← debit w.egld src v\n  .ok { w with egld := credit w.egld dst v }'))

m('lay-unbond', 'Layout', 'Slot.name', 'storage_mapper("pendingEgldForUnstake") for both pending_egld_for_unstake and pending_egld_for_unbond', 'C82',
  ('ascii "pendingEgldForUnbond".toList', 'ascii "pendingEgldForUnstake".toList'))
m('lay-sets', 'Layout', 'Slot.name', 'the set of un-delegation addresses shares the node ids of the other set', 'C82',
  ('ascii "unDelegationAddressesMap.node_id".toList', 'ascii "delegationAddressesMap.node_id".toList'))
m('lay-fees', 'Layout', 'Slot.name', 'storage_mapper("fees") for the fees reserve as well', 'C82',
  ('ascii "feesReserve".toList', 'ascii "fees".toList'))
m('lay-epoch', 'Layout', 'Slot.argLen', 'the nonce of the unstake token is stored without its epoch, under the key of the token identifier', 'C82',
  ('  | .unstakeNonce => 8\n', '  | .unstakeNonce => 0\n'), ('ascii "unstakeTokenNonce".toList', 'ascii "unstakeTokenId".toList'))
m('lay-provider', 'Layout', 'Slot.name', 'the record of a provider is stored at the node ids of the set', 'C82',
  ('ascii "delegationContract".toList', 'ascii "delegationAddressesMap.node_id".toList'))
m('lay-reserved', 'Layout', 'Slot.name', 'the state is kept under a reserved key', 'C82',
  ('ascii "state".toList', 'ascii "ELRONDstate".toList'))
m('lay-attrs', 'Layout', 'encAttrs', 'epochs of an unstake token written in the other order', 'C83',
  ('encU64 a.unstakeEpoch ++ encU64 a.unbondEpoch', 'encU64 a.unbondEpoch ++ encU64 a.unstakeEpoch'))
m('lay-len', 'Layout', 'byteLen', 'one byte too few for numbers with a full top byte', 'C83',
  ('Nat.log2 n / 8 + 1', 'Nat.log2 (n - 1) / 8 + 1'))
m('lay-zero', 'Layout', 'byteLen', 'zero is stored as one byte', 'C83',
  ('if n = 0 then 0 else Nat.log2 n / 8 + 1', 'Nat.log2 n / 8 + 1'))
m('lay-fields', 'Layout', 'encProvider', 'stake and returned stake written in the other order', 'C83',
  ('(encBig d.staked ++\n    (encBig d.unstaked ++', '(encBig d.unstaked ++\n    (encBig d.staked ++'))
m('lay-bool', 'Layout', 'decBool', 'every non-zero byte is read as false', 'C83',
  ('else if x = 1 then some (true, r) else none', 'else some (false, r)'))
m('lay-len4', 'Layout', 'encBig', 'two bytes of length instead of four', 'C83',
  ('beFixed 4 (byteLen n) ++ encTop n', 'beFixed 2 (byteLen n) ++ encTop n'))
m('lim-lt', 'Endpoints', 'whitelist', 'the limit compared with < in the delegation list (as intended)', 'C30',
  ('req (w0.st.delegList.length ≤ w0.st.maxDelegationAddresses) .maxDelegationAddresses', 'req (w0.st.delegList.length < w0.st.maxDelegationAddresses) .maxDelegationAddresses'))
m('lim-none', 'Endpoints', 'whitelist', 'no limit on the number of providers', 'C30',
  ('  req (w0.st.delegList.length ≤ w0.st.maxDelegationAddresses) .maxDelegationAddresses\n  req (w0.st.undelegList.length ≤ w0.st.maxDelegationAddresses) .maxUnDelegationAddresses\n', ''))

m('fr-needs-provider', 'Endpoints', 'delegate', 'deposits refused while there is no provider', 'C84',
  ('  req (0 < value) .badPaymentAmount\n  let (p, extra)', '  req (0 < value) .badPaymentAmount\n  req (w0.st.delegList ≠ []) .noDelegationContracts\n  let (p, extra)'))
m('fr-no-flights', 'Endpoints', 'withdraw', 'withdrawals refused while calls are on their way', 'C84',
  ('  match w0.st.unstakeToken with\n  | none => .error .invalidTokenId\n  | some uid => do\n    let (w1, c1, toSend)', '  req (w0.flights = []) .notActive\n  match w0.st.unstakeToken with\n  | none => .error .invalidTokenId\n  | some uid => do\n    let (w1, c1, toSend)'))
m('fr-accept-event', 'Callbacks', 'addLiquidityCb', 'an accepted delegation emits an event', 'C84',
  ('    .ok (commit w1 c)\n  else do\n    let c1 : Cache := { c with r := { c.r with pending := c.r.pending + amount } }', '    .ok (commit (emit w1 c .general p) c)\n  else do\n    let c1 : Cache := { c with r := { c.r with pending := c.r.pending + amount } }'))
m('fr-manager-holds', 'Endpoints', 'claimRewards', 'the manager must hold LS tokens', 'C85',
  ('  req (w.st.delegList ≠ []) .noDelegationContracts\n  let w1 ← registerPromise w (.claim', '  req (w.st.delegList ≠ [] ∧ 0 < w.ls.get 0 caller) .noDelegationContracts\n  let w1 ← registerPromise w (.claim'))
m('fr-owner-rich', 'Callbacks', 'claimRewardsCb', 'no fee while the accumulator has EGLD', 'C85',
  ('      let fees ← calculateShare total w.st.feeRate', '      let fees ← calculateShare total (if w.egld.get 0 w.st.accumulator = 0 then w.st.feeRate else 0)'))

m('nv-minimum', 'Endpoints', 'delegatePending', 'no batch while a minimum number of rounds is set', 'C86',
  ('  let amt ← batchAmount c.r.pending amount\n', '  req (w.st.minimumRounds = 0) .notActive\n  let amt ← batchAmount c.r.pending amount\n'))
m('nv-dead', 'Endpoints', 'unDelegatePending', 'no batch after a failed callback', 'C86',
  ('  let amt ← batchAmount c.r.toUnstake amount\n', '  req (w.dead = []) .notActive\n  let amt ← batchAmount c.r.toUnstake amount\n'))
m('re-zero-first', 'Endpoints', 'claimFeesWith', 'fees written as zero before the call, nothing afterwards (as it should be)', 'C41',
  ('  let w1 ← sendEgld w w.st.accumulator c.r.fees\n  let w2 ← body w1\n  .ok (commit w2 { c with r := { c.r with fees := 0 } })',
   '  let w1 ← sendEgld w w.st.accumulator c.r.fees\n  body (commit w1 { c with r := { c.r with fees := 0 } })'))
m('re-read-after', 'Endpoints', 'claimFeesWith', 'the figures are read again after the call', 'C41',
  ('  .ok (commit w2 { c with r := { c.r with fees := 0 } })', '  .ok (commit w2 { c with r := { w2.st.r with fees := 0 } })'))
m('re-no-write', 'Endpoints', 'claimFeesWith', 'an accumulator that called back is refused', 'C41',
  ('  .ok (commit w2 { c with r := { c.r with fees := 0 } })', '  req (w2.st.r.fees = c.r.fees) .calleeFailed\n  .ok (commit w2 { c with r := { c.r with fees := 0 } })'))
m('rp-admin-only', 'Endpoints', 'changeParams', 'managers may not change the terms of a provider', 'C87',
  ('req (old.admin = caller ∨ isManager w caller = true) .onlyDelegationAdmin', 'req (old.admin = caller) .onlyDelegationAdmin'))
m('rp-reopen', 'Endpoints', 'changeParams', 'a provider once closed cannot be opened again', 'C87',
  ('nrNodes := nrNodes, apy := apy, eligible := eligible })', 'nrNodes := nrNodes, apy := apy, eligible := d.eligible && eligible })'))
m('rp-nocap', 'Selection', 'isProviderEligible', 'a provider without a cap is never chosen', 'C87',
  ('else if d.cap = 0 then .ok true', 'else if d.cap = 0 then .ok false'))
m('rp-share', 'Selection', 'providerAmount', 'no provider is sent more than half of a batch at first', 'C87',
  ('| none => .ok (min proportion remaining)', '| none => .ok (min proportion (remaining / 2))'))
m('rp-closed-undel', 'Selection', 'selectUndelegationLoop', 'closed providers are not asked to give back', 'C88',
  ('      if 0 < take then do\n', '      if 0 < take ∧ d.eligible = true then do\n'))
m('rp-skip', 'Selection', 'providerAmount', 'a remnant makes the provider give everything instead of failing (as it should be)', 'C37',
  ('    let left ← csub available canTake\n', '    let left := available - canTake\n'))
m('st-min', 'Endpoints', 'delegate', 'deposits of less than one EGLD refused', 'C89',
  ('  req (0 < value) .badPaymentAmount\n  let (p, extra)', '  req (MIN_EGLD ≤ value) .badPaymentAmount\n  let (p, extra)'))
m('st-keep', 'Pool', 'decreasePending', 'the queue may not be emptied by a deposit', 'C89',
  ('req (MIN_EGLD ≤ c1.r.toUnstake ∨ c1.r.toUnstake = 0) .insufficientUnstakePendingEgld\n  .ok c1', 'req (MIN_EGLD ≤ c1.r.toUnstake) .insufficientUnstakePendingEgld\n  .ok c1'))
m('st-serve', 'Mock', 'netStep', 'a request for an un-delegation is lost', 'C90',
  ('      let (o, ms) := respond n.w.epoch n.mocks f\n', '      let (o, ms) := match f with | .undelegate _ _ => (Outcome.err, n.mocks) | _ => respond n.w.epoch n.mocks f\n'))
m('st-mature', 'Endpoints', 'withdrawPending', 'collecting only while nothing else is on its way', 'C90',
  ('  let w1 ← registerPromise w (.withdraw', '  req (w.flights = []) .notActive\n  let w1 ← registerPromise w (.withdraw'))

m('tn-front', 'Endpoints', 'delegateLoop', 'a provider addressed goes to the front of the order', 'C91',
  ('{ w.st with delegList := moveToBack w.st.delegList s.address }', '{ w.st with delegList := s.address :: w.st.delegList.erase s.address }'))
m('tn-terms', 'Endpoints', 'changeParams', 'a change of terms sends the provider to the back of the order', 'C91',
  ('  updateData w contract (fun d =>\n    .ok { d with totalStaked := totalStaked, cap := cap,', '  updateData { w with st := { w.st with delegList := moveToBack w.st.delegList contract } } contract (fun d =>\n    .ok { d with totalStaked := totalStaked, cap := cap,'))
m('tn-new-first', 'Callbacks', 'whitelistCb', 'new providers come first', 'C91',
  ('{ w1.st with delegList := setInsert w1.st.delegList p }', '{ w1.st with delegList := p :: w1.st.delegList.erase p }'))
m('tn-back-stays', 'Endpoints', 'undelegateLoop', 'a provider asked for stake keeps its place', 'C91',
  ('{ w.st with undelegList := moveToBack w.st.undelegList s.address }', '{ w.st with undelegList := w.st.undelegList }'))
m('tn-failed-first', 'Callbacks', 'addLiquidityCb', 'a provider that refused goes to the front', 'C91',
  ('    let c1 : Cache := { c with r := { c.r with pending := c.r.pending + amount } }', '    let w := { w with st := { w.st with delegList := p :: w.st.delegList.erase p } }\n    let c1 : Cache := { c with r := { c.r with pending := c.r.pending + amount } }'))
m('dc-apy', 'Score', 'apyScore', 'a rate of return above the highest counts double', 'C92',
  ('  let scaled := base ^ asU32 cfg.apyGrowthMultiplier.toNat\n', '  let scaled := (if cfg.maxApy < apy then 2 * base else base) ^ asU32 cfg.apyGrowthMultiplier.toNat\n'))
m('dc-stake', 'Selection', 'createSelInfo', 'the stake score takes the declared total stake', 'C92',
  ('        stakedLs := t, spaceLeft := space }', '        stakedLs := if d.totalStaked = 0 then t else d.totalStaked, spaceLeft := space }'))
m('dc-close', 'Endpoints', 'changeParams', 'who declares more than the highest rate of return closes the provider at the front', 'C92',
  ('  updateData w contract (fun d =>\n    .ok { d with totalStaked := totalStaked, cap := cap,', '  let w := { w with st := { w.st with data := match w.st.delegList with\n    | q :: _ => w.st.data.set q ((w.st.data.get none q).map fun d => { d with eligible := d.eligible && decide (apy ≤ 10000) })\n    | [] => w.st.data } }\n  updateData w contract (fun d =>\n    .ok { d with totalStaked := totalStaked, cap := cap,'))
m('sf-nothing-back', 'SelfCall', 'selfServe', 'the EGLD the contract sends itself is lost', 'C93',
  ('      match depositBody { w with egld := credit w.egld w.self a } w.self a with', '      match depositBody w w.self a with'))
m('sf-failed', 'SelfCall', 'selfServe', 'a deposit of the contract itself is answered as failed', 'C93',
  ('      match depositBody { w with egld := credit w.egld w.self a } w.self a with\n      | .ok w1 => answered w1 i (.ok 0 0) gas', '      match depositBody { w with egld := credit w.egld w.self a } w.self a with\n      | .ok w1 => answered w1 i .err gas'))
m('sf-undelegate', 'SelfCall', 'selfServe', 'un-delegating from itself succeeds', 'C93',
  ('  | some (.undelegate p _) => if p = w.self then answered w i .err gas', '  | some (.undelegate p _) => if p = w.self then answered w i (.ok 0 0) gas'))
m('sf-withdraw', 'SelfCall', 'selfServe', 'collecting from itself counts the withdrawable EGLD again', 'C93',
  ('      match emptyWithdraw w w.self with\n      | .ok w1 => answered w1 i (.ok 0 0) gas', '      match emptyWithdraw w w.self with\n      | .ok w1 => answered w1 i (.ok w.st.r.withdrawn 0) gas'))
m('sf-mint', 'SelfCall', 'depositBody', 'LS tokens of an own deposit go to nobody', 'C93',
  ('  let (w1, c1) ← processDelegation w0 caller c p extra\n  .ok (commit w1 c1)', '  let (w1, c1) ← processDelegation w0 caller c p extra\n  .ok (commit (if caller = w0.self then { w1 with ls := w0.ls } else w1) c1)'))

# --- Abi: calls in bytes
m('ab-swap', 'Abi', 'Fn.name', 'two endpoints exported under each other\'s names', 'C96',
  ('  | .setStateActive => ascii "setStateActive".toList\n  | .setStateInactive => ascii "setStateInactive".toList', '  | .setStateActive => ascii "setStateInactive".toList\n  | .setStateInactive => ascii "setStateActive".toList'))
m('ab-typo', 'Abi', 'Fn.name', 'an endpoint exported under a misspelt name', 'C96',
  ('ascii "unDelegate".toList', 'ascii "undelegate".toList'))
m('ab-payable', 'Abi', 'Fn.sig', 'claimRewards accepts EGLD', 'C96',
  ('  | .setStateActive | .setStateInactive | .claimRewards | .claimFees |', '  | .claimRewards => ⟨.egld, [], .none⟩\n  | .setStateActive | .setStateInactive | .claimFees |'))
m('ab-notpayable', 'Abi', 'Fn.sig', 'whitelistDelegationContract is not payable', 'C96',
  ('⟨.egld, [.addr, .addr, .big, .big, .u64, .u64], .none⟩', '⟨.none, [.addr, .addr, .big, .big, .u64, .u64], .none⟩'))
m('ab-any', 'Abi', 'Fn.sig', 'delegate accepts tokens', 'C96', ('  | .delegate => ⟨.egld, [], .none⟩', '  | .delegate => ⟨.any, [], .none⟩'))
m('ab-order', 'Abi', 'Fn.sig', 'migrate takes the address first', 'C96', ('⟨.none, [.big, .addr], .none⟩', '⟨.none, [.addr, .big], .none⟩'))
m('ab-opt', 'Abi', 'Fn.sig', 'delegatePending insists on its argument', 'C96', ('  | .delegatePending => ⟨.none, [], .opt .big⟩', '  | .delegatePending => ⟨.none, [.big], .none⟩'))
m('ab-u64', 'Abi', 'Ty.dec', 'numbers of 64 bits cut off instead of refused', 'C96',
  ('| .u64, b => if beVal b < 2 ^ 64 then some (.u64 (beVal b).toUInt64) else none', '| .u64, b => some (.u64 (beVal b).toUInt64)'))
m('ab-usize', 'Abi', 'Ty.dec', 'usize read as a number of 64 bits', 'C96', ('| .usize, b => if beVal b < 2 ^ 32 then', '| .usize, b => if beVal b < 2 ^ 64 then'))
m('ab-bool', 'Abi', 'Ty.dec', 'any number but zero is true', 'C96', ('else if beVal b = 1 then some (.bool true) else none', 'else some (.bool true)'))
m('ab-addr', 'Abi', 'Ty.dec', 'shorter addresses accepted', 'C96', ('| .addr, b => if b.length = 32 then', '| .addr, b => if b.length ≤ 32 then'))
m('ab-minargs', 'Abi', 'Sig.types', 'more arguments than declared are ignored', 'C96',
  ('  | .none => if n = s.args.length then some s.args else none', '  | .none => if s.args.length ≤ n then some s.args else none'))

# --- Mapper: lists in storage
m('lk-front', 'Mapper', 'pushBack', 'the first node is not made the front', 'C97', ('info := ⟨u32 (q.info.len + 1), n, n, n⟩', 'info := ⟨u32 (q.info.len + 1), q.info.front, n, n⟩'))
m('lk-back', 'Mapper', 'pushBack', 'the back is not advanced', 'C97', ('info := ⟨u32 (q.info.len + 1), q.info.front, n, n⟩', 'info := ⟨u32 (q.info.len + 1), q.info.front, q.info.back, n⟩'))
m('lk-link', 'Mapper', 'pushBack', 'the old last node is not linked to the new one', 'C97', ('(some { b with next := n })', '(some b)'))
m('lk-prev', 'Mapper', 'pushBack', 'the new node does not know the one before it', 'C97', ('n (some ⟨n, 0, q.info.back⟩)', 'n (some ⟨n, 0, 0⟩)'))
m('lk-num', 'Mapper', 'pushBack', 'numbers of nodes are reused: length plus one', 'C97', ('  let n := u32 (q.info.new + 1)\n  if q.info.len = 0', '  let n := u32 (q.info.len + 1)\n  if q.info.len = 0'))
m('lk-dup', 'Mapper', 'insert', 'members are inserted again', 'C97', ('  if q.id a ≠ 0 then some q\n  else\n    match pushBack', '  if q.id a ≠ 0 ∧ False then some q\n  else\n    match pushBack'))
m('lk-id', 'Mapper', 'remove', 'the number of a removed address stays', 'C97', ('id := put q.id a 0 }', 'id := q.id }'))
m('lk-value', 'Mapper', 'remove', 'the value of a removed node stays in storage', 'C97', ('value := put q.value (q.id a) none', 'value := q.value'))
m('lk-rlen', 'Mapper', 'remove', 'the length is not lowered', 'C97', ('info := ⟨q.info.len - 1, front, back, q.info.new⟩', 'info := ⟨q.info.len, front, back, q.info.new⟩'))
m('lk-next', 'Mapper', 'unlinkNext', 'the node after a removed one still points back at it', 'C97', ('put node n.next (some { x with prev := n.prev })', 'node'))
m('lk-skip', 'Mapper', 'unlinkPrev', 'the node before a removed one still points at it', 'C97', ('put q.node n.prev (some { p with next := n.next })', 'q.node'))
m('lk-newnum', 'Mapper', 'remove', 'removal gives the number back', 'C97', ('front, back, q.info.new⟩', 'front, back, q.info.new - 1⟩'))
m('lk-vec-shift', 'Mapper', 'Vec.remove', 'the index of the item moved is not updated', 'C97', ('put (put v.index z i) a 0', 'put v.index a 0'))
m('lk-vec-last', 'Mapper', 'Vec.remove', 'the last item stays in storage', 'C97', ('put (put v.item i (some z)) v.len none', 'put v.item i (some z)'))
m('lk-vec-zero', 'Mapper', 'Vec.insert', 'items numbered from 0', 'C97', ('put v.item n (some a), put v.index a n', 'put v.item v.len (some a), put v.index a v.len'))


# what travels in bytes
m('wr-name', 'Wire', 'encode', 'unDelegate is asked for under the Rust name', 'C98', ('⟨p, ascii "unDelegate".toList, [encTop a], 0', '⟨p, ascii "undelegate".toList, [encTop a], 0'))
m('wr-noarg', 'Wire', 'encode', 'unDelegate is sent without its amount', 'C98', ('ascii "unDelegate".toList, [encTop a], 0', 'ascii "unDelegate".toList, [], 0'))
m('wr-egld', 'Wire', 'encode', 'unDelegate carries the amount as EGLD too', 'C98', ('ascii "unDelegate".toList, [encTop a], 0', 'ascii "unDelegate".toList, [encTop a], a'))
m('wr-closure', 'Wire', 'encode', 'the closure of a whitelisting names the provider as the payer', 'C98', ('[encAddr p, encTop a, encAddr u]', '[encAddr p, encTop a, encAddr p]'))
m('wr-order', 'Wire', 'encode', 'the closure of a delegation has its arguments in the wrong order', 'C98', ('ascii "add_liquidity_callback".toList, [encAddr p, encTop a], GAS_CALLBACK', 'ascii "add_liquidity_callback".toList, [encTop a, encAddr p], GAS_CALLBACK'))
m('wr-cb', 'Wire', 'encode', 'a delegation is registered with the callback of an undelegation', 'C98', ('GAS_CALL, ascii "add_liquidity_callback".toList, [encAddr p', 'GAS_CALL, ascii "remove_liquidity_callback".toList, [encAddr p'))
m('wr-manager', 'Wire', 'encode', 'claims are sent to the first provider', 'C98', ('⟨DELEGATION_MANAGER, ascii "claimMulti".toList, ps.map encAddr', '⟨ps.headD 0, ascii "claimMulti".toList, ps.map encAddr'))
m('wr-tail', 'Wire', 'encode', 'claims leave out the first provider', 'C98', ('ascii "claimMulti".toList, ps.map encAddr', 'ascii "claimMulti".toList, ps.tail.map encAddr'))
m('wr-gas', 'Wire', 'encode', 'the gas of a claim does not grow with the list', 'C98', ('GAS_CLAIM * ps.length.toUInt64', 'GAS_CLAIM'))
m('wr-cbgas', 'Wire', 'encode', 'the callback of a whitelisting gets the gas of the others', 'C98', ('[encAddr p, encTop a, encAddr u], GAS_WHITELIST', '[encAddr p, encTop a, encAddr u], GAS_CALLBACK'))
m('wr-constant', 'Wire', 'GAS_CALLBACK', 'callbacks get 2.5 million', 'C98', ('def GAS_CALLBACK : UInt64 := 6000000', 'def GAS_CALLBACK : UInt64 := 2500000'))
m('wr-payable', 'Wire', 'mockCall', 'the provider\'s delegate is not payable', 'C98', ('match accepts ⟨.egld, [], .none⟩ args egld with', 'match accepts ⟨.none, [], .none⟩ args egld with'))
m('wr-returns', 'Wire', 'mockCall', 'the provider\'s withdraw returns the amount as data', 'C98', ('| .ok (m\', v) => some (m\', v, [])', '| .ok (m\', v) => some (m\', v, [encTop v])'))
m('wr-total', 'Wire', 'managerCall', 'the manager returns nothing', 'C98', ('some (ms\', t, [encTop t])', 'some (ms\', t, [])'))
m('wr-sum', 'Wire', 'claimLoop', 'only what the last provider sent is counted', 'C98', ('some (ms\', t) => some (ms\', v + t)', 'some (ms\', t) => some (ms\', if ps = [] then v else t)'))
m('wr-unit', 'Wire', 'readUnit', 'a failure is read as success', 'C98', ('  | .fail => .ok false', '  | .fail => .ok true'))
m('wr-big', 'Wire', 'readBig', 'the length of the number is read instead of it', 'C98', ('.done [b] _ => .ok (some (beVal b))', '.done [b] _ => .ok (some b.length)'))
m('wr-swap', 'Wire', 'callback', 'the callback of a whitelisting pays the provider', 'C98', ('whitelistCb w p a u (← readUnit r)', 'whitelistCb w p a p (← readUnit r)'))
m('wr-refund', 'Wire', 'value', 'the EGLD of a failed call does not come back', 'C98', ('  | .fail => m.egld', '  | .fail => 0'))
m('wr-dest', 'Wire', 'serve', 'a served request changes the mock of another address', 'C98', ('(.done data v, ms.set m.dest (some k\'))', '(.done data v, ms.set 0 (some k\'))'))
m('wr-consume', 'Wire', 'deliver', 'an answer leaves its promise in place', 'C98', ('let w0 := { w with flights := w.flights.eraseIdx i, egld', 'let w0 := { w with flights := w.flights, egld'))

m('va-lists', 'Views', 'answer', 'the list for un-delegations answered for the other', 'C99',
  ('| .getDelegationAddressesList, [] => queue s.deleg', '| .getDelegationAddressesList, [] => queue s.undeleg'))
m('va-withdrawn', 'Views', 'answer', 'the EGLD to be unbonded answered for the EGLD withdrawn', 'C99',
  ('| .getTotalWithdrawnEgld, [] => big (s.at .withdrawn)', '| .getTotalWithdrawnEgld, [] => big (s.at .toUnbond)'))
m('va-rounds', 'Views', 'answer', 'the rounds per epoch answered for the minimum of rounds', 'C99',
  ('| .minimumRounds, [] => num 64 (s.at .minimumRounds)', '| .minimumRounds, [] => num 64 (s.at .roundsPerEpoch)'))
m('va-narrow', 'Views', 'answer', 'the unbonding period read as 32 bits', 'C99',
  ('| .unbondPeriod, [] => num 64 (s.at .unbondPeriod)', '| .unbondPeriod, [] => num 32 (s.at .unbondPeriod)'))
m('va-wide', 'Views', 'answer', 'the maximum of providers read without a limit', 'C99',
  ('| .maxDelegationAddresses, [] => num 32 (s.at .maxDelegationAddresses)', '| .maxDelegationAddresses, [] => big (s.at .maxDelegationAddresses)'))
m('va-migration', 'Views', 'answer', 'the accumulator answered for the migration contract', 'C99',
  ('| .getMigrationScAddress, [] => addr (s.at .migrationSc)', '| .getMigrationScAddress, [] => addr (s.at .accumulator)'))
m('va-unset', 'Views', 'addr', 'an unset address answered as nothing rather than an error', 'C99',
  ('if b.length = 32 then some [encAddr (beVal b)] else none', 'if b.length = 32 then some [encAddr (beVal b)] else some [[]]'))
m('va-staked', 'Views', 'answer', 'the stake of the whole provider answered for the stake of the contract', 'C99',
  ('record (fun d => encTop d.staked)', 'record (fun d => encTop d.totalStaked)'))
m('va-unstaked', 'Views', 'answer', 'the stake answered for the amount unstaked', 'C99',
  ('record (fun d => encTop d.unstaked)', 'record (fun d => encTop d.staked)'))
m('va-unknown', 'Views', 'record', 'an unknown provider answered as nothing rather than an error', 'C99',
  ('(decProvider b).map fun d => [f d]', 'if b = [] then some [[]] else (decProvider b).map fun d => [f d]'))
m('va-nonce-width', 'Views', 'answer', 'the epoch of a receipt looked up with as few bytes as it has', 'C99',
  ('(s.at .unstakeNonce (beFixed 8 (beVal e)))', '(s.at .unstakeNonce (encTop (beVal e)))'))
m('va-rate-empty', 'Views', 'rate', 'the rate of an empty pool answered as nothing', 'C99',
  ('if beVal supply = 0 then some [encTop (10 ^ 18)]', 'if beVal supply = 0 then some [encTop 0]'))
m('va-rate-order', 'Views', 'rate', 'the rate divided before it is scaled', 'C99',
  ('beVal reserve * 10 ^ 18 / beVal supply', 'beVal reserve / beVal supply * 10 ^ 18'))
m('va-rate-inverse', 'Views', 'rate', 'the rate the other way around', 'C99',
  ('beVal reserve * 10 ^ 18 / beVal supply', 'beVal supply * 10 ^ 18 / beVal reserve'))
m('va-reverse', 'Views', 'queue', 'the order of providers answered from the back', 'C99',
  ('(items q (Mapper.len q)).map (·.map encAddr)', '(items q (Mapper.len q)).map (·.reverse.map encAddr)'))
m('va-one', 'Views', 'vec', 'all managers in one result', 'C99',
  ('v.items.map (·.map encAddr)', 'v.items.map (fun l => [(l.map encAddr).flatten])'))
m('va-any', 'Views', 'view', 'a view refused by the interface answers all the same', 'C99',
  ('  match parse c, Fn.all.find? (fun f => f.name = c.fn) with\n  | .ok none, some f => answer s f c.args', '  match parse c, Fn.all.find? (fun f => f.name = c.fn) with\n  | _, some f => answer s f c.args'))

m('px-name', 'Proxy', 'Method.endpoint', 'managers added under the name of the method', 'C100',
  ('| .setManagers _ => ascii "addManagers".toList', '| .setManagers _ => ascii "setManagers".toList'))
m('px-other', 'Proxy', 'Method.endpoint', 'the EGLD to be unbonded asked for as the EGLD to be unstaked', 'C100',
  ('| .pendingEgldForUnstake => ascii "getPendingEGLDForUnDelegate".toList', '| .pendingEgldForUnstake => ascii "getPendingEgldForUnbond".toList'))
m('px-case', 'Proxy', 'Method.endpoint', 'an endpoint written with other capitals', 'C100',
  ('ascii "getPendingEGLDForDelegate".toList', 'ascii "getPendingEgldForDelegate".toList'))
m('px-swap', 'Proxy', 'Method.args', 'nodes and APY in the other order', 'C100',
  ('[encAddr p, encAddr a, encTop t, encTop cap, encTop n.toNat, encTop y.toNat]', '[encAddr p, encAddr a, encTop t, encTop cap, encTop y.toNat, encTop n.toNat]'))
m('px-swap-cap', 'Proxy', 'Method.args', 'cap and total stake in the other order', 'C100',
  ('[encAddr p, encTop t, encTop cap, encTop n.toNat,', '[encAddr p, encTop cap, encTop t, encTop n.toNat,'))
m('px-admin', 'Proxy', 'Method.args', 'the administrator named before the provider', 'C100',
  ('| .changeDelegationContractAdmin p a => [encAddr p, encAddr a]', '| .changeDelegationContractAdmin p a => [encAddr a, encAddr p]'))
m('px-optional', 'Proxy', 'Method.args', 'a missing amount sent as an empty argument', 'C100',
  ('| .delegatePending o => o.toList.map encTop', '| .delegatePending o => [encTop (o.getD 0)]'))
m('px-list', 'Proxy', 'Method.args', 'only the first manager is sent', 'C100',
  ('| .setManagers l => l.map encAddr', '| .setManagers l => (l.take 1).map encAddr'))
m('px-migrate', 'Proxy', 'Method.args', 'the arguments of the migration in the other order', 'C100',
  ('| .migrate n a => [encTop n, encAddr a]', '| .migrate n a => [encAddr a, encTop n]'))
m('px-payable', 'Proxy', 'Method.payable', 'no payment with `withdraw`', 'C100',
  ('| .delegate | .unDelegate | .withdraw | .registerLsToken', '| .delegate | .unDelegate | .registerLsToken'))
m('px-unpaid', 'Proxy', 'request', 'a payment goes along with every method', 'C100',
  ('  if m.payable then', '  if true then'))
m('px-init', 'Proxy', 'initRequest', 'the two maxima in the other order at deployment', 'C100',
  ('encTop maxSel, encTop maxAddr,', 'encTop maxAddr, encTop maxSel,'))
m('px-fields', 'Proxy', 'decInfo', 'the record read with the two fields the contract has added (as it should be)', 'C100',
  ('  let (unstaked, b) ← decBig b\n  let (eligible, b) ← decBool b\n', '  let (unstaked, b) ← decBig b\n  let (_, b) ← decU64 b\n  let (_, b) ← decU64 b\n  let (eligible, b) ← decBool b\n'))
m('px-read-narrow', 'Proxy', 'Method.read', 'amounts read as 64 bits', 'C100',
  ('    one fun b => some (.nat (beVal b))', '    one fun b => some (.nat (beVal b % 2 ^ 64))'))
m('px-read-list', 'Proxy', 'Method.read', 'lists read from the back', 'C100',
  ('(allSome (bs.map readAddr)).map .addrs', '(allSome (bs.reverse.map readAddr)).map .addrs'))
m('px-read-first', 'Proxy', 'one', 'further results are ignored', 'C100',
  ('  | [b] => d b\n', '  | b :: _ => d b\n'))

m('lo-order', 'Logs', 'encChange', 'reserve and supply in the other order', 'C101',
  ('encBig r.lsSupply ++ (encBig r.reserve ++ (', 'encBig r.reserve ++ (encBig r.lsSupply ++ ('))
m('lo-missing', 'Logs', 'encChange', 'the fees are left out of the record', 'C101',
  ('(encBig r.reserve ++ (encBig r.fees ++ (encBig r.withdrawn ++\n    (encBig r.pending ++ (encBig r.toUnstake ++ (encBig r.toUnbond ++ (encU64 block ++ (encU64 epoch ++ encU64 stamp))))))))))',
   '(encBig r.reserve ++ (encBig r.withdrawn ++\n    (encBig r.pending ++ (encBig r.toUnstake ++ (encBig r.toUnbond ++ (encU64 block ++ (encU64 epoch ++ encU64 stamp)))))))))'))
m('lo-time', 'Logs', 'encChange', 'block and time in the other order', 'C101',
  ('(encU64 block ++ (encU64 epoch ++ encU64 stamp))', '(encU64 stamp ++ (encU64 epoch ++ encU64 block))'))
m('lo-token', 'Logs', 'encBytes', 'the name of the token without its length', 'C101',
  ('beFixed 4 b.length ++ b', 'b'))
m('lo-length', 'Logs', 'encBytes', 'the length of the name in one byte', 'C101',
  ('beFixed 4 b.length ++ b', 'beFixed 1 b.length ++ b'))
m('lo-name', 'Logs', 'topics', 'redemptions under the name of deposits', 'C101',
  ('[ascii "remove_liquidity".toList', '[ascii "add_liquidity".toList'))
m('lo-provider', 'Logs', 'topics', 'the caller given as the provider', 'C101',
  ('block epoch stamp, encAddr p]', 'block epoch stamp, encAddr caller]'))
m('lo-epoch', 'Logs', 'topics', 'the revenue with the block for the epoch', 'C101',
  ('encTop v, encTop epoch.toNat]', 'encTop v, encTop block.toNat]'))
m('lo-amount', 'Logs', 'topics', 'the amount of rewards within a structure', 'C101',
  ('[ascii "claim_rewards".toList, encTop v,', '[ascii "claim_rewards".toList, encBig v,'))

# the account of value (C105), transactions ahead of another (C94), smallest amounts (C95), sizes (C102), the limit (C103)
m('ga-dust-mint', 'Pool', 'getLsAmount', 'one unit of LS token less is minted than the quotient', 'C105',
  ('  req (0 < l) .insufficientLiquidity\n  .ok l', '  req (1 < l) .insufficientLiquidity\n  .ok (l - 1)'))
m('ga-dust-pay', 'Pool', 'getEgldAmount', 'one unit of EGLD less is paid than the quotient', 'C105',
  ('  req (0 < e) .insufficientLiqBurned\n  .ok e', '  req (1 < e) .insufficientLiqBurned\n  .ok (e - 1)'))
m('ga-after', 'Pool', 'getLsAmount', 'LS tokens are priced with the deposit already in the reserve', 'C105',
  ('cdiv (a * c.r.lsSupply) c.r.reserve else', 'cdiv (a * c.r.lsSupply) (c.r.reserve + a) else'))
m('ga-exit-fee', 'Pool', 'getEgldAmount', 'one part in ten thousand of every redemption stays in the pool', 'C105',
  ('  req (0 < e) .insufficientLiqBurned\n  .ok e', '  req (0 < e - e / 10000) .insufficientLiqBurned\n  .ok (e - e / 10000)'))
m('ga-fees-caller', 'Endpoints', 'claimFeesWith', 'the fees go to the caller', 'C105',
  ('  let w1 ← sendEgld w w.st.accumulator c.r.fees\n', '  let w1 ← sendEgld w caller c.r.fees\n'))
m('ga-migrate-orig', 'Endpoints', 'migrate', 'the LS tokens of a migration go to the original caller', 'C105',
  ('  let w3 ← sendLs w2 caller l\n  .ok { commit w3 c1 with migratedVirtual', '  let w3 ← sendLs w2 originalCaller l\n  .ok { commit w3 c1 with migratedVirtual'))
m('ga-pending', 'Endpoints', 'migratePending', 'EGLD migrated as pending is credited to the reserve', 'C105',
  ('  let c1 : Cache := { c with r := { c.r with pending := c.r.pending + value } }\n  .ok { commit', '  let c1 : Cache := { c with r := { c.r with pending := c.r.pending + value, reserve := c.r.reserve + value } }\n  .ok { commit'))
m('ga-rewards-half', 'Endpoints', 'addRewards', 'half of the rewards added is kept as fees', 'C105',
  ('reserve := c.r.reserve + value, pending := c.r.pending + value } }', 'reserve := c.r.reserve + value / 2, fees := c.r.fees + value / 2, pending := c.r.pending + value } }'))
m('ga-issue-owner', 'Callbacks', 'issueCb', 'the refund of a refused issue stays with the contract', 'C105',
  ('    let w1 ← sendEgld w x.caller x.cost\n', '    let w1 ← sendEgld w w.self x.cost\n'))
m('ga-wl-short', 'Callbacks', 'whitelistCb', 'the refund of a refused whitelisting is one unit short', 'C105',
  ('    let w2 ← sendEgld w1 caller amount\n', '    let w2 ← sendEgld w1 caller (amount - 1)\n'))
m('ga-wl-other', 'Callbacks', 'whitelistCb', 'the LS tokens of a whitelisting go to the provider', 'C105',
  ('    let w6 ← sendLs w5 caller l\n', '    let w6 ← sendLs w5 p l\n'))
m('ga-withdraw-back', 'Endpoints', 'withdraw', 'EGLD attached to a withdrawal is returned', 'C105',
  ('    let w2 ← sendEgld w1 caller toSend\n', '    let w2 ← sendEgld w1 caller (toSend + value)\n'))
m('ga-slash', 'Callbacks', 'removeLiquidityCb', 'an un-delegation answered takes one unit from the reserve', 'C105',
  ('{ c.r with toUnbond := c.r.toUnbond + amount } }', '{ c.r with toUnbond := c.r.toUnbond + amount, reserve := c.r.reserve - 1 } }'))
m('ga-give', 'Step', 'giveEgld', 'EGLD sent by a plain transfer is credited to the reserve', 'C105',
  ('  let m ← debit w.egld src v\n  .ok { w with egld := credit m w.self v }', '  let m ← debit w.egld src v\n  .ok { w with egld := credit m w.self v, st := { w.st with r := { w.st.r with reserve := w.st.r.reserve + v } } }'))
m('ga-fill', 'Callbacks', 'addLiquidityCb', 'a delegation answered credits one unit to the reserve', 'C105',
  ('pending := c.r.pending + amount } }', 'pending := c.r.pending + amount, reserve := c.r.reserve + 1 } }'))
m('ah-exit-fee', 'Pool', 'getEgldAmount', 'one part in ten thousand of every redemption stays in the pool', 'C94',
  ('  req (0 < e) .insufficientLiqBurned\n  .ok e', '  req (0 < e - e / 10000) .insufficientLiqBurned\n  .ok (e - e / 10000)'))
m('ah-double', 'Pool', 'poolAdd', 'a deposit is recorded with one LS unit more than is minted', 'C94',
  ('lsSupply := c.r.lsSupply + l, reserve := c.r.reserve + a } })', 'lsSupply := c.r.lsSupply + l + 1, reserve := c.r.reserve + a } })'))
m('ah-pending', 'Endpoints', 'migratePending', 'EGLD migrated as pending is credited to the reserve', 'C94',
  ('  let c1 : Cache := { c with r := { c.r with pending := c.r.pending + value } }\n  .ok { commit', '  let c1 : Cache := { c with r := { c.r with pending := c.r.pending + value, reserve := c.r.reserve + value } }\n  .ok { commit'))
m('ah-round', 'Pool', 'getEgldAmount', 'redemptions are rounded up', 'C94',
  ('  let e ← cdiv (ls * c.r.reserve) c.r.lsSupply\n', '  let e ← cdiv (ls * c.r.reserve + c.r.lsSupply - 1) c.r.lsSupply\n'))
m('mi-wl', 'Endpoints', 'whitelist', 'a whitelisting may come with less than one EGLD', 'C95',
  ('  req (MIN_EGLD ≤ value) .minEgldToDelegate\n', ''))
m('mi-rest', 'Selection', 'providerAmount', 'an un-delegation may leave dust with a provider', 'C95',
  ("        if left' < minEgld then .ok 0 else .ok remaining", "        if left' < 1 then .ok 0 else .ok remaining"))
m('mi-all', 'Selection', 'providerAmount', 'an un-delegation that would leave dust takes its amount all the same', 'C95',
  ('    if left < minEgld then\n', '    if left < 1 then\n'))
m('mi-fill', 'Selection', 'fillOne', 'the rest of an un-delegation may leave dust with a provider', 'C95',
  ('    if 0 < canUse ∧ (MIN_EGLD ≤ space - canUse ∨ space = canUse) then .ok (addAmount p canUse, remaining - canUse)', '    if 0 < canUse then .ok (addAmount p canUse, remaining - canUse)'))
m('mi-dist', 'Selection', 'distributeLoop', 'requests of less than one EGLD are sent', 'C95',
  ('    if minEgld ≤ amt then do\n', '    if 0 < amt then do\n'))
m('mi-pending', 'Endpoints', 'delegatePending', 'less than one EGLD may be delegated', 'C95',
  ('    req (MIN_EGLD ≤ a) .insufficientPendingEgld\n', ''))
m('si-usize', 'Abi', 'Ty.dec', 'usize read as a number of 64 bits', 'C102', ('| .usize, b => if beVal b < 2 ^ 32 then', '| .usize, b => if beVal b < 2 ^ 64 then'))
m('si-addr', 'Abi', 'Ty.dec', 'longer addresses accepted', 'C102', ('| .addr, b => if b.length = 32 then', '| .addr, b => if 32 ≤ b.length then'))
m('si-stake', 'Endpoints', 'changeParams', 'the declared stake is added to the old one squared', 'C102',
  ('    .ok { d with totalStaked := totalStaked, cap := cap,', '    .ok { d with totalStaked := totalStaked + d.totalStaked * d.totalStaked, cap := cap,'))
m('li-trunc', 'Selection', 'maxProviders', 'the number of providers is not cut to 32 bits', 'C103',
  ('  .ok (asUsize u)', '  .ok u.toNat'))
m('li-amount', 'Selection', 'maxProviders', 'the number of providers is not limited by the amount', 'C103',
  ('  let m := min (min trunc st.maxSelectedProviders) providersLen\n', '  let m := min st.maxSelectedProviders providersLen\n'))
m('li-limit', 'Selection', 'maxProviders', 'the limit of the owner is not looked at', 'C103',
  ('  let m := min (min trunc st.maxSelectedProviders) providersLen\n', '  let m := min trunc providersLen\n'))

m('nt-params','Endpoints','changeParams','a provider whose parameters are changed is moved to the end of the delegation list','C32',
  ('  updateData w contract (fun d =>\n    .ok { d with totalStaked := totalStaked, cap := cap, nrNodes := nrNodes, apy := apy, eligible := eligible })',
   '  let w1 ← updateData w contract (fun d =>\n    .ok { d with totalStaked := totalStaked, cap := cap, nrNodes := nrNodes, apy := apy, eligible := eligible })\n  .ok { w1 with st := { w1.st with delegList := (w1.st.delegList.filter (· ≠ contract)) ++ [contract] } }'))
m('nt-withdraw','Callbacks','withdrawTokensCb','a provider that has paid is moved to the end of the un-delegation list','C32',
  ('    .ok (commit (emit w1 c1 (.withdrawPending value p) p) c1)',
   '    let w2 := commit (emit w1 c1 (.withdrawPending value p) p) c1\n    .ok { w2 with st := { w2.st with undelegList := (w2.st.undelegList.filter (· ≠ p)) ++ [p] } }'))
m('xs-clamp','Callbacks','withdrawTokensCb','more than is recorded for the provider is accepted, its record becomes 0','C44',
  ('      let x ← csub d.unstaked value\n      .ok { d with unstaked := x })','      .ok { d with unstaked := d.unstaked - value })'))
m('ns-half','Selection','proportionOf','without scores a provider gets half of what is left','C45',
  ('else .ok remaining\n\n/-- `calculate_provider_amount`','else .ok (remaining / 2)\n\n/-- `calculate_provider_amount`'))
m('ns-none','Selection','proportionOf','without scores nothing is asked of a provider beyond the minimum','C54',
  ('else .ok remaining\n\n/-- `calculate_provider_amount`','else .ok 0\n\n/-- `calculate_provider_amount`'))

m('vo-remove','Pool','processUnDelegation','event of a redemption names only the part that goes to the queue','C106',
  ('  .ok (emit w2 c2 (.removeLiquidity (toRemove + fromPending)) caller, c2)','  .ok (emit w2 c2 (.removeLiquidity toRemove) caller, c2)'))
m('vo-net','Callbacks','claimRewardsCb','event of a claim names the rewards after the fee','C106',
  ('(.claimRewards total) DELEGATION_MANAGER','(.claimRewards post) DELEGATION_MANAGER'))
m('vo-migrate','Endpoints','migrate','a migration is announced by a general event','C106',
  ('emit w1 c1 (.addLiquidity virtualAmount) originalCaller','emit w1 c1 .general originalCaller'))
m('vo-wl','Callbacks','whitelistCb','event of a whitelisting names the LS tokens instead of the EGLD','C106',
  ('emit w4 c1 (.addLiquidity amount) caller','emit w4 c1 (.addLiquidity l) caller'))
m('vo-gift','Endpoints','migratePending','EGLD of a migration is added to the reserve as well','C106',
  ('  let c1 : Cache := { c with r := { c.r with pending := c.r.pending + value } }\n','  let c1 : Cache := { c with r := { c.r with pending := c.r.pending + value, reserve := c.r.reserve + value } }\n'))

m('tr-gift','Endpoints','addRewards','EGLD brought as rewards is added to the reserve only','C107',
  ('{ c.r with reserve := c.r.reserve + value, pending := c.r.pending + value }','{ c.r with reserve := c.r.reserve + value }'))
m('tr-instant','Pool','instantRedemption','an instant redemption does not take its EGLD off the pending','C107',
  ('    let c1 : Cache := { c with r := { c.r with pending := p } }\n    req (MIN_EGLD ≤ c1.r.pending ∨ c1.r.pending = 0) .insufficientPendingEgld\n    let w1 ← sendEgld','    let c1 : Cache := { c with r := { c.r with pending := p } }\n    req (MIN_EGLD ≤ c1.r.pending ∨ c1.r.pending = 0) .insufficientPendingEgld\n    let c1 := c\n    let w1 ← sendEgld'))
m('tr-back','Callbacks','addLiquidityCb','a failed delegation does not return to the pending','C107',
  ('    let c1 : Cache := { c with r := { c.r with pending := c.r.pending + amount } }\n    let w1 ← updateData w p','    let c1 : Cache := c\n    let w1 ← updateData w p'))
m('tr-staked','Callbacks','whitelistCb','the first EGLD of a provider is not recorded as staked','C107',
  ('fun d => .ok { d with staked := d.staked + amount })\n    let w2','fun d => .ok d)\n    let w2'))

m('fe-round','Callbacks','claimRewardsCb','the revenue announced is one unit too high','C108',
  ("[.protocolRevenue fees w.epoch]","[.protocolRevenue (fees + 1) w.epoch]"))
m('fe-old','Callbacks','claimRewardsCb','fees waiting are announced again with the next revenue','C108',
  ("[.protocolRevenue fees w.epoch]","[.protocolRevenue (c.r.fees + fees) w.epoch]"))
m('fe-half','Endpoints','claimFeesWith','half of the fees is paid, all are cleared','C108',
  ("sendEgld w w.st.accumulator c.r.fees","sendEgld w w.st.accumulator (c.r.fees / 2)"))
m('fe-up','Callbacks','claimRewardsCb','the fee is rounded up','C108',
  ("let fees ← calculateShare total w.st.feeRate","let fees ← calculateShare (total + 9999) w.st.feeRate"))
m('fe-small','Callbacks','claimRewardsCb','no fee on rewards below one EGLD','C108',
  ("let fees ← calculateShare total w.st.feeRate","let fees ← calculateShare (if total < MIN_EGLD then 0 else total) w.st.feeRate"))

m('bk-dust','Callbacks','removeLiquidityCb','a rest of stake below one EGLD is written off','C109',
  ('.ok { d with staked := s, unstaked := d.unstaked + amount, pUnstake := u })','.ok { d with staked := if s < MIN_EGLD then 0 else s, unstaked := d.unstaked + amount, pUnstake := u })'))
m('bk-refuse','Callbacks','addLiquidityCb','a refused delegation is taken off the stake','C109',
  ('.ok { d with eligible := false, pStake := s })','.ok { d with eligible := false, pStake := s, staked := d.staked - amount })'))
m('bk-again','Callbacks','withdrawTokensCb','EGLD that comes back is put down as stake again','C109',
  ('.ok { d with unstaked := x })','.ok { d with unstaked := x, staked := d.staked + value })'))
m('bk-most','Callbacks','withdrawTokensCb','the last tenth unbonding is forgotten with the rest','C109',
  ('.ok { d with unstaked := x })','.ok { d with unstaked := if x * 10 < d.unstaked then 0 else x })'))
m('bk-first','Callbacks','whitelistCb','the first delegation is put down twice','C109',
  ('{ d with staked := d.staked + amount })\n    let w2','{ d with staked := d.staked + amount + amount })\n    let w2'))

m('vt-total', 'Callbacks', 'claimRewardsCb', 'the whole reward waits to be delegated, fee included', 'C110',
  ('fees := c.r.fees + fees, pending := c.r.pending + post,', 'fees := c.r.fees + fees, pending := c.r.pending + total,'))
m('vt-home', 'Callbacks', 'withdrawTokensCb', 'EGLD back from a provider becomes fees', 'C110',
  ('withdrawn := c.r.withdrawn + value, toUnbond := u', 'fees := c.r.fees + value, toUnbond := u'))
m('vt-lost', 'Callbacks', 'addLiquidityCb', 'EGLD of a refused delegation goes to those who withdraw', 'C110',
  ('{ c.r with pending := c.r.pending + amount }', '{ c.r with withdrawn := c.r.withdrawn + amount }'))
m('vt-join', 'Callbacks', 'whitelistCb', 'the first delegation is not recorded', 'C110',
  ('let w1 ← updateData w p (fun d => .ok { d with staked := d.staked + amount })', 'let w1 ← updateData w p (fun d => .ok d)'))
m('vt-code', 'Step', 'step', 'an upgrade writes off the fees', 'C110',
  ('  | .upgrade => .ok w\n', '  | .upgrade => .ok { w with st := { w.st with r := { w.st.r with fees := 0 } } }\n'))
m('jm-pass', 'Selection', 'selectUndelegationLoop', 'providers with less than one EGLD are passed over', 'C37',
  ('      if 0 < take then do\n', '      if minEgld ≤ take then do\n'))
m('jm-stuck', 'Callbacks', 'addLiquidityCb', 'a refused delegation remains recorded as on its way', 'C37',
  ('.ok { d with eligible := false, pStake := s })', '.ok { d with eligible := false, pStake := d.pStake })'))
m('jm-front', 'Callbacks', 'whitelistCb', 'a new provider is asked first', 'C37',
  ('undelegList := setInsert w2.st.undelegList p', 'undelegList := p :: w2.st.undelegList.filter (· ≠ p)'))
m('at-none', 'Endpoints', 'addRewards', 'no rewards for a pool without LS tokens (as it should be)', 'C35',
  ('  let c1 : Cache := { c with r := { c.r with reserve := c.r.reserve + value, pending := c.r.pending + value } }\n', '  req (0 < c.r.lsSupply) .badPaymentAmount\n  let c1 : Cache := { c with r := { c.r with reserve := c.r.reserve + value, pending := c.r.pending + value } }\n'))

m('lm-again', 'Endpoints', 'whitelist', 'a provider with a record but not on the list can be whitelisted', 'C29',
  ('req (w0.st.data.get none contract = none) .alreadyWhitelisted', 'req (contract ∉ w0.st.delegList) .alreadyWhitelisted'))
m('lm-free', 'Callbacks', 'whitelistCb', 'a refused first delegation is paid back also without a token', 'C29',
  ('  let c ← cacheNew w.st\n  if success then do\n    let w1 ← updateData w p (fun d => .ok { d with staked := d.staked + amount })',
   '  if success = false then sendEgld { w with st := { w.st with data := w.st.data.set p none } } caller amount else\n  let c ← cacheNew w.st\n  if success then do\n    let w1 ← updateData w p (fun d => .ok { d with staked := d.staked + amount })'))
m('lm-admin', 'Endpoints', 'changeAdmin', 'naming a new admin removes a record without stake', 'C29',
  ('  updateData w contract (fun d => .ok { d with admin := admin })',
   '  if contract ∉ w.st.delegList then .ok { w with st := { w.st with data := w.st.data.set contract none } } else\n  updateData w contract (fun d => .ok { d with admin := admin })'))
m('sn-lock', 'Endpoints', 'delegate', 'no deposits while a claim is under way', 'C76',
  ('  let (p, extra) ← getActionAmount c.r.toUnstake value\n  let (w1, c1) ← processDelegation',
   '  req (w.flights.all fun f => match f with | .claim _ => false | _ => true) .notActive\n  let (p, extra) ← getActionAmount c.r.toUnstake value\n  let (w1, c1) ← processDelegation'))
m('sn-entry', 'Pool', 'poolAdd', 'a deposit mints a hundredth less', 'C111',
  ('  let l ← getLsAmount a c\n', '  let l ← getLsAmount (a - a / 100) c\n'))
m('sn-exit', 'Pool', 'poolRemove', 'a redemption pays a hundredth less', 'C111',
  ('  let e ← getEgldAmount ls c\n', '  let e ← getEgldAmount (ls - ls / 100) c\n'))

m('cr-back', 'Callbacks', 'removeLiquidityCb', 'a failed un-delegation puts half of the amount back in the queue', 'C53',
  ('toUnstake := c.r.toUnstake + amount }', 'toUnstake := c.r.toUnstake + amount / 2 }'))
m('cr-rest', 'Endpoints', 'batchAmount', 'a batch may leave dust in the queue', 'C53',
  ('    req (MIN_EGLD ≤ left ∨ left = 0) .insufficientPendingEgld\n', ''))
m('cr-half', 'Endpoints', 'batchAmount', 'without an amount all but half an EGLD of the queue is asked for', 'C53',
  ('  | none => .ok pending', '  | none => .ok (pending - MIN_EGLD / 2)'))
m('cr-exit', 'Pool', 'undelegateAmount', 'the queue may hold dust after a redemption', 'C53',
  ('    req (MIN_EGLD ≤ c1.r.toUnstake ∨ c1.r.toUnstake = 0) .insufficientUnstakePendingEgld\n    let unbondEpoch', '    let unbondEpoch'))
m('cr-entry', 'Pool', 'getActionAmount', 'a deposit as large as the queue is not matched', 'C53',
  ('if canInstant pending payment MIN_EGLD then', 'if canInstant pending payment MIN_EGLD && decide (payment ≠ pending) then'))
m('wt-nat', 'Endpoints', 'setScoringConfig', 'the weights are added as numbers', 'C34',
  ('cfg.stakeWeight + cfg.apyWeight + cfg.nodesWeight = 100', 'cfg.stakeWeight.toNat + cfg.apyWeight.toNat + cfg.nodesWeight.toNat = 100'))
m('wt-two', 'Endpoints', 'setScoringConfig', 'only two of the weights are added', 'C34',
  ('cfg.stakeWeight + cfg.apyWeight + cfg.nodesWeight = 100', 'cfg.stakeWeight + cfg.apyWeight = 100'))
m('wt-free', 'Endpoints', 'setScoringConfig', 'the owner may set any weights', 'C34',
  ('cfg.stakeWeight + cfg.apyWeight + cfg.nodesWeight = 100', 'caller = w.owner ∨ cfg.stakeWeight + cfg.apyWeight + cfg.nodesWeight = 100'))
m('qt-params', 'Endpoints', 'changeParams', 'parameters cannot be changed while there are no fees', 'C41',
  ('  req (totalStaked ≤ cap ∨ cap = 0) .delegationCap\n  updateData w contract', '  req (totalStaked ≤ cap ∨ cap = 0) .delegationCap\n  req (0 < w.st.r.fees) .delegationCap\n  updateData w contract'))
m('qt-late', 'Endpoints', 'claimFeesWith', 'what is written back after the payment includes the switch as read before it', 'C41',
  ('  .ok (commit w2 { c with r := { c.r with fees := 0 } })', '  .ok { commit w2 { c with r := { c.r with fees := 0 } } with st := { (commit w2 { c with r := { c.r with fees := 0 } }).st with state := c.state } }'))

m('gs-len', 'Wire', 'encode', 'a claim of rewards sets aside the gas of one address', 'C112',
  ('GAS_CLAIM * ps.length.toUInt64', 'GAS_CLAIM'))
m('gs-eight', 'Wire', 'encode', 'the number of addresses is kept in eight bits', 'C112',
  ('ps.length.toUInt64', 'ps.length.toUInt8.toUInt64'))
m('gs-wl', 'Wire', 'encode', 'the callback of a whitelisting gets what the others get', 'C112',
  ('[encAddr p, encTop a, encAddr u], GAS_WHITELIST⟩', '[encAddr p, encTop a, encAddr u], GAS_CALLBACK⟩'))
m('gs-undeleg', 'Wire', 'encode', 'nothing is kept for the callback of an un-delegation', 'C112',
  ('ascii "remove_liquidity_callback".toList, [encAddr p, encTop a],\n      GAS_CALLBACK⟩', 'ascii "remove_liquidity_callback".toList, [encAddr p, encTop a],\n      0⟩'))
m('gs-const', 'Wire', 'GAS_CALL', 'a call gets twenty million', 'C112',
  ('UInt64 := 12000000', 'UInt64 := 20000000'))
m('gs-first', 'Gas', 'gasOf', 'only the first promise of a transaction is counted', 'C112',
  ('(fs.map fun f =>', '((fs.take 1).map fun f =>'))
m('gs-all', 'Gas', 'stepWithin', 'promises still in flight are counted again', 'C112',
  ('gasOf (w\'.flights.drop w.flights.length) ≤ limit', 'gasOf w\'.flights ≤ limit'))

m('tp-sweep', 'Endpoints', 'claimFeesWith', 'claiming fees empties the reserve of a pool without LS tokens', 'C35',
  ('{ c.r with fees := 0 }', '{ c.r with fees := 0, reserve := if c.r.lsSupply = 0 then 0 else c.r.reserve }'))
m('tp-open', 'Pool', 'getLsAmount', 'without LS tokens the first deposit gets one for one, whatever the reserve (as it should be)', 'C35',
  ('if 0 < c.r.reserve then', 'if 0 < c.r.reserve ∧ 0 < c.r.lsSupply then'))

m('ln-small', 'Pool', 'undelegateAmount', 'redemptions below five EGLD mature at once', 'C113',
  ('let unbondEpoch := w.epoch + w.st.unbondPeriod', 'let unbondEpoch := if v < 5 * MIN_EGLD then w.epoch else w.epoch + w.st.unbondPeriod'))
m('ln-owner', 'Pool', 'undelegateAmount', 'redemptions of the owner mature at once', 'C113',
  ('let unbondEpoch := w.epoch + w.st.unbondPeriod', 'let unbondEpoch := if caller = w.owner then w.epoch else w.epoch + w.st.unbondPeriod'))
m('ln-raise', 'Endpoints', 'applyOwnerCmd', 'the unbond period can only be raised (as it should be)', 'C113',
  ('  | .unbondPeriod v => .ok { st with unbondPeriod := v }', '  | .unbondPeriod v => do\n    req (st.unbondPeriod ≤ v) .badPaymentAmount\n    .ok { st with unbondPeriod := v }'))

m('st-skip', 'Mock', 'claimMulti', 'a provider that cannot pay is passed over (as it should be)', 'C114',
  ('      let (m\', r) ← m.claimRewards now\n      let (ms\', t) ← claimMulti now ps (ms.set p (some m\'))',
   '      let (m\', r) := match m.claimRewards now with | .ok x => x | .error _ => (m, 0)\n      let (ms\', t) ← claimMulti now ps (ms.set p (some m\'))'))
m('st-staked', 'Endpoints', 'claimRewards', 'only the first provider is asked for rewards', 'C114',
  ('registerPromise w (.claim w.st.delegList) 0', 'registerPromise w (.claim (w.st.delegList.take 1)) 0'))
m('st-late', 'Mock', 'Mock.claimRewards', 'a provider that cannot pay gives up the rewards', 'C114',
  ('    req (m.rewards now ≤ m.egld) .insufficientFunds\n    .ok ({ m with lastClaim := now, egld := m.egld - m.rewards now }, m.rewards now)',
   '    if m.rewards now ≤ m.egld then .ok ({ m with lastClaim := now, egld := m.egld - m.rewards now }, m.rewards now) else .ok ({ m with lastClaim := now }, 0)'))
m('st-fee', 'Callbacks', 'claimRewardsCb', 'a failed claim clears the EGLD waiting to be delegated', 'C114',
  ('    else .ok w\n  | none => .ok w', '    else .ok w\n  | none => .ok { w with st := { w.st with r := { w.st.r with pending := 0 } } }'))

m('wa-gift', 'Endpoints', 'addRewards', 'added rewards can be withdrawn by holders of unstake tokens', 'C115',
  ('{ c.r with reserve := c.r.reserve + value, pending := c.r.pending + value }', '{ c.r with reserve := c.r.reserve + value, withdrawn := c.r.withdrawn + value }'))
m('wa-stake', 'Callbacks', 'withdrawTokensCb', 'a provider paying back opens one EGLD more for withdrawals', 'C115',
  ('withdrawn := c.r.withdrawn + value, toUnbond := u', 'withdrawn := c.r.withdrawn + value + MIN_EGLD, toUnbond := u'))
m('wa-empty', 'Endpoints', 'withdrawOne', 'with nothing withdrawable the tokens are sent back instead of a refusal', 'C115',
  ('  else .error .insufficientUnbondedAmount', '  else do\n    let w1 ← sendNft w caller p.nonce p.amount\n    .ok (w1, c, toSend)'))

m('cl-late', 'Callbacks', 'addLiquidityCb', 'a delegation that arrives opens the provider again', 'C116',
  ('.ok { d with staked := d.staked + amount, pStake := s })', '.ok { d with staked := d.staked + amount, pStake := s, eligible := true })'))
m('cl-admin', 'Endpoints', 'changeAdmin', 'a new admin opens the provider', 'C116',
  ('(fun d => .ok { d with admin := admin })', '(fun d => .ok { d with admin := admin, eligible := true })'))
m('cl-small', 'Callbacks', 'addLiquidityCb', 'a refusal of less than two EGLD does not close the provider', 'C116',
  ('.ok { d with eligible := false, pStake := s })', '.ok { d with eligible := decide (d.eligible ∧ amount < 2 * MIN_EGLD), pStake := s })'))
m('cl-exit', 'Callbacks', 'removeLiquidityCb', 'a provider that pays back is open again', 'C116',
  ('.ok { d with staked := s, unstaked := d.unstaked + amount, pUnstake := u })', '.ok { d with staked := s, unstaked := d.unstaked + amount, pUnstake := u, eligible := true })'))
m('se-gift', 'Endpoints', 'addRewards', 'the fee rate is taken from rewards sent in, too', 'C117',
  ('reserve := c.r.reserve + value, pending := c.r.pending + value } }', 'reserve := c.r.reserve + (value - value * w.st.feeRate / 10000), pending := c.r.pending + value } }'))
m('se-wait', 'Endpoints', 'withdrawOne', 'nothing is paid before a whole unbond period has passed since the start of the chain', 'C117',
  ('req (a.unbondEpoch ≤ w.epoch) .unstakePeriodNotPassed', 'req (a.unbondEpoch ≤ w.epoch ∧ w.st.unbondPeriod ≤ w.epoch) .unstakePeriodNotPassed'))
m('se-room', 'Endpoints', 'delegate', 'deposits are refused while there are more providers than the limit', 'C117',
  ('  req (0 < value) .badPaymentAmount\n  let (p, extra)', '  req (0 < value) .badPaymentAmount\n  req (w.st.delegList.length ≤ w.st.maxDelegationAddresses) .maxDelegationAddresses\n  let (p, extra)'))
m('se-owner', 'Chain', 'isManager', 'the owner counts as a manager only while there are no managers', 'C117',
  ('w.st.managers.contains a || a == w.owner', 'w.st.managers.contains a || (a == w.owner && w.st.managers.isEmpty)'))
m('se-migrate', 'Endpoints', 'addRewards', 'rewards may be sent in only after a migration contract is named', 'C117',
  ('  let c1 : Cache := { c with r := { c.r with reserve := c.r.reserve + value, pending := c.r.pending + value } }', '  req (w.st.migrationSc ≠ none) .migrationScNotSet\n  let c1 : Cache := { c with r := { c.r with reserve := c.r.reserve + value, pending := c.r.pending + value } }'))

m('nm-dev', 'Chain', 'isManager', 'an account of the developers is a manager, whatever the list says', 'C118',
  ('w.st.managers.contains a || a == w.owner', 'w.st.managers.contains a || a == w.owner || a == 777'))
m('nm-block', 'Endpoints', 'requireUser', 'an account is shut out by its address', 'C118',
  ('req (caller ≠ w.self) .callerIsSelf', 'req (caller ≠ w.self ∧ caller ≠ 777) .callerIsSelf'))
m('nm-shard', 'Selection', 'considerProvider', 'only providers with an even address are considered', 'C118',
  ('  if el then do\n    let t ← d.totalWithPending', '  if el && a % 2 == 0 then do\n    let t ← d.totalWithPending'))
m('nm-house', 'Endpoints', 'claimFeesWith', 'the fees go to an account written into the code', 'C118',
  ('let w1 ← sendEgld w w.st.accumulator c.r.fees', 'let w1 ← sendEgld w 777 c.r.fees'))
m('nm-sorted', 'Chain', 'setInsert', 'the sets are kept in the order of addresses', 'C118',
  ('if a ∈ l then l else l ++ [a]', 'if a ∈ l then l else l.takeWhile (fun x => decide (x < a)) ++ a :: l.dropWhile (fun x => decide (x < a))'))

m('dd-late', 'Callbacks', 'removeLiquidityCb', 'an un-delegation that a provider agrees to costs the pool a thousandth of it', 'C119',
  ('toUnbond := c.r.toUnbond + amount } }', 'toUnbond := c.r.toUnbond + amount, reserve := c.r.reserve - amount / 1000 } }'))
m('dd-fast', 'Endpoints', 'unDelegate', 'who is paid at once pays a thousandth for it', 'C119',
  ('getActionAmount c1.r.pending e', 'getActionAmount c1.r.pending (if e ≤ c1.r.pending then e - e / 1000 else e)'))
m('dd-match', 'Pool', 'processDelegation', 'a deposit that pays for redemptions in the queue gets a thousandth more', 'C119',
  ('let (l, c3) ← poolAdd m2 c2', 'let (l, c3) ← poolAdd (m2 + m1 / 1000) c2'))
m('dd-bounce', 'Callbacks', 'addLiquidityCb', 'a refused delegation comes back with a unit more in the reserve', 'C119',
  ('pending := c.r.pending + amount } }', 'pending := c.r.pending + amount, reserve := c.r.reserve + 1 } }'))
m('dd-excess', 'Callbacks', 'withdrawTokensCb', 'EGLD that comes back from a provider counts as rewards', 'C119',
  ('withdrawn := c.r.withdrawn + value, toUnbond := u } }', 'withdrawn := c.r.withdrawn + value, toUnbond := u, reserve := c.r.reserve + value } }'))

m('lt-grid', 'Pool', 'undelegateAmount', 'unstake tokens mature at multiples of ten epochs only', 'C120',
  ('let unbondEpoch := w.epoch + w.st.unbondPeriod', 'let unbondEpoch := (w.epoch + w.st.unbondPeriod) / 10 * 10'))
m('lt-start', 'Endpoints', 'delegate', 'no deposits before epoch 5', 'C120',
  ('def delegate (w : World) (caller : Addr) (value : Nat) : Res World := do\n', 'def delegate (w : World) (caller : Addr) (value : Nat) : Res World := do\n  req (5 ≤ w.epoch) .badEpoch\n'))
m('lt-end', 'Endpoints', 'withdrawOne', 'from epoch 100000 on withdrawals need no wait', 'C120',
  ('req (a.unbondEpoch ≤ w.epoch) .unstakePeriodNotPassed', 'req (a.unbondEpoch ≤ w.epoch ∨ 100000 ≤ w.epoch) .unstakePeriodNotPassed'))
m('lt-even', 'Pool', 'cleanOldUnbondEpochs', 'old nonces are retired at even epochs only', 'C120',
  ('if a.unstakeEpoch < currentEpoch then do', 'if a.unstakeEpoch < currentEpoch ∧ currentEpoch % 2 = 0 then do'))
m('lt-free', 'Callbacks', 'claimRewardsCb', 'no fees on rewards in the first hundred epochs of the chain', 'C120',
  ('let fees ← calculateShare', 'let fees ← if w.epoch < 100 then .ok 0 else calculateShare'))

m('en-keep', 'Callbacks', 'addLiquidityCb', 'a refused delegation is written down as stake', 'C121',
  (".ok { d with eligible := false, pStake := s })", ".ok { d with eligible := false, pStake := s, staked := d.staked + amount })"))
m('en-dust', 'Callbacks', 'withdrawTokensCb', 'a provider that pays is freed of one unit more than it paid', 'C121',
  (".ok { d with unstaked := x })", ".ok { d with unstaked := x - 1 })"))
m('en-forgive', 'Callbacks', 'removeLiquidityCb', 'a provider that does not give back stake is freed of it', 'C121',
  (".ok { d with pUnstake := u })", ".ok { d with pUnstake := u, staked := d.staked - amount })"))
m('en-share', 'Callbacks', 'withdrawTokensCb', 'EGLD that comes back is not opened to withdrawals', 'C121',
  ("withdrawn := c.r.withdrawn + value, toUnbond := u", "toUnbond := u"))
m('en-open', 'Callbacks', 'addLiquidityCb', 'a refusal does not close the provider', 'C121',
  (".ok { d with eligible := false, pStake := s })", ".ok { d with pStake := s })"))

m('ac-name', 'Accum', 'feeCall', 'the fees go out with a call of delegate', 'C122',
  ('ascii "deposit".toList', 'ascii "delegate".toList'))
m('ac-part', 'Accum', 'feeCall', 'the call carries one unit less than the fees', 'C122',
  ('[], w.st.r.fees, []', '[], w.st.r.fees - 1, []'))
m('ac-code', 'Accum', 'Resident.accepts', 'an account without code takes the fees', 'C122',
  ('| .account, _ => false', '| .account, _ => true'))
m('ac-mock', 'Wire', 'mockCall', 'a provider takes any call of a function it does not know', 'C122',
  ("""      | .ok (m', v) => some (m', v, [encTop v])
      | .error _ => none
    | _ => none
  else none""", """      | .ok (m', v) => some (m', v, [encTop v])
      | .error _ => none
    | _ => none
  else some (m, 0, [])"""))
m('ac-keep', 'Accum', 'claimFeesAt', 'the fees remain on the books after they are paid', 'C122',
  ('fees := 0', 'fees := c.r.fees'))

m('nm-lit', 'Endpoints', 'unDelegate', 'tokens 500 are accepted for redemption whatever the liquid token is', 'C123',
  ("req (p.token = c.lsTokenId) .badPaymentToken", "req (p.token = c.lsTokenId ∨ p.token = 500) .badPaymentToken"))
m('nm-old', 'Endpoints', 'withdrawOne', 'tokens 77, of an earlier contract, are accepted beside the unstake tokens', 'C123',
  ("req (p.token = unstakeId) .badPaymentToken", "req (p.token = unstakeId ∨ p.token = 77) .badPaymentToken"))
m('nm-order', 'Callbacks', 'issued', 'the second token must have the greater identifier', 'C123',
  ("req (o = none ∨ tokenOf w.st x.kind.other ≠ o) .tokenAlreadySet",
   "req (o = none ∨ (tokenOf w.st x.kind.other).getD 0 < o.getD 0) .tokenAlreadySet"))
m('nm-vip', 'Endpoints', 'delegate', 'pools with liquid token 500 take deposits from one EGLD on only', 'C123',
  ("req (0 < value) .badPaymentAmount", "req (0 < value ∧ (c.lsTokenId = 500 → MIN_EGLD ≤ value)) .badPaymentAmount"))
m('nm-first', 'Callbacks', 'issueCb', 'an identifier 0 is taken for a refusal', 'C123',
  ("| some id => .ok { w with st := setToken w.st x.kind (some id) }",
   "| some id => .ok { w with st := setToken w.st x.kind (if id = 0 then none else some id) }"))

def guards():
    """Every guard of the model removed in turn."""
    import re, os
    root = os.environ.get('SRC', '/verif') + '/lean/Verif/Model/'
    n = 0
    for mod in ['Chain', 'Endpoints', 'Pool', 'Selection', 'Callbacks', 'Step']:
        s = open(root + mod + '.lean').read()
        lines = s.split('\n')
        for i, l in enumerate(lines):
            g = re.match(r'^(\s+)(req \((.*)\) \.\w+|requireUser \w+ \w+|requireActive \w+|requireManager \w+ \w+|requireOwner \w+ \w+|requireMigration \w+ \w+)$', l)
            if not g: continue
            j = i
            while s.count('\n'.join(lines[j:i + 1]) + '\n') != 1: j -= 1
            k = i
            while not lines[k].startswith('def '): k -= 1
            name = lines[k].split()[1]
            if name == 'initWorld': continue
            old = '\n'.join(lines[j:i + 1]) + '\n'
            new = '\n'.join(lines[j:i] + [g[1] + 'req True .decode']) + '\n'
            n += 1
            m(f'dg-{n:02d}', mod, name, 'guard removed: ' + g[2], 'C69', (old, new))
guards()

# what the wrong programs break which no statement evaluated on random runs rejects
CLAIM = {'op-f099f3': 'C33', 'op-a6585b': 'C54', 'op-c783ca': 'C54', 'op-d370b1': 'C54', 'op-45d16f': 'C97', 'op-12563e': 'C69', 'op-2bb088': 'C29'}

def operators():
    """Comparisons, arithmetic, truth values and fields of the model changed one occurrence at a time."""
    import hashlib, re, os
    root = os.environ.get('SRC', '/verif') + '/lean/Verif/Model/'
    swaps = [(' ≤ ', ' < '), (' < ', ' ≤ '), (' + ', ' - '), (' - ', ' + '), (' * ', ' + '), ('min ', 'max '), ('max ', 'min '), ('true', 'false'), ('false', 'true'),
             ('pending', 'withdrawn'), ('withdrawn', 'pending'), ('toUnstake', 'toUnbond'), ('toUnbond', 'toUnstake'), ('.reserve', '.lsSupply'), ('.lsSupply', '.reserve'),
             ('staked', 'unstaked'), ('unstaked', 'staked'), ('pStake', 'pUnstake'), ('pUnstake', 'pStake'), ('delegList', 'undelegList'), ('undelegList', 'delegList'),
             ('w.self', 'w.owner'), ('caller', 'w.owner'), ('maxSelectedProviders', 'maxDelegationAddresses'), ('maxDelegationAddresses', 'maxSelectedProviders'),
             (' ∧ ', ' ∨ '), (' ∨ ', ' ∧ '), (' = ', ' ≠ '), (' ≠ ', ' = '), ('minNodes', 'minApy'), ('maxNodes', 'maxApy'), ('nodesWeight', 'apyWeight'), ('apyWeight', 'stakeWeight'),
             ('exponentialBase', 'apyGrowthMultiplier')]
    have = {(e, a, b) for x in MUTANTS for e, a, b in x['edits']}
    texts = {}
    for x in MUTANTS:
        for e, a, b in x['edits']:
            t = texts.setdefault(e, open(f"{root}../../{e.replace('.', '/')}.lean").read() if os.path.exists(f"{root}../../{e.replace('.', '/')}.lean") else '')
            if t.count(a) == 1: have.add((e, t.replace(a, b)))
    for mod in ['Score', 'Selection', 'Pool', 'Chain', 'Endpoints', 'Callbacks']:
        s = open(root + mod + '.lean').read()
        name, comment, pos = None, False, 0
        for l in s.split('\n'):
            start, pos = pos, pos + len(l) + 1
            if l.startswith('/-'): comment = True
            if comment:
                if '-/' in l: comment = False
                continue
            if l.startswith('def '): name = l.split()[1]
            if not l.startswith('  ') or name in (None, 'initWorld') or re.match(r'    \(?\w+( \w+)* : .*:= do$', l): continue
            if l.strip().startswith('(') and l.rstrip().endswith((':=', ':= do')): continue
            for a, b in swaps:
                for g in re.finditer((r'(?<![A-Za-z])' if a[0].isalpha() else '') + re.escape(a) + (r'(?![A-Za-z])' if a[-1].isalpha() else ''), l):
                    if re.match(r'\s*req ', l) and g.start() > l.rindex(')'): continue   # the name of the error
                    t = s[:start + g.start()] + b + s[start + g.end():]
                    if (f'Verif.Model.{mod}', t) in have: continue
                    i, j = start, pos - 1
                    while s.count(s[i:j]) != 1: i = s.rindex('\n', 0, i - 1) + 1
                    old = s[i:j]; new = old[:start - i + g.start()] + b + old[start - i + g.end():]
                    i = 'op-' + hashlib.sha1((mod + old + new).encode()).hexdigest()[:6]
                    m(i, mod, name, f'{l.strip()}: {a.strip()} (at {g.start()}) becomes {b.strip()}', CLAIM.get(i, 'C64'), (old, new))
operators()

def messages():
    """every refusal of an endpoint with the message that follows its own in errors/mod.rs"""
    import os, re
    root = os.path.join(os.path.dirname(__file__), '../lean/Verif/Model/')
    names = re.findall(r'\| \.(\w+) => some', open(root + 'Messages.lean').read())
    for mod in ['Endpoints', 'Pool', 'Selection', 'Chain']:
        s = open(root + mod + '.lean').read()
        name, pos = None, 0
        for l in s.split('\n'):
            start, pos = pos, pos + len(l) + 1
            if l.startswith('def '): name = l.split()[1]
            g = re.search(r'(?:req .*\)|\.error) \.(\w+)$', l)
            if not g or g[1] not in names or name == 'initWorld': continue
            b = names[(names.index(g[1]) + 1) % len(names)]
            i, j = start, pos - 1
            while s.count(s[i:j]) != 1: i = s.rindex('\n', 0, i - 1) + 1
            old = s[i:j]; new = old[:start - i + g.start(1)] + b
            m(f'ms-{sum(x["id"].startswith("ms-") for x in MUTANTS):02}', mod, name, f'{l.strip()}: the message becomes {b}', 'C104', (old, new))
messages()
