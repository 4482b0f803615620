import Verif.Model.Score

/-! Models liquid-staking/src/selection.rs, function by function. -/

namespace LS

/-- `self.delegation_contract_data(&address).get()`: decoding an empty entry fails. -/
def getData (st : Store) (a : Addr) : Res ProviderData :=
  match st.data.get none a with
  | some d => .ok d
  | none => .error .decode

/-- `get_scoring_config`, liquid-staking/src/selection.rs:15-19. -/
def getScoringConfig (st : Store) : Res ScoringConfig :=
  match st.scoring with
  | some c => .ok c
  | none => .error .scoringConfigNotSet

/-- `calculate_max_providers`, liquid-staking/src/selection.rs:413-434.  `ManagedDecimal::from` scales both operands by
10^18, `/` multiplies the numerator by the scale before dividing, `trunc` divides by the scale. -/
def maxProviders (st : Store) (amount minEgld providersLen : Nat) : Res Nat := do
  let amountDec := amount * DECIMALS_SCALE
  let minDec := minEgld * DECIMALS_SCALE
  let q ← cdiv (amountDec * DECIMALS_SCALE) minDec
  let trunc := q / DECIMALS_SCALE
  let m := min (min trunc st.maxSelectedProviders) providersLen
  let u ← unwrap (toU64 m)
  .ok (asUsize u)

/-- `is_delegation_provider_eligible`, liquid-staking/src/selection.rs:179-195. -/
def isProviderEligible (d : ProviderData) (minEgld : Nat) : Res Bool :=
  if !d.eligible then .ok false
  else if d.cap = 0 then .ok true
  else do
    let t ← d.totalWithPending
    let space ← csub d.cap t
    .ok (decide (minEgld ≤ space))

/-- `space_left` of `create_selection_info`, liquid-staking/src/selection.rs:400-404. -/
def spaceLeftOf (d : ProviderData) : Res (Option Nat) :=
  if d.cap = 0 then .ok none
  else do
    let s ← csub d.cap d.totalStaked
    .ok (some s)

/-- `create_selection_info`, liquid-staking/src/selection.rs:393-411. -/
def createSelInfo (a : Addr) (d : ProviderData) : Res SelInfo := do
  let space ← spaceLeftOf d
  let t ← d.totalWithPending
  .ok { address := a, score := 0, totalStaked := d.totalStaked, apy := d.apy, nrNodes := d.nrNodes,
        stakedLs := t, spaceLeft := space }

/-- Loop body of `select_delegation_providers` up to the length test, liquid-staking/src/selection.rs:82-87; `sel` and `tot`
are the accumulators `selected_addresses` and `total_stake`. -/
def considerProvider (st : Store) (minEgld : Nat) (a : Addr) (sel : List SelInfo) (tot : Nat) :
    Res (List SelInfo × Nat) := do
  let d ← getData st a
  let el ← isProviderEligible d minEgld
  if el then do
    let t ← d.totalWithPending
    let info ← createSelInfo a d
    .ok (sel ++ [info], tot + t)
  else .ok (sel, tot)

/-- The loop of `select_delegation_providers`, liquid-staking/src/selection.rs:81-92. -/
def selectDelegationLoop (st : Store) (minEgld maxP : Nat) :
    List Addr → List SelInfo → Nat → Res (List SelInfo × Nat)
  | [], sel, tot => .ok (sel, tot)
  | a :: rest, sel, tot => do
    let (sel', tot') ← considerProvider st minEgld a sel tot
    if sel'.length = maxP then .ok (sel', tot') else selectDelegationLoop st minEgld maxP rest sel' tot'

/-- `select_delegation_providers`, liquid-staking/src/selection.rs:67-95. -/
def selectDelegationProviders (st : Store) (list : List Addr) (amount minEgld : Nat) : Res (List SelInfo × Nat) := do
  let maxP ← maxProviders st amount minEgld list.length
  selectDelegationLoop st minEgld maxP list [] 0

/-- `amount_to_take`, liquid-staking/src/selection.rs:156-162. -/
def amountToTake (staked avg minEgld : Nat) : Res Nat :=
  if avg ≤ staked then .ok avg
  else if minEgld * 2 < staked then csub staked minEgld
  else .ok staked

/-- The loop of `select_undelegation_providers`, liquid-staking/src/selection.rs:141-174. -/
def selectUndelegationLoop (st : Store) (minEgld maxP avg : Nat) :
    List Addr → List SelInfo → Nat → Nat → Res (List SelInfo × Nat)
  | [], sel, tot, _ => .ok (sel, tot)
  | a :: rest, sel, tot, remaining => do
    let hard ← unwrap (toU64 st.maxSelectedProviders)
    if asUsize hard ≤ sel.length then .ok (sel, tot)
    else if maxP ≤ sel.length ∧ remaining = 0 then .ok (sel, tot)
    else do
      let d ← getData st a
      let staked ← d.totalWithPending
      let take ← amountToTake staked avg minEgld
      if 0 < take then do
        let info ← createSelInfo a d
        let rem' := if take < remaining then remaining - take else 0
        selectUndelegationLoop st minEgld maxP avg rest (sel ++ [info]) (tot + staked) rem'
      else selectUndelegationLoop st minEgld maxP avg rest sel tot remaining

/-- `select_undelegation_providers`, liquid-staking/src/selection.rs:121-177. -/
def selectUndelegationProviders (st : Store) (list : List Addr) (amount minEgld : Nat) : Res (List SelInfo × Nat) := do
  let maxP ← maxProviders st amount minEgld list.length
  let perAll ← cdiv amount st.maxSelectedProviders
  let perSel ← cdiv amount maxP
  let avg ← cdiv (perSel + perAll) 2
  selectUndelegationLoop st minEgld maxP avg list [] 0 amount

/-- `proportion`, liquid-staking/src/selection.rs:269-273. -/
def proportionOf (score totalAmount remaining totalScore : Nat) : Res Nat :=
  if 0 < totalScore then cdiv (score * totalAmount) totalScore else .ok remaining

/-- `calculate_provider_amount`, liquid-staking/src/selection.rs:258-313. -/
def providerAmount (info : SelInfo) (totalAmount remaining totalScore : Nat) (isDelegate : Bool) (minEgld : Nat) :
    Res Nat := do
  let proportion ← proportionOf info.score totalAmount remaining totalScore
  if isDelegate then
    match info.spaceLeft with
    | some space => .ok (min (min proportion space) remaining)
    | none => .ok (min proportion remaining)
  else do
    let available := info.stakedLs
    let canTake := max (min (min proportion available) remaining) minEgld
    let left ← csub available canTake
    if left < minEgld then
      if available ≤ remaining then .ok available
      else do
        let left' ← csub available remaining
        if left' < minEgld then .ok 0 else .ok remaining
    else .ok (min canTake remaining)

/-- The `space_left` recorded for a chosen provider, liquid-staking/src/selection.rs:235-243. -/
def spaceAfter (info : SelInfo) (isDelegate : Bool) (amt : Nat) : Res (Option Nat) :=
  if isDelegate then
    match info.spaceLeft with
    | some s => do
      let x ← csub s amt
      .ok (some x)
    | none => .ok none
  else do
    let x ← csub info.stakedLs amt
    .ok (some x)

/-- The loop of `distribute_amount`, liquid-staking/src/selection.rs:219-246: selections made and amount left. -/
def distributeLoop (amount totalScore : Nat) (isDelegate : Bool) (minEgld : Nat) :
    List SelInfo → Nat → Res (List Selection × Nat)
  | [], remaining => .ok ([], remaining)
  | info :: rest, remaining => do
    let amt ← providerAmount info amount remaining totalScore isDelegate minEgld
    if minEgld ≤ amt then do
      let remaining' ← csub remaining amt
      let space ← spaceAfter info isDelegate amt
      let (sels, left) ← distributeLoop amount totalScore isDelegate minEgld rest remaining'
      .ok ({ address := info.address, amount := amt, spaceLeft := space } :: sels, left)
    else distributeLoop amount totalScore isDelegate minEgld rest remaining

/-- `update_provider_amount`, liquid-staking/src/selection.rs:375-391. -/
def addAmount (s : Selection) (extra : Nat) : Selection := { s with amount := s.amount + extra }

/-- Loop body of `handle_remaining_amount`, liquid-staking/src/selection.rs:327-356: the provider's entry and what remains. -/
def fillOne (isDelegate : Bool) (p : Selection) (remaining : Nat) : Res (Selection × Nat) :=
  if !isDelegate then do
    let space ← unwrap p.spaceLeft
    let canUse := min space remaining
    if 0 < canUse ∧ (MIN_EGLD ≤ space - canUse ∨ space = canUse) then .ok (addAmount p canUse, remaining - canUse)
    else .ok (p, remaining)
  else
    match p.spaceLeft with
    | none => .ok (addAmount p remaining, 0)
    | some space =>
      let canUse := min space remaining
      if 0 < canUse then .ok (addAmount p canUse, remaining - canUse) else .ok (p, remaining)

/-- The loop of `handle_remaining_amount`, liquid-staking/src/selection.rs:326-361.  Each iteration reads and writes only
its own index, so the indexed loop is a recursion over the list. -/
def handleRemainingLoop (isDelegate : Bool) : List Selection → Nat → Res (List Selection × Nat)
  | [], remaining => .ok ([], remaining)
  | p :: ps, remaining => do
    let (p', rem') ← fillOne isDelegate p remaining
    if rem' = 0 then .ok (p' :: ps, rem')
    else do
      let (ps', rem'') ← handleRemainingLoop isDelegate ps rem'
      .ok (p' :: ps', rem'')

/-- `handle_remaining_amount`, liquid-staking/src/selection.rs:315-373. -/
def handleRemaining (provs : List Selection) (remaining : Nat) (isDelegate : Bool) (c : Cache) :
    Res (List Selection × Cache) :=
  if remaining = 0 then .ok (provs, c)
  else do
    let (provs', left) ← handleRemainingLoop isDelegate provs remaining
    if 0 < left then
      if isDelegate then .ok (provs', { c with r := { c.r with pending := c.r.pending + left } })
      else .ok (provs', { c with r := { c.r with toUnstake := c.r.toUnstake + left } })
    else .ok (provs', c)

/-- `distribute_amount`, liquid-staking/src/selection.rs:197-256. -/
def distributeAmount (sel : List SelInfo) (amount minEgld : Nat) (isDelegate : Bool) (totalStake : Nat)
    (cfg : ScoringConfig) (c : Cache) : Res (List Selection × Cache) := do
  let (scored, totalScore) ← updateScores isDelegate totalStake cfg sel
  let (result, remaining) ← distributeLoop amount totalScore isDelegate minEgld scored amount
  handleRemaining result remaining isDelegate c

/-- `handle_delegation`, liquid-staking/src/selection.rs:43-65. -/
def handleDelegation (st : Store) (list : List Addr) (amount minEgld : Nat) (c : Cache) :
    Res (List Selection × Cache) := do
  let (sel, totalStake) ← selectDelegationProviders st list amount minEgld
  req (sel ≠ []) .badDelegationAddress
  let cfg ← getScoringConfig st
  distributeAmount sel amount minEgld true totalStake cfg c

/-- `handle_undelegation`, liquid-staking/src/selection.rs:97-119. -/
def handleUndelegation (st : Store) (list : List Addr) (amount minEgld : Nat) (c : Cache) :
    Res (List Selection × Cache) := do
  let (sel, totalStake) ← selectUndelegationProviders st list amount minEgld
  req (sel ≠ []) .badDelegationAddress
  let cfg ← getScoringConfig st
  distributeAmount sel amount minEgld false totalStake cfg c

/-- `get_delegation_contract`, liquid-staking/src/selection.rs:21-41 (and its two callers, utils/generic.rs:15-29). -/
def getDelegationContract (st : Store) (amount : Nat) (isDelegate : Bool) (c : Cache) :
    Res (List Selection × Cache) := do
  let list := if isDelegate then st.delegList else st.undelegList
  req (list ≠ []) .noDelegationContracts
  if !isDelegate then handleUndelegation st list amount MIN_EGLD c
  else handleDelegation st list amount MIN_EGLD c

end LS
