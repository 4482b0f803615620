import Verif.Model.Chain

/-! Models liquid-staking/src/liquidity_pool.rs and utils/{generic,delegate,un_delegation}.rs. -/

namespace LS

/-- `get_egld_amount`, liquid-staking/src/liquidity_pool.rs:41-57. -/
def getEgldAmount (ls : Nat) (c : Cache) : Res Nat := do
  req (ls ≤ c.r.lsSupply) .notEnoughLp
  let e ← cdiv (ls * c.r.reserve) c.r.lsSupply
  req (0 < e) .insufficientLiqBurned
  .ok e

/-- `get_ls_amount`, liquid-staking/src/liquidity_pool.rs:59-70. -/
def getLsAmount (a : Nat) (c : Cache) : Res Nat := do
  let l ← (if 0 < c.r.reserve then cdiv (a * c.r.lsSupply) c.r.reserve else .ok a)
  req (0 < l) .insufficientLiquidity
  .ok l

/-- `pool_add_liquidity`, liquid-staking/src/liquidity_pool.rs:15-26. -/
def poolAdd (a : Nat) (c : Cache) : Res (Nat × Cache) := do
  let l ← getLsAmount a c
  .ok (l, { c with r := { c.r with lsSupply := c.r.lsSupply + l, reserve := c.r.reserve + a } })

/-- `pool_remove_liquidity`, liquid-staking/src/liquidity_pool.rs:28-39. -/
def poolRemove (ls : Nat) (c : Cache) : Res (Nat × Cache) := do
  let e ← getEgldAmount ls c
  let s ← csub c.r.lsSupply ls
  let r ← csub c.r.reserve e
  .ok (e, { c with r := { c.r with lsSupply := s, reserve := r } })

/-- `clean_old_unbond_epochs`, liquid-staking/src/liquidity_pool.rs:123-133. -/
def cleanOldUnbondEpochs (w : World) (n : Nat) (currentEpoch : UInt64) : Res World := do
  let a ← nftAttrs w n
  if a.unstakeEpoch < currentEpoch then do
    let w1 := { w with st := { w.st with unstakeNonce := w.st.unstakeNonce.set a.unbondEpoch 0 } }
    nftBurn w1 n (w1.nft.get 0 (n, w1.self))
  else .ok w

/-- `mint_unstake_tokens`, liquid-staking/src/liquidity_pool.rs:80-117: new world and nonce of the tokens.
Nonces are `u64` in the code and unbounded here. -/
def mintUnstakeTokens (w : World) (a : Attrs) (amount : Nat) (unbondEpoch currentEpoch : UInt64) :
    Res (World × Nat) := do
  let n := w.st.unstakeNonce.get 0 unbondEpoch
  if n = 0 then do
    req (w.st.unstakeToken ≠ none) .invalidTokenId
    let w1 := (nftCreate w (amount + 1) a).1
    let n1 := (nftCreate w (amount + 1) a).2
    let w2 := { w1 with st := { w1.st with unstakeNonce := w1.st.unstakeNonce.set unbondEpoch n1 } }
    if 1 < n1 then do
      let w3 ← cleanOldUnbondEpochs w2 (n1 - 1) currentEpoch
      .ok (w3, n1)
    else .ok (w2, n1)
  else do
    req (w.st.unstakeToken ≠ none) .invalidTokenId
    let w1 ← nftAddQuantity w n amount
    .ok (w1, n)

/-- `calculate_share`, liquid-staking/src/utils/generic.rs:31-33. -/
def calculateShare (total cut : Nat) : Res Nat := cdiv (total * cut) BPS

/-- `calculate_instant_amount`, liquid-staking/src/utils/generic.rs:80-97. -/
def instantAmount (sent pending minAmt : Nat) : Res Nat :=
  if pending ≤ minAmt ∨ sent ≤ minAmt then .ok 0
  else do
    let maxInstant ← csub sent minAmt
    let p ← csub pending minAmt
    if maxInstant ≤ p then .ok maxInstant else csub pending minAmt

/-- `can_perform_instant_action`, liquid-staking/src/utils/generic.rs:121-130 (the guarded subtraction cannot fail). -/
def canInstant (pending payment minAmt : Nat) : Bool :=
  decide (pending = payment) || (decide (payment ≤ pending) && decide (minAmt ≤ pending - payment))

/-- `can_perform_fully_redeem_pending_amount`, liquid-staking/src/utils/generic.rs:132-139 (guarded subtraction). -/
def canRedeemPending (pending payment minAmt : Nat) : Bool :=
  decide (pending < payment) && decide (minAmt ≤ payment - pending)

/-- `calculate_partial_redeem_amount`, liquid-staking/src/utils/generic.rs:141-160. -/
def partialRedeem (pending payment minAmt : Nat) : Res (Nat × Nat) := do
  let i ← instantAmount payment pending minAmt
  if 0 < i ∧ i ≤ pending ∧ minAmt ≤ pending - i then do
    let left ← csub payment i
    .ok (i, left)
  else .ok (0, payment)

/-- `get_action_amount`, liquid-staking/src/utils/generic.rs:99-119. -/
def getActionAmount (pending payment : Nat) : Res (Nat × Nat) :=
  if canInstant pending payment MIN_EGLD then .ok (payment, 0)
  else if canRedeemPending pending payment MIN_EGLD then do
    let rest ← csub payment pending
    .ok (pending, rest)
  else partialRedeem pending payment MIN_EGLD

/-- `decrease_pending_egld`, liquid-staking/src/utils/delegate.rs:61-81 (without the accumulator argument, which
`process_delegation` adds up itself). -/
def decreasePending (c : Cache) (v : Nat) : Res Cache := do
  let p ← csub c.r.toUnstake v
  let c1 : Cache := { c with r := { c.r with toUnstake := p, withdrawn := c.r.withdrawn + v } }
  req (MIN_EGLD ≤ c1.r.toUnstake ∨ c1.r.toUnstake = 0) .insufficientUnstakePendingEgld
  .ok c1

/-- `increase_pending_egld`, liquid-staking/src/utils/delegate.rs:83-99. -/
def increasePending (c : Cache) (v : Nat) : Res Cache := do
  let c1 : Cache := { c with r := { c.r with pending := c.r.pending + v } }
  req (MIN_EGLD ≤ c1.r.pending) .insufficientPendingEgld
  .ok c1

/-- `process_delegation`, liquid-staking/src/utils/delegate.rs:18-59. -/
def processDelegation (w : World) (caller : Addr) (c : Cache) (fromPending toAdd : Nat) : Res (World × Cache) := do
  let c1 ← (if 0 < fromPending then decreasePending c fromPending else .ok c)
  let m1 := if 0 < fromPending then fromPending else 0
  let c2 ← (if 0 < toAdd then increasePending c1 toAdd else .ok c1)
  let m2 := if 0 < toAdd then m1 + toAdd else m1
  if 0 < m2 then do
    let (l, c3) ← poolAdd m2 c2
    let w1 := mintLs w l
    let w2 ← sendLs w1 caller l
    .ok (emit w2 c3 (.addLiquidity (toAdd + fromPending)) caller, c3)
  else .ok (w, c2)

/-- `process_instant_redemption`, liquid-staking/src/utils/un_delegation.rs:37-54. -/
def instantRedemption (w : World) (caller : Addr) (c : Cache) (v : Nat) : Res (World × Cache) :=
  if 0 < v then do
    let p ← csub c.r.pending v
    let c1 : Cache := { c with r := { c.r with pending := p } }
    req (MIN_EGLD ≤ c1.r.pending ∨ c1.r.pending = 0) .insufficientPendingEgld
    let w1 ← sendEgld w caller v
    .ok (w1, c1)
  else .ok (w, c)

/-- `undelegate_amount`, liquid-staking/src/utils/un_delegation.rs:76-115.  `u64` addition wraps: the contract is built
with `overflow-checks = false` (liquid-staking/wasm/Cargo.toml:22). -/
def undelegateAmount (w : World) (caller : Addr) (c : Cache) (v : Nat) : Res (World × Cache) :=
  if 0 < v then do
    let c1 : Cache := { c with r := { c.r with toUnstake := c.r.toUnstake + v } }
    req (MIN_EGLD ≤ c1.r.toUnstake ∨ c1.r.toUnstake = 0) .insufficientUnstakePendingEgld
    let unbondEpoch := w.epoch + w.st.unbondPeriod
    let (w1, n) ← mintUnstakeTokens w { unstakeEpoch := w.epoch, unbondEpoch := unbondEpoch } v unbondEpoch w.epoch
    let w2 ← sendNft w1 caller n v
    .ok (w2, c1)
  else .ok (w, c)

/-- `process_un_delegation`, liquid-staking/src/utils/un_delegation.rs:19-35. -/
def processUnDelegation (w : World) (caller : Addr) (c : Cache) (fromPending toRemove : Nat) :
    Res (World × Cache) := do
  let (w1, c1) ← instantRedemption w caller c fromPending
  let (w2, c2) ← undelegateAmount w1 caller c1 toRemove
  .ok (emit w2 c2 (.removeLiquidity (toRemove + fromPending)) caller, c2)

end LS
