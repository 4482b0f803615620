import Verif.Model.Providers

/-! The two contracts of the repository that stand in for the protocol's staking contracts in its tests: a staking provider
(delegation-mock) and the delegation manager (delegation-manager-mock), and the network they form with the liquid-staking
contract. -/

namespace LS

/-- delegation-mock/src/delegation.rs:6-9. -/
def MAX_PERCENTAGE : Nat := 100000
def APY : Nat := 10000
def EPOCHS_IN_YEAR : Nat := 365
def UNBOND_PERIOD : UInt64 := 10

/-- Storage of a delegation-mock, delegation-mock/src/delegation.rs:95-108, and the EGLD balance of its account. -/
structure Mock where
  supply : Nat       -- egldTokenSupply
  deposit : Nat      -- addressDeposit
  lastClaim : UInt64 -- addressLastClaim
  undAmount : Nat    -- addressUndelegateAmount
  undEpoch : UInt64  -- addressUndelegateEpoch
  egld : Nat
  deriving DecidableEq, Repr

/-- A new one: `init` (13-14) writes nothing. -/
def Mock.new : Mock := ⟨0, 0, 0, 0, 0, 0⟩

/-- `deposit_egld`, delegation-mock/src/delegation.rs:16-23.  (Owner only; who the owner is does not matter here.) -/
def Mock.depositEgld (m : Mock) (v : Nat) : Mock := { m with supply := m.supply + v, egld := m.egld + v }

/-- `delegate`, delegation-mock/src/delegation.rs:25-33; `v` is the EGLD of the call. -/
def Mock.delegate (m : Mock) (v : Nat) : Mock :=
  { m with deposit := m.deposit + v, supply := m.supply + v, egld := m.egld + v }

/-- `undelegate`, delegation-mock/src/delegation.rs:35-49; `now` is the epoch of the block.  The messages of its `require!`s
are immaterial. -/
def Mock.unDelegate (m : Mock) (now : UInt64) (a : Nat) : Res Mock := do
  req (0 < a ∧ a ≤ m.deposit) .badPaymentAmount
  .ok { m with deposit := m.deposit - a, undAmount := m.undAmount + a, undEpoch := now + UNBOND_PERIOD }

/-- `withdraw`, delegation-mock/src/delegation.rs:51-69: the mock afterwards and the EGLD sent to the caller. -/
def Mock.withdraw (m : Mock) (now : UInt64) : Res (Mock × Nat) := do
  req (0 < m.undAmount) .insufficientUnbondedAmount
  req (0 < m.undEpoch ∧ m.undEpoch ≤ now) .unstakePeriodNotPassed
  let s ← csub m.supply m.undAmount
  req (m.undAmount ≤ m.egld) .insufficientFunds
  .ok ({ m with supply := s, undEpoch := 0, undAmount := 0, egld := m.egld - m.undAmount }, m.undAmount)

/-- The rewards computed by `claim_rewards`, delegation-mock/src/delegation.rs:78-81. -/
def Mock.rewards (m : Mock) (now : UInt64) : Nat :=
  if m.lastClaim < now then m.deposit * APY / MAX_PERCENTAGE * (now.toNat - m.lastClaim.toNat) / EPOCHS_IN_YEAR else 0

/-- `claim_rewards`, delegation-mock/src/delegation.rs:71-93: the mock afterwards and the EGLD sent to the caller.  The supply
figure is not reduced (85-87). -/
def Mock.claimRewards (m : Mock) (now : UInt64) : Res (Mock × Nat) :=
  if 0 < m.rewards now then do
    req (m.rewards now ≤ m.egld) .insufficientFunds
    .ok ({ m with lastClaim := now, egld := m.egld - m.rewards now }, m.rewards now)
  else .ok (m, 0)

/-- The mocks by address; `none` where there is no contract. -/
abbrev Mocks := Map Addr (Option Mock)

/-- `claim_multiple`, delegation-manager-mock/src/delegation_manager.rs:10-27: the synchronous calls, in order, and the sum of what they
sent back, which goes to the caller.  A failing call makes everything fail. -/
def claimMulti (now : UInt64) : List Addr → Mocks → Res (Mocks × Nat)
  | [], ms => .ok (ms, 0)
  | p :: ps, ms =>
    match ms.get none p with
    | none => .error .calleeFailed
    | some m => do
      let (m', r) ← m.claimRewards now
      let (ms', t) ← claimMulti now ps (ms.set p (some m'))
      .ok (ms', r + t)

/-- A request reaching one mock. -/
def onMock (ms : Mocks) (p : Addr) (f : Mock → Res (Mock × Nat)) : Outcome × Mocks :=
  match ms.get none p with
  | none => (.err, ms)
  | some m =>
    match f m with
    | .ok (m', g) => (.ok g 0, ms.set p (some m'))
    | .error _ => (.err, ms)

/-- How the mocks and the manager answer a request of the liquid-staking contract in epoch `now`.  A failed call changes nothing. -/
def respond (now : UInt64) (ms : Mocks) : Flight → Outcome × Mocks
  | .delegate p a | .whitelist p a _ => onMock ms p fun m => .ok (m.delegate a, 0)
  | .undelegate p a => onMock ms p fun m => do
    let m' ← m.unDelegate now a
    .ok (m', 0)
  | .withdraw p => onMock ms p fun m => m.withdraw now
  | .claim ps =>
    match claimMulti now ps ms with
    | .ok (ms', t) => (.ok t t, ms')
    | .error _ => (.err, ms)

/-- Contract and mocks, with the promises in flight, each with its answer once it has been served. -/
structure Net where
  w : World
  msgs : List (Flight × Option Outcome)
  mocks : Mocks

/-- What can happen: a transaction on the contract (not a callback), the deployment of a mock, a deposit at a mock, the serving of
a request, the arrival of an answer, the arrival of an answer whose callback runs out of gas.  Simplification: nobody but the liquid-staking contract uses the mocks, as in the tests
(a mock keeps one deposit for all callers). -/
inductive NetOp
  | call (op : Op)
  | deploy (p : Addr)
  | deposit (p : Addr) (v : Nat)
  | serve (i : Nat)
  | answer (i : Nat)
  | lose (i : Nat)

/-- One step of the network. -/
def netStep (n : Net) : NetOp → Res Net
  | .call op =>
    if isDeliver op then .error .noSuchFlight
    else do
      let w' ← step n.w op
      .ok { n with w := w', msgs := n.msgs ++ (w'.flights.drop n.w.flights.length).map (·, none) }
  | .deploy p =>
    match n.mocks.get none p with
    | none => .ok { n with mocks := n.mocks.set p (some Mock.new) }
    | some _ => .error .alreadyWhitelisted
  | .deposit p v =>
    match n.mocks.get none p with
    | none => .error .calleeFailed
    | some m => .ok { n with mocks := n.mocks.set p (some (m.depositEgld v)) }
  | .serve i =>
    match n.msgs[i]? with
    | some (f, none) =>
      let (o, ms) := respond n.w.epoch n.mocks f
      .ok { n with msgs := n.msgs.set i (f, some o), mocks := ms }
    | _ => .error .noSuchFlight
  | .answer i =>
    match n.msgs[i]? with
    | some (_, some o) => do
      let w' ← step n.w (.deliver i o)
      .ok { n with w := w', msgs := n.msgs.eraseIdx i }
    | _ => .error .noSuchFlight
  | .lose i =>
    match n.msgs[i]? with
    | some (_, some o) => do
      let w' ← step n.w (.starve i o)
      .ok { n with w := w', msgs := n.msgs.eraseIdx i }
    | _ => .error .noSuchFlight

/-- Requests to one mock are served in the order sent, its answers arrive in that order, and no callback runs out of gas. -/
def NetInOrder (n : Net) : NetOp → Prop
  | .serve i => ∀ j, j < i → ∀ f g x y, n.msgs[j]? = some (f, x) → n.msgs[i]? = some (g, y) → target f = target g →
      target f ≠ none → x ≠ none
  | .answer i => ∀ j, j < i → ∀ f g x y, n.msgs[j]? = some (f, x) → n.msgs[i]? = some (g, y) → target f = target g →
      target f = none
  | .lose _ => False
  | _ => True

/-- Networks reachable from a fresh deployment without mocks, by steps satisfying `P`. -/
inductive NetReach (P : Net → NetOp → Prop) : Net → Prop
  | init {w : World} : IsInit w → NetReach P ⟨w, [], []⟩
  | step {n n' : Net} (op : NetOp) : NetReach P n → P n op → netStep n op = .ok n' → NetReach P n'

/-- In order, and with gas for every callback. -/
abbrev NetReachable : Net → Prop := NetReach NetInOrder

/-- In any order, and any callback may run out of gas. -/
abbrev AnyNet : Net → Prop := NetReach fun _ _ => True

end LS
