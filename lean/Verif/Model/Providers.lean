import Verif.Model.Step

/-! The contract together with the staking providers it talks to.  The provider side models delegation-mock/src/delegation.rs,
the stand-in for a MultiversX delegation contract used by the repository's own tests. -/

namespace LS

/-- What a provider holds for the contract: `address_deposit` and `address_undelegate_amount`,
delegation-mock/src/delegation.rs:98-105. -/
structure Books where
  stake : Nat
  unbonding : Nat
  deriving DecidableEq, Repr

/-- The provider a promise is addressed to; `claim` goes to the delegation manager, manage.rs:232-239. -/
def target : Flight → Option Addr
  | .delegate p _ | .undelegate p _ | .withdraw p | .whitelist p _ _ => some p
  | .claim _ => none

/-- A provider serves one request with outcome `o`.  `delegate` (delegation.rs:25-33, also the request of a whitelisting) adds
to the stake; `unDelegate` (35-49) is possible up to the stake; `withdraw` (51-69) pays from what is unbonding.
Simplifications: a provider may refuse any request (a real one does when its cap is reached), and which part of the unbonding
amount has matured is left open, so `withdraw` may pay any part. -/
def serveOne (b : Books) : Flight → Outcome → Res Books
  | .delegate _ a, .ok _ _ => .ok { b with stake := b.stake + a }
  | .whitelist _ a _, .ok _ _ => .ok { b with stake := b.stake + a }
  | .undelegate _ a, .ok _ _ => do
    let s ← csub b.stake a
    .ok { stake := s, unbonding := b.unbonding + a }
  | .withdraw _, .ok g _ => do
    let u ← csub b.unbonding g
    .ok { b with unbonding := u }
  | _, _ => .ok b

/-- Contract and providers.  `msgs`: the promises in flight, each with the provider's answer once it has been served. -/
structure Sys where
  w : World
  msgs : List (Flight × Option Outcome)
  books : Map Addr Books

/-- What can happen: a transaction on the contract (not a callback), a provider serving a request, the arrival of an answer, the
arrival of an answer whose callback runs out of gas. -/
inductive SysOp
  | call (op : Op)
  | serve (i : Nat) (o : Outcome)
  | answer (i : Nat)
  | lose (i : Nat)

/-- Is it the delivery of an answer?  (In `Sys` and `Net` answers are delivered by `answer` and `lose`.) -/
def isDeliver : Op → Bool
  | .deliver .. | .starve .. => true
  | _ => false

/-- The books of a provider. -/
def booksOf (s : Sys) (p : Addr) : Books := s.books.get ⟨0, 0⟩ p

/-- A provider serves request number `i`. -/
def serve (s : Sys) (i : Nat) (o : Outcome) : Res Sys :=
  match s.msgs[i]? with
  | some (f, none) =>
    match target f with
    | some p => do
      let b ← serveOne (booksOf s p) f o
      .ok { s with msgs := s.msgs.set i (f, some o), books := s.books.set p b }
    | none => .ok { s with msgs := s.msgs.set i (f, some o) }
  | _ => .error .noSuchFlight

/-- A transaction on the contract; the promises it registers are sent. -/
def sysCall (s : Sys) (op : Op) : Res Sys :=
  if isDeliver op then .error .noSuchFlight
  else do
    let w' ← step s.w op
    .ok { s with w := w', msgs := s.msgs ++ (w'.flights.drop s.w.flights.length).map (·, none) }

/-- The answer to request number `i` arrives: its callback runs. -/
def answer (s : Sys) (i : Nat) : Res Sys :=
  match s.msgs[i]? with
  | some (_, some o) => do
    let w' ← step s.w (.deliver i o)
    .ok { s with w := w', msgs := s.msgs.eraseIdx i }
  | _ => .error .noSuchFlight

/-- The answer to request number `i` arrives, and its callback runs out of gas. -/
def lose (s : Sys) (i : Nat) : Res Sys :=
  match s.msgs[i]? with
  | some (_, some o) => do
    let w' ← step s.w (.starve i o)
    .ok { s with w := w', msgs := s.msgs.eraseIdx i }
  | _ => .error .noSuchFlight

/-- One step of the whole system. -/
def sysStep (s : Sys) : SysOp → Res Sys
  | .call op => sysCall s op
  | .serve i o => serve s i o
  | .answer i => answer s i
  | .lose i => lose s i

/-- Systems reachable from a fresh deployment, with empty books, by steps satisfying `P`. -/
inductive SysReachable (P : Sys → SysOp → Prop) : Sys → Prop
  | init {w : World} : IsInit w → SysReachable P ⟨w, [], []⟩
  | step {s s' : Sys} (op : SysOp) : SysReachable P s → P s op → sysStep s op = .ok s' → SysReachable P s'

/-- Every provider serves requests in the order in which they were sent, its answers arrive in that order, and no callback runs out of
gas. -/
def InOrder (s : Sys) : SysOp → Prop
  | .call _ => True
  | .serve i _ => ∀ j, j < i → ∀ f g x y, s.msgs[j]? = some (f, x) → s.msgs[i]? = some (g, y) → target f = target g →
      target f ≠ none → x ≠ none
  | .answer i => ∀ j, j < i → ∀ f g x y, s.msgs[j]? = some (f, x) → s.msgs[i]? = some (g, y) → target f = target g →
      target f = none
  | .lose _ => False

end LS
