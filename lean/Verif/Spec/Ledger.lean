import Verif.Spec.Effects

/-! The EGLD in the contract's account: what it is for, and what is left over. -/

namespace LS.Spec

/-- EGLD of the contract beyond the EGLD waiting to be delegated, the withdrawable EGLD and the fees. -/
def spare (w : World) : Int := (egldOf w w.self : Int) - pendingEgld w - withdrawable w - feesReserve w

/-- What the answer to a call brings that the contract books nowhere: EGLD sent along with an answer that should bring none, rewards
beyond (or short of) the total reported, and everything that comes with an answer whose callback fails. -/
def unbooked (w : World) : Flight → Outcome → Int
  | .delegate _ _, .ok g _ => g
  | .undelegate _ _, .ok g _ => g
  | .withdraw p, .ok g _ => if figure (·.unstaked) w p < g ∨ unbonding w < g then g else 0
  | .claim _, .ok g r => if r < r * w.st.feeRate / 10000 then g else (g : Int) - r
  | .whitelist _ _ _, .ok g _ => g
  | .whitelist _ a _, .err => if w.st.lsToken = none then a else 0
  | _, .err => 0

/-- EGLD arriving with an answer: what the provider attached, or what had been sent with a call that failed. -/
def brought : Flight → Outcome → Nat
  | _, .ok g _ => g
  | .delegate _ a, .err => a
  | .whitelist _ a _, .err => a
  | _, .err => 0

/-- What a transaction leaves in the contract's account without booking it: EGLD sent along with `withdraw`, EGLD sent
by plain transfers, `unbooked`, and all that
comes with an answer whose callback runs out of gas. -/
def leftOver (w : World) : Op → Int
  | .withdraw _ v _ => v
  | .giveEgld _ v => v
  | .deliver i o => match w.flights[i]? with
    | some f => unbooked w f o
    | none => 0
  | .starve i o => match w.flights[i]? with
    | some f => brought f o
    | none => 0
  | _ => 0

/-- LS tokens a transaction sends to the contract by a plain transfer. -/
def lsGiven : Op → Nat
  | .giveLs _ v => v
  | _ => 0

/-- What a history since deployment left over. -/
inductive LeftOver : World → Int → Prop
  | init {w : World} (h : IsInit w) : LeftOver w 0
  | step {w w' : World} {s : Int} (op : Op) (h : LeftOver w s) (hs : step w op = .ok w') : LeftOver w' (s + leftOver w op)

end LS.Spec
