import Verif.Spec.Economy

/-! Rewards: how much a transaction credits to the holders of LS tokens, and what the rate is over a history. -/

namespace LS.Spec

/-- EGLD a transaction brings to all holders of LS tokens together: a donation in full, a claim of `r` EGLD less the fee.  When
the fee would exceed the claim, nothing is credited. -/
def creditedBy (w : World) : Op → Nat
  | .addRewards _ v => v
  | .deliver i (.ok _ r) =>
    match w.flights[i]? with
    | some (.claim _) => r - r * w.st.feeRate / 10000
    | _ => 0
  | _ => 0

/-- What the LS tokens of an account would bring if redeemed. -/
def valueOf (w : World) (a : Addr) : Nat := egldFor (supply w) (reserve w) (lsOf w a)

/-- A history during which LS tokens exist at all times, with what it credited per LS token (`q`), and the room rounding leaves
(`d`): in every transaction less than one unit, of EGLD or of LS token, shared by all LS tokens. -/
inductive Earned (w : World) : World → ℚ → ℚ → Prop
  | nil : Earned w w 0 0
  | snoc {w1 w2 : World} {q d : ℚ} (op : Op) : Earned w w1 q d → step w1 op = .ok w2 → 0 < supply w2 →
      Earned w w2 (q + (creditedBy w1 op : ℚ) / (supply w1 : ℚ)) (d + max (rate w1) 1 / (supply w2 : ℚ))

end LS.Spec
