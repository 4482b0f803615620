import Verif.Spec.Rewards

/-! Where the value of what a group of accounts owns comes from: an account of every transaction there is. -/

namespace LS.Spec

/-- What a transaction hands to the group from outside, in EGLD: transfers and funding by others, fees paid to an accumulator that belongs
to it, reserve credited to a migration contract that belongs to it, and its own earlier payments coming back (refused issues, whitelistings
that were answered; a whitelisting whose callback failed gives nothing). -/
def handed (C : Finset Addr) (w w' : World) : Op → ℚ
  | .transferEgld s d v => if s ∉ C ∧ d ∈ C then (v : ℚ) else 0
  | .transferNft s d _ v => if s ∉ C ∧ d ∈ C then (v : ℚ) else 0
  | .transferLs s d v => if s ∉ C ∧ d ∈ C then (v : ℚ) * rate w else 0
  | .fund a v => if a ∈ C then (v : ℚ) else 0
  | .claimFees _ _ => if w.st.accumulator ∈ C then (feesReserve w : ℚ) else 0
  | .migrate c v _ => if c ∈ C then (v : ℚ) else 0
  | .issued i none =>
    match w.issues[i]? with
    | some x => if x.caller ∈ C then (x.cost : ℚ) else 0
    | none => 0
  | .deliver i _ =>
    match w.flights[i]? with
    | some (.whitelist _ a u) => if u ∈ C ∧ w'.dead = w.dead then (a : ℚ) else 0
    | _ => 0
  | _ => 0

/-- What a transaction of a member gives away, in EGLD: transfers to others, tokens burned, donations, and payments that buy nothing at
once (issues, whitelistings, `migratePending`, EGLD attached to a withdrawal). -/
def spent (C : Finset Addr) (w : World) : Op → ℚ
  | .transferEgld s d v => if s ∈ C ∧ d ∉ C then (v : ℚ) else 0
  | .transferNft s d _ v => if s ∈ C ∧ d ∉ C then (v : ℚ) else 0
  | .transferLs s d v => if s ∈ C ∧ d ∉ C then (v : ℚ) * rate w else 0
  | .burnLs a v | .giveLs a v => if a ∈ C then (v : ℚ) * rate w else 0
  | .burnUnstake a _ v | .giveUnstake a _ v => if a ∈ C then (v : ℚ) else 0
  | .giveEgld a v | .addRewards a v | .migratePending a v | .registerLsToken a v | .registerUnstakeToken a v
  | .whitelist a v _ _ _ _ _ _ | .withdraw a v _ => if a ∈ C then (v : ℚ) else 0
  | _ => 0

/-- The share of a group in what a transaction credits to all LS tokens. -/
def shareOf (C : Finset Addr) (w : World) (op : Op) : ℚ :=
  (creditedBy w op : ℚ) * ((∑ a ∈ C, lsOf w a : Nat) : ℚ) / (supply w : ℚ)

/-- Who exchanges EGLD and LS tokens with the pool in a transaction. -/
def dealer (w : World) : Op → Option Addr
  | .delegate c _ | .unDelegate c _ _ | .migrate c _ _ => some c
  | .deliver i _ =>
    match w.flights[i]? with
    | some (.whitelist _ _ u) => some u
    | _ => none
  | _ => none

/-- The most a member can lose by rounding in a transaction: one unit, of EGLD or of LS token, if it deals with the pool. -/
def roundingLoss (C : Finset Addr) (w : World) (op : Op) : ℚ :=
  match dealer w op with
  | some c => if c ∈ C then max (rate w) 1 else 0
  | none => 0

/-- The most a group can gain by the rounding of others: its share of one unit, of EGLD or of LS token, if an outsider deals with the
pool. -/
def roundingGain (C : Finset Addr) (w w' : World) (op : Op) : ℚ :=
  match dealer w op with
  | some c => if c ∈ C then 0 else max (rate w) 1 * (((∑ a ∈ C, lsOf w a : Nat) : ℚ) / (supply w' : ℚ))
  | none => 0

/-- A history, of any transactions whatsoever, with what it handed to the group (`h`), what the group gave away (`s`), its shares in
rewards (`g`), and the bounds of what rounding took (`lo`) and brought (`hi`). -/
inductive Account (C : Finset Addr) (w : World) : World → ℚ → ℚ → ℚ → ℚ → ℚ → Prop
  | nil : Account C w w 0 0 0 0 0
  | snoc {w1 w2 : World} {h s g lo hi : ℚ} (op : Op) : Account C w w1 h s g lo hi → step w1 op = .ok w2 →
      Account C w w2 (h + handed C w1 w2 op) (s + spent C w1 op) (g + shareOf C w1 op) (lo + roundingLoss C w1 op)
        (hi + roundingGain C w1 w2 op)

end LS.Spec
