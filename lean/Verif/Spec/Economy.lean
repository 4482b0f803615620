import Verif.Spec.Observe
import Mathlib.Algebra.Order.Field.Rat

/-! Who spends what in a transaction, and what a group of accounts is worth. -/

namespace LS.Spec

/-- The account whose EGLD and tokens a transaction may spend: the caller of an endpoint, or the sender of a transfer. -/
def senderOf : Op → Option Addr
  | .delegate c _ | .unDelegate c _ _ | .withdraw c _ _ | .delegatePending c _ | .unDelegatePending c _ | .withdrawPending c _
  | .claimRewards c | .claimFees c _ | .whitelist c _ _ _ _ _ _ _ | .changeAdmin c _ _ | .changeParams c _ _ _ _ _ _
  | .migrate c _ _ | .migratePending c _ | .addRewards c _ | .setMigrationSc c _ | .registerLsToken c _
  | .registerUnstakeToken c _ | .owner c _ | .setScoringConfig c _ | .changeOwner c _ | .transferLs c _ _ | .transferNft c _ _ _
  | .burnLs c _ | .burnUnstake c _ _ | .transferEgld c _ _ | .giveEgld c _ | .giveLs c _ | .giveUnstake c _ _ => some c
  | _ => none

/-- The transactions after each other, all successful: `mk x` for every `x` of the list. -/
inductive InTurn (mk : Nat → Op) : List Nat → World → World → Prop
  | nil {w : World} : InTurn mk [] w w
  | cons {x : Nat} {xs : List Nat} {w w1 w2 : World} : step w (mk x) = .ok w1 → InTurn mk xs w1 w2 → InTurn mk (x :: xs) w w2

/-- Unstake tokens of a group of accounts. -/
def unstakesIn (C : Finset Addr) (w : World) (p : Nat × Addr) : Nat := if p.2 ∈ C then unstakeOf w p.1 p.2 else 0

/-- EGLD per LS token.  With no LS tokens in existence this is zero; it then multiplies a balance that is zero. -/
def rate (w : World) : ℚ := (reserve w : ℚ) / (supply w : ℚ)

/-- What a group of accounts owns, in EGLD: its EGLD, its unstake tokens (`u` in all), its LS tokens at the current rate. -/
def worth (C : Finset Addr) (w : World) (u : Nat) : ℚ :=
  ((∑ a ∈ C, egldOf w a : Nat) : ℚ) + (u : ℚ) + ((∑ a ∈ C, lsOf w a : Nat) : ℚ) * rate w

/-- Nothing of value comes to the group from outside: no rewards arrive, nobody outside the group deposits, redeems, or sends anything
to a member.  Members may deposit, redeem, withdraw, add rewards, transfer to anyone; managers, owner and providers may do
everything else. -/
def Closed (C : Finset Addr) (w : World) : Op → Prop
  | .delegate c _ | .unDelegate c _ _ | .addRewards c _ => c ∈ C
  | .transferLs s d _ => s ∈ C ∨ d ∉ C
  | .transferNft s d _ _ => s ∈ C ∨ d ∉ C
  | .transferEgld s d _ => s ∈ C ∨ d ∉ C
  | .claimFees _ _ => w.st.accumulator ∉ C
  | .migrate _ _ _ => False
  | .fund a _ => a ∉ C
  | .issued _ o => o ≠ none
  | .deliver i _ => ∃ p a, w.flights[i]? = some (.delegate p a) ∨ w.flights[i]? = some (.undelegate p a) ∨ w.flights[i]? = some (.withdraw p)
  | _ => True

end LS.Spec
