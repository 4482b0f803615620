import Verif.Props.Burns
import Verif.Props.Ledger

/-! EGLD and tokens that smart contracts send to the contract by plain transfers: C79. -/

namespace LS
open Spec Demo

/-- **C79**, EGLD sent by a plain transfer: only a smart contract can do it, it moves from the sender to the contract, and nothing else
changes: no figure of the pool, no quote, no queue. -/
theorem C79_egld {w w' : World} {s : Addr} {v : Nat} (hr : Reachable w) (hs : step w (.giveEgld s v) = .ok w') :
    s ∈ w.contracts ∧ egldOf w' s + v = egldOf w s ∧ egldOf w' w.self = egldOf w w.self + v ∧
    ∀ x, x ≠ .egld s → x ≠ .egld w.self → Same w w' x := by
  refine ⟨?_, ?_, ?_, fun x h1 h2 => parts_step hr hs x (by simp [touched, h1, h2])⟩
  all_goals obtain ⟨h1, h2, m, hm, rfl⟩ := giveEgld_ok.1 hs
  · exact h2
  · show (credit m w.self v).get 0 s + v = w.egld.get 0 s
    rw [get_credit, if_neg (Ne.symm h1), get_debit hm, if_pos rfl]
    have := debit_le hm
    omega
  · show (credit m w.self v).get 0 w.self = w.egld.get 0 w.self + v
    rw [get_credit, if_pos rfl, get_debit hm, if_neg h1]

/-- **C79**, the same for LS tokens: the supply and the reserve stay as they are. -/
theorem C79_ls {w w' : World} {s : Addr} {v : Nat} (hr : Reachable w) (hs : step w (.giveLs s v) = .ok w') :
    s ∈ w.contracts ∧ lsOf w' s + v = lsOf w s ∧ lsOf w' w.self = lsOf w w.self + v ∧
    ∀ x, x ≠ .ls s → x ≠ .ls w.self → Same w w' x := by
  refine ⟨?_, ?_, ?_, fun x h1 h2 => parts_step hr hs x (by simp [touched, h1, h2])⟩
  all_goals obtain ⟨h1, h2, m, hm, rfl⟩ := giveLs_ok.1 hs
  · exact h2
  · show (credit m w.self v).get 0 s + v = w.ls.get 0 s
    rw [get_credit, if_neg (Ne.symm h1), get_debit hm, if_pos rfl]
    have := debit_le hm
    omega
  · show (credit m w.self v).get 0 w.self = w.ls.get 0 w.self + v
    rw [get_credit, if_pos rfl, get_debit hm, if_neg h1]

/-- **C79**, the same for unstake tokens of one nonce (`burnt` is the history variable counting unstake tokens that no user holds any
more). -/
theorem C79_unstakes {w w' : World} {s : Addr} {n v : Nat} (hr : Reachable w) (hs : step w (.giveUnstake s n v) = .ok w') :
    s ∈ w.contracts ∧ unstakeOf w' n s + v = unstakeOf w n s ∧ unstakeOf w' n w.self = unstakeOf w n w.self + v ∧
    ∀ x, x ≠ .unstakes n s → x ≠ .unstakes n w.self → x ≠ .burnt → Same w w' x := by
  refine ⟨?_, ?_, ?_, fun x h1 h2 h3 => parts_step hr hs x (by simp [touched, h1, h2, h3])⟩
  all_goals obtain ⟨h1, h2, m, hm, rfl⟩ := giveUnstake_ok.1 hs
  · exact h2
  · show (credit m (n, w.self) v).get 0 (n, s) + v = w.nft.get 0 (n, s)
    rw [get_credit, if_neg (by simp [Ne.symm h1]), get_debit hm, if_pos rfl]
    have := debit_le hm
    omega
  · show (credit m (n, w.self) v).get 0 (n, w.self) = w.nft.get 0 (n, w.self) + v
    rw [get_credit, if_pos rfl, get_debit hm, if_neg (by simp [h1])]

/-- **C79**, EGLD sent this way is never booked and never leaves: in every later state the contract's account holds it on top of the EGLD
to be delegated, the withdrawable EGLD and the fees. -/
theorem C79_egld_locked {w w1 w' : World} {s : Addr} {v : Nat} (hr : ReachableBy HonestManager w)
    (hs : step w (.giveEgld s v) = .ok w1) (ht : Trace HonestManager w1 w') :
    pendingEgld w' + withdrawable w' + feesReserve w' + v ≤ egldOf w' w'.self := by
  have h0 := (C75_locked hr .nil).1
  have h1 := C75_ledger (reachableBy_reachable hr) hs
  obtain ⟨w0, hi, ht0⟩ := hr
  have hr1 : ReachableBy HonestManager w1 := ⟨w0, hi, .snoc _ ht0 hs (by simp [HonestManager])⟩
  have h2 := (C75_locked hr1 ht).2
  simp only [leftOver] at h1
  unfold spare at h0 h1 h2
  omega

/-- **C79**, LS tokens sent this way stay with the contract for ever, and the reserve keeps at least what they were worth. -/
theorem C79_ls_locked {w w1 w' : World} {s : Addr} {v : Nat} (hr : Reachable w) (h0 : 0 < v) (hs : step w (.giveLs s v) = .ok w1)
    (ht : Later w1 w') : lsOf w w.self + v ≤ lsOf w' w.self ∧ v * reserve w ≤ reserve w' * supply w := by
  have hr1 : Reachable w1 := .step _ hr hs
  obtain ⟨_, _, hb, hP⟩ := C79_ls hr hs
  have hsup : supply w1 = supply w := hP .supply (by simp) (by simp)
  have hres : reserve w1 = reserve w := hP .reserve (by simp) (by simp)
  have hself1 : w1.self = w.self := (frame_step _ (reachable_regInv hr) (reachable_issInv hr) hs).self
  have key : Reachable w' ∧ w'.self = w.self ∧ lsOf w1 w.self ≤ lsOf w' w.self ∧ Trace Alive w1 w' := by
    induction ht with
    | nil => exact ⟨hr1, hself1, Nat.le_refl _, .nil⟩
    | @snoc w2 w3 op _ hs2 _ ih =>
      obtain ⟨hr2, i1, i2, ht2⟩ := ih
      have hr3 : Reachable w3 := .step _ hr2 hs2
      have h3 := C75_ls hr2 hs2
      rw [i1] at h3
      have q2 := ls_le_supply hr2 w.self
      have q3 := ls_le_supply hr3 w.self
      exact ⟨hr3, (frame_step _ (reachable_regInv hr2) (reachable_issInv hr2) hs2).self.trans i1, by omega,
        .snoc _ ht2 hs2 ⟨by omega, by omega⟩⟩
  obtain ⟨hr', _, hv, htr⟩ := key
  have q1 := ls_le_supply hr1 w.self
  have q := ls_le_supply hr' w.self
  have h := (C03_rate_never_falls hr1 (by omega) htr 0).1
  rw [hsup, hres] at h
  have hle : v ≤ supply w' := by omega
  exact ⟨by omega, Nat.le_trans (by rw [Nat.mul_comm]; exact Nat.mul_le_mul_left _ hle) h⟩

/-- **C79**, unstake tokens sent this way are never paid: what they stood for stays in the queue, on its way, unbonding or withdrawable,
on top of every claim still held. -/
theorem C79_unstakes_locked {w w1 w' : World} {s : Addr} {n v : Nat} (hr : Reachable w) (hs : step w (.giveUnstake s n v) = .ok w1)
    (ht : Later w1 w') :
    ∃ u h, IsSum (figure (·.unstaked) w') u ∧ IsSum (userTokens w') h ∧
      h + v ≤ toUndelegate w' + allUndelegations (unsettled w') + u + withdrawable w' :=
  unstakes_locked hr hs ht

/-- Contract account 2 gets EGLD, LS tokens and unstake tokens, and sends some of each to the contract. -/
def giving : World := run redeemed [.fund 2 (E 9), .transferLs 11 2 (E 5), .transferNft 11 2 1 (E 3)]

/-- Non-vacuity: all three transfers happen; afterwards redeeming and delegating still work; a user cannot do the same. -/
example : Reachable giving ∧ works giving (.giveEgld 2 (E 4)) = true ∧ works giving (.giveLs 2 (E 5)) = true ∧
    works giving (.giveUnstake 2 1 (E 2)) = true ∧ works giving (.giveEgld 12 1) = false ∧ works giving (.giveLs 12 1) = false ∧
    works giving (.giveUnstake 11 1 1) = false :=
  ⟨reachable_run redeemed_reachable _, by decide +kernel, by decide +kernel, by decide +kernel, by decide +kernel, by decide +kernel,
    by decide +kernel⟩

example : let w := run giving [.giveEgld 2 (E 4), .giveLs 2 (E 5), .giveUnstake 2 1 (E 2)]
    lsOf w 1000 = E 5 ∧ spare w = E 4 ∧ w.burntUnstake = E 2 ∧ works w (.unDelegate 12 0 [⟨500, 0, E 5⟩]) = true ∧
    works w (.delegate 12 (E 5)) = true ∧ works w (.unDelegatePending 1 none) = true := by decide +kernel

end LS
