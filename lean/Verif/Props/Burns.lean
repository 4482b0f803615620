import Verif.Spec.Burns
import Verif.Props.Accounting
import Verif.Props.Parts

/-! Tokens burned by their holders: C74. -/

namespace LS
open Spec Demo

/-- **C74**, burning LS tokens takes exactly that many from the holder and changes nothing else: not the supply the contract knows, not the
reserve, nobody else's balance. -/
theorem C74_burn_ls {w w' : World} {a : Addr} {v : Nat} (hr : Reachable w) (hs : step w (.burnLs a v) = .ok w') :
    lsOf w' a + v = lsOf w a ∧ ∀ x, x ≠ .ls a → x ≠ .burnt → Same w w' x := by
  refine ⟨?_, fun x h1 h2 => parts_step hr hs x (by simp [touched, h1, h2])⟩
  obtain ⟨_, m, hm, rfl⟩ := holderBurnLs_ok.1 hs
  have h1 := get_debit hm a
  have h2 := debit_le hm
  rw [if_pos rfl] at h1
  show m.get 0 a + v = w.ls.get 0 a
  omega

/-- **C74**, the same for the unstake tokens of one nonce. -/
theorem C74_burn_unstakes {w w' : World} {a : Addr} {n v : Nat} (hr : Reachable w) (hs : step w (.burnUnstake a n v) = .ok w') :
    unstakeOf w' n a + v = unstakeOf w n a ∧ ∀ x, x ≠ .unstakes n a → x ≠ .burnt → Same w w' x := by
  refine ⟨?_, fun x h1 h2 => parts_step hr hs x (by simp [touched, h1, h2])⟩
  obtain ⟨_, m, hm, rfl⟩ := holderBurnNft_ok.1 hs
  have h1 := get_debit hm (n, a)
  have h2 := debit_le hm
  rw [if_pos rfl] at h1
  show m.get 0 (n, a) + v = w.nft.get 0 (n, a)
  omega

/-- **C74**, the two counters of burned tokens count exactly what these transactions burn. -/
theorem C74_counted {w w' : World} {op : Op} (hr : Reachable w) (hs : step w op = .ok w') :
    w'.burntLs = w.burntLs + lsBurned op ∧ w'.burntUnstake = w.burntUnstake + unstakesBurned op := by
  have key : Part.burnt ∉ touched w op → w'.burntLs = w.burntLs ∧ w'.burntUnstake = w.burntUnstake := parts_step hr hs _
  cases op with
  | burnLs a v => obtain ⟨_, m, _, rfl⟩ := holderBurnLs_ok.1 hs; exact ⟨rfl, rfl⟩
  | burnUnstake a n v => obtain ⟨_, m, _, rfl⟩ := holderBurnNft_ok.1 hs; exact ⟨rfl, rfl⟩
  | giveUnstake a n v => obtain ⟨_, _, m, _, rfl⟩ := giveUnstake_ok.1 hs; exact ⟨rfl, rfl⟩
  | owner c cmd => exact key (by cases cmd <;> simp [touched, settingOf])
  | unDelegate c v ps => exact key (by simp [touched, positionParts]; split <;> simp)
  | deliver i o =>
    refine key ?_
    unfold touched
    dsimp only
    split
    · rename_i f _
      cases f <;> cases o <;> simp [callbackParts] <;> split <;> simp
    · simp
  | issued i o =>
    refine key ?_
    unfold touched
    dsimp only
    split <;> simp <;> split <;> simp
  | _ => exact key (by simp [touched])

/-- **C74**, what is burned is locked for ever: whatever happens later, the reserve holds at least what the burned tokens were worth. -/
theorem C74_ls_locked {w w1 w' : World} {a : Addr} {v : Nat} (hr : Reachable w) (h0 : 0 < v) (hs : step w (.burnLs a v) = .ok w1)
    (ht : Later w1 w') : v ≤ supply w' ∧ v * reserve w ≤ reserve w' * supply w := by
  have hr1 : Reachable w1 := .step _ hr hs
  have hb := (C74_counted hr hs).1
  have hP := (C74_burn_ls hr hs).2
  have hsup : supply w1 = supply w := hP .supply (by simp) (by simp)
  have hres : reserve w1 = reserve w := hP .reserve (by simp) (by simp)
  -- from the burn on, LS tokens exist
  have key : Reachable w' ∧ v ≤ w'.burntLs ∧ Trace Alive w1 w' := by
    induction ht with
    | nil => exact ⟨hr1, by simp [lsBurned] at hb; omega, .nil⟩
    | @snoc w2 w3 op _ hs2 _ ih =>
      obtain ⟨hr2, h2, ht2⟩ := ih
      have hr3 : Reachable w3 := .step _ hr2 hs2
      have h3 := (C74_counted hr2 hs2).1
      obtain ⟨_, _, q2⟩ := C05_supply_is_total hr2
      obtain ⟨_, _, q3⟩ := C05_supply_is_total hr3
      exact ⟨hr3, by omega, .snoc _ ht2 hs2 ⟨by omega, by omega⟩⟩
  obtain ⟨hr', hv, htr⟩ := key
  obtain ⟨_, _, q⟩ := C05_supply_is_total hr'
  obtain ⟨_, _, q1⟩ := C05_supply_is_total hr1
  have hS : 0 < supply w1 := by simp [lsBurned] at hb; omega
  have h := (C03_rate_never_falls hr1 hS htr 0).1
  rw [hsup, hres] at h
  have hle : v ≤ supply w' := by omega
  exact ⟨hle, Nat.le_trans (by rw [Nat.mul_comm]; exact Nat.mul_le_mul_left _ hle) h⟩

/-- Unstake tokens taken out of users' hands without being paid. -/
theorem unstakes_locked {w w1 w' : World} {op : Op} (hr : Reachable w) (hs : step w op = .ok w1) (ht : Later w1 w') :
    ∃ u h, IsSum (figure (·.unstaked) w') u ∧ IsSum (userTokens w') h ∧
      h + unstakesBurned op ≤ toUndelegate w' + allUndelegations (unsettled w') + u + withdrawable w' := by
  have hb := (C74_counted hr hs).2
  have key : Reachable w' ∧ unstakesBurned op ≤ w'.burntUnstake := by
    induction ht with
    | nil => exact ⟨.step _ hr hs, by omega⟩
    | @snoc w2 w3 op _ hs2 _ ih =>
      have h3 := (C74_counted ih.1 hs2).2
      exact ⟨.step _ ih.1 hs2, by omega⟩
  obtain ⟨u, h, h1, h2, h3⟩ := C07_unstake_tokens_covered key.1
  exact ⟨u, h, h1, h2, by omega⟩

/-- **C74**, and what burned unstake tokens stood for stays, for ever, in the queue, in un-delegations on their way, unbonding at the
providers or in the withdrawable pot: together these hold the burned amount on top of every claim still held. -/
theorem C74_unstakes_locked {w w1 w' : World} {a : Addr} {n v : Nat} (hr : Reachable w) (hs : step w (.burnUnstake a n v) = .ok w1)
    (ht : Later w1 w') :
    ∃ u h, IsSum (figure (·.unstaked) w') u ∧ IsSum (userTokens w') h ∧
      h + v ≤ toUndelegate w' + allUndelegations (unsettled w') + u + withdrawable w' :=
  unstakes_locked hr hs ht

/-- In `redeemed`, user 11 burns five of their LS tokens and one of their unstake tokens; then user 12 redeems two LS tokens. -/
def burning : World := run redeemed [.burnLs 11 (E 5), .burnUnstake 11 1 (E 1), .unDelegate 12 0 [⟨500, 0, E 2⟩]]

/-- Non-vacuity: the burns happen, both counters move, the pool keeps its worth, and burning more than one holds is refused. -/
example : Reachable redeemed ∧ works redeemed (.burnLs 11 (E 5)) = true ∧ works redeemed (.burnUnstake 11 1 (E 1)) = true ∧
    burning.burntLs = E 5 ∧ burning.burntUnstake = E 1 ∧ reserve burning < reserve redeemed ∧ E 5 ≤ supply burning ∧
    works redeemed (.burnLs 11 (E 500)) = false ∧ works redeemed (.burnUnstake 12 1 (E 500)) = false :=
  ⟨redeemed_reachable, by decide +kernel, by decide +kernel, by decide +kernel, by decide +kernel, by decide +kernel, by decide +kernel,
    by decide +kernel, by decide +kernel⟩

end LS
