import Verif.Props.Economy
import Verif.Props.Rewards
import Verif.Spec.Flash

/-! Rewards taken by a deposit of a moment, and the share of a group in the rewards: C76, C77. -/

namespace LS
open Spec Demo

/-- A claim in flight over a pool of 152 EGLD, and a newcomer with 2000 EGLD and nothing else. -/
def waiting : World := run claiming [.fund 77 (E 2000)]

theorem waiting_reachable : Reachable waiting := reachable_run claiming_reachable _

/-- **C76 is false of the code**: a newcomer deposits just before the answer to a claim arrives and redeems just after.  Within one
epoch, without ever waiting, it ends with all its EGLD back and nine tenths of the rewards that the others had earned. -/
theorem C76_false : ∃ (w w1 w2 w3 : World) (c : Addr) (a l i r : Nat) (t : TokenId), Reachable w ∧
    lsOf w c = 0 ∧ (∀ n, unstakeOf w n c = 0) ∧
    step w (.delegate c a) = .ok w1 ∧ step w1 (.deliver i (.ok r r)) = .ok w2 ∧ step w2 (.unDelegate c 0 [⟨t, 0, l⟩]) = .ok w3 ∧
    w3.epoch = w.epoch ∧ lsOf w3 c = 0 ∧ (∀ n, unstakeOf w3 n c = 0) ∧
    10 * (egldOf w3 c - egldOf w c) = 9 * creditedBy w1 (.deliver i (.ok r r)) ∧ egldOf w c < egldOf w3 c := by
  have h0 : waiting.nft = [] := by decide +kernel
  have h3 : (exec (exec (exec waiting (.delegate 77 (E 1368))) (.deliver 0 (.ok (E 7) (E 7)))) (.unDelegate 77 0 [⟨500, 0, E 1368⟩])).nft = [] := by
    decide +kernel
  refine ⟨waiting, exec waiting (.delegate 77 (E 1368)), exec (exec waiting (.delegate 77 (E 1368))) (.deliver 0 (.ok (E 7) (E 7))),
    exec (exec (exec waiting (.delegate 77 (E 1368))) (.deliver 0 (.ok (E 7) (E 7)))) (.unDelegate 77 0 [⟨500, 0, E 1368⟩]),
    77, E 1368, E 1368, 0, E 7, 500, waiting_reachable, by decide +kernel, fun n => ?_, step_exec (by decide +kernel),
    step_exec (by decide +kernel), step_exec (by decide +kernel), by decide +kernel, by decide +kernel, fun n => ?_, by decide +kernel,
    by decide +kernel⟩
  · unfold unstakeOf; rw [h0]; rfl
  · unfold unstakeOf; rw [h3]; rfl

/-- **C76, what does hold.**  The full claim is refuted by `C76_false`.  True is: whoever deposits `a`, waits for a reward of `x` and redeems, is paid for the LS tokens minted as
if it had held them all along, and gains its share of the reward at most. -/
theorem C76_partial {w w1 w2 w3 : World} {c : Addr} {a l : Nat} {t : TokenId} {op : Op} (hr : Reachable w)
    (h1 : step w (.delegate c a) = .ok w1) (hl : lsOf w1 c = lsOf w c + l) (h2 : step w1 op = .ok w2) (hx : 0 < creditedBy w1 op)
    (h3 : step w2 (.unDelegate c 0 [⟨t, 0, l⟩]) = .ok w3) :
    ∃ i u n, PaidOut w2 w3 c i u n ∧ i + u = egldFor (supply w + l) (reserve w + a + creditedBy w1 op) l ∧
      (i + u) * (supply w + l) ≤ a * (supply w + l) + creditedBy w1 op * l := by
  obtain ⟨_, d1, d2, d3, _⟩ := C01_delegate_mints_pro_rata h1
  have hl' : l = lsFor (supply w) (reserve w) a := by omega
  have hr1 : Reachable w1 := .step _ hr h1
  have hS : 0 < supply w1 := by
    obtain ⟨_, _, _, _, _, _, _, _, _, _, _, _, _, hq, _⟩ := delegate_ok.1 h1
    have := (lsQuote_iff.1 hq)
    rw [d2]
    have e : lsFor (supply w) (reserve w) a = _ := this.2.symm
    rw [e]; omega
  obtain ⟨_, p2, p3, _⟩ := C72_pro_rata hr1 h2 hS hx c
  obtain ⟨t', l', i, u, n, _, hps, _, _, hiu, _, hp, _⟩ := C02_unDelegate_pays_pro_rata h3
  simp only [List.cons.injEq, Payment.mk.injEq, and_true, true_and] at hps
  obtain ⟨rfl, rfl⟩ := hps
  have e : i + u = egldFor (supply w + l) (reserve w + a + creditedBy w1 op) l := by rw [hiu, p2, p3, d2, d3, ← hl']
  refine ⟨i, u, n, hp, e, ?_⟩
  have g1 : l * reserve w ≤ a * supply w := by
    rcases Nat.eq_zero_or_pos (reserve w) with h0 | h0
    · rw [h0]; omega
    · rw [hl', lsFor, if_neg (by omega)]; exact Nat.div_mul_le_self _ _
  calc (i + u) * (supply w + l) ≤ l * (reserve w + a + creditedBy w1 op) := by rw [e, egldFor]; exact Nat.div_mul_le_self _ _
    _ = l * reserve w + l * a + l * creditedBy w1 op := by rw [Nat.mul_add, Nat.mul_add]
    _ ≤ a * (supply w + l) + creditedBy w1 op * l := by rw [Nat.mul_add, Nat.mul_comm l a, Nat.mul_comm l (creditedBy w1 op)]; omega

/-- Non-vacuity of `C76_partial`. -/
example : ∃ (w w1 w2 w3 : World) (op : Op), Reachable w ∧ step w (.delegate 77 (E 1368)) = .ok w1 ∧ lsOf w1 77 = lsOf w 77 + E 1368 ∧
    step w1 op = .ok w2 ∧ 0 < creditedBy w1 op ∧ step w2 (.unDelegate 77 0 [⟨500, 0, E 1368⟩]) = .ok w3 :=
  ⟨waiting, _, _, _, .deliver 0 (.ok (E 7) (E 7)), waiting_reachable, step_exec (by decide +kernel), by decide +kernel,
    step_exec (by decide +kernel), by decide +kernel, step_exec (by decide +kernel)⟩

/-- The group's share when a reward arrives. -/
theorem reward_worth {C : Finset Addr} {w w' : World} {op : Op} (hr : Reachable w) (hs : step w op = .ok w') (hself : w.self ∉ C)
    (hc : OnlyRewards C w op) {u u' : Nat} (hu : IsSum (unstakesIn C w) u) (hu' : IsSum (unstakesIn C w') u') :
    worth C w' u' ≤ worth C w u + (creditedBy w op : ℚ) * ((∑ a ∈ C, lsOf w a : Nat) : ℚ) / (supply w : ℚ) := by
  have hpos : (0 : ℚ) ≤ (creditedBy w op : ℚ) * ((∑ a ∈ C, lsOf w a : Nat) : ℚ) / (supply w : ℚ) := by positivity
  have closed : Closed C w op → worth C w' u' ≤ worth C w u + (creditedBy w op : ℚ) * ((∑ a ∈ C, lsOf w a : Nat) : ℚ) / (supply w : ℚ) := by
    intro h
    have := C63_no_profit hr hself (.snoc op .nil hs h) hu hu'
    linarith
  have credited : movesNft op = false → (∀ a ∈ C, Part.ls a ∉ touched w op) → (∀ a ∈ C, egldOf w' a ≤ egldOf w a) →
      supply w' = supply w → reserve w' = reserve w + creditedBy w op →
      worth C w' u' ≤ worth C w u + (creditedBy w op : ℚ) * ((∑ a ∈ C, lsOf w a : Nat) : ℚ) / (supply w : ℚ) := by
    intro hm h1 h2 h3 h4
    have e1 := unstakes_same hs hm hu hu'
    have e2 : ∑ a ∈ C, lsOf w' a = ∑ a ∈ C, lsOf w a := sum_same fun a ha => parts_step hr hs (.ls a) (h1 a ha)
    have e3 : ((∑ a ∈ C, egldOf w' a : Nat) : ℚ) ≤ ((∑ a ∈ C, egldOf w a : Nat) : ℚ) := by exact_mod_cast sum_le h2
    unfold worth rate
    rw [e1, e2, h3, h4]
    push_cast at e3 ⊢
    have : (∑ a ∈ C, (lsOf w a : ℚ)) * (((reserve w : ℚ) + (creditedBy w op : ℚ)) / (supply w : ℚ)) =
      (∑ a ∈ C, (lsOf w a : ℚ)) * ((reserve w : ℚ) / (supply w : ℚ)) + (creditedBy w op : ℚ) * (∑ a ∈ C, (lsOf w a : ℚ)) / (supply w : ℚ) := by
      ring
    rw [this]
    linarith
  have hne : ∀ a ∈ C, a ≠ w.self := fun a ha e => hself (e ▸ ha)
  cases op with
  | addRewards c v =>
    have hs' := hs
    obtain ⟨_, t, m, _, hm, rfl⟩ := addRewards_ok.1 hs'
    refine credited rfl (fun a _ => by simp [touched]) (fun a ha => ?_) rfl rfl
    show (credit m w.self v).get 0 a ≤ w.egld.get 0 a
    rw [get_credit, if_neg (Ne.symm (hne a ha)), get_debit hm]
    split <;> omega
  | deliver i o =>
    rcases hc with ⟨ps, hf⟩ | hc
    · have hsup : supply w' = supply w := parts_step hr hs .supply (by cases o <;> simp [touched, hf, callbackParts])
      refine credited rfl (fun a _ => by cases o <;> simp [touched, hf, callbackParts])
        (fun a ha => Nat.le_of_eq (parts_step hr hs (.egld a) ?_)) hsup ?_
      · have := hne a ha
        cases o <;> simp [touched, hf, callbackParts, this]
      · exact (claim_moves hr hs hf).2
    · exact closed hc
  | _ => exact closed hc

/-- **C77.** Whatever a group does, deposits of a moment included, it gains no more than its share of every reward, by the LS tokens it
holds at that moment; nothing else moves value to it. -/
theorem C77_share {C : Finset Addr} {w w' : World} {g : ℚ} (hr : Reachable w) (hself : w.self ∉ C) (h : Shared C w w' g) {u u' : Nat}
    (hu : IsSum (unstakesIn C w) u) (hu' : IsSum (unstakesIn C w') u') : worth C w' u' ≤ worth C w u + g := by
  suffices H : Reachable w' ∧ w'.self = w.self ∧ ∀ u', IsSum (unstakesIn C w') u' → worth C w' u' ≤ worth C w u + g from H.2.2 u' hu'
  clear hu'
  induction h with
  | nil => exact ⟨hr, rfl, fun v hv => by rw [hv.unique hu]; linarith⟩
  | @snoc w1 w2 g op _ hs hp ih =>
    obtain ⟨hr1, i0, i1⟩ := ih
    refine ⟨.step op hr1 hs, (frame_step op (reachable_regInv hr1) (reachable_issInv hr1) hs).self.trans i0, fun v hv => ?_⟩
    have h1 := isSum_unstakesIn C w1
    have h2 := reward_worth hr1 hs (by rw [i0]; exact hself) hp h1 hv
    have h3 := i1 _ h1
    linarith

/-- Non-vacuity: the history of `C76_false` is of this kind, with a share greater than zero. -/
example : ∃ (w w' : World) (g : ℚ), Reachable w ∧ w.self ∉ ({77} : Finset Addr) ∧ Shared {77} w w' g ∧ 0 < g ∧ egldOf w 77 < egldOf w' 77 := by
  let w1 := exec waiting (.delegate 77 (E 1368))
  let w2 := exec w1 (.deliver 0 (.ok (E 7) (E 7)))
  have f1 : w1.flights[0]? = some (.claim [21, 22]) := by decide +kernel
  have e0 : Shared {77} waiting waiting 0 := .nil
  have e1 := e0.snoc (.delegate 77 (E 1368)) (step_exec (by decide +kernel)) (by simp [OnlyRewards, Closed])
  have e2 := e1.snoc (.deliver 0 (.ok (E 7) (E 7))) (step_exec (by decide +kernel)) (.inl ⟨_, f1⟩)
  have e3 := e2.snoc (.unDelegate 77 0 [⟨500, 0, E 1368⟩]) (step_exec (by decide +kernel)) (by simp [OnlyRewards, Closed])
  refine ⟨_, _, _, waiting_reachable, by decide +kernel, e3, ?_, by decide +kernel⟩
  have p : 0 < creditedBy w1 (.deliver 0 (.ok (E 7) (E 7))) := by decide +kernel
  have s : 0 < supply w1 := by decide +kernel
  have l : 0 < lsOf w1 77 := by decide +kernel
  have p' : (0 : ℚ) < creditedBy w1 (.deliver 0 (.ok (E 7) (E 7))) := by exact_mod_cast p
  have s' : (0 : ℚ) < supply w1 := by exact_mod_cast s
  have l' : (0 : ℚ) < ((∑ a ∈ ({77} : Finset Addr), lsOf w1 a : Nat) : ℚ) := by rw [Finset.sum_singleton]; exact_mod_cast l
  have q := div_pos (mul_pos p' l') s'
  positivity

end LS
