import Verif.Props.Rewards
import Verif.Props.Logs

/-! The amounts in the log: C106. -/

namespace LS
open Spec Demo Layout Logs

/-- What an event entered about the reserve: deposits and rewards count, redemptions and the protocol's part of the rewards are taken off. -/
def Spec.entered : Event → Int
  | .change (.addLiquidity v) .. => v
  | .change (.removeLiquidity v) .. => -v
  | .change (.claimRewards v) .. => v
  | .change (.withdrawPending ..) .. => 0
  | .change .general .. => 0
  | .protocolRevenue v _ => -v

/-- What a log entered about the reserve. -/
def Spec.tally (l : List Event) : Int := (l.map entered).sum

/-- EGLD added to the reserve without its amount being announced: rewards brought by hand. -/
def Spec.unannounced : Op → Nat
  | .addRewards _ v => v
  | _ => 0

/-- A history, with the EGLD added to the reserve in it without an amount in the log. -/
inductive Spec.Unannounced : World → Nat → Prop
  | init {w : World} : IsInit w → Unannounced w 0
  | step {w w' : World} {d : Nat} (op : Op) : Unannounced w d → step w op = .ok w' → Unannounced w' (d + unannounced op)

private theorem tally_append (l m : List Event) : tally (l ++ m) = tally l + tally m := by
  unfold tally; rw [List.map_append, List.sum_append]

private theorem tally_cons (e : Event) (l : List Event) : tally (e :: l) = entered e + tally l := by
  unfold tally; rw [List.map_cons, List.sum_cons]

private theorem tally_announce {w : World} {t : TokenId} (h : w.st.lsToken = some t) (k : EventKind) (c : Addr) :
    tally (announce w k c) = entered (.change k c t w.st.r w.epoch) := by
  unfold announce tally
  rw [h]
  simp

private theorem tally_quiet (w : World) {k : EventKind} (c : Addr) (hk : ∀ t r e, entered (.change k c t r e) = 0) :
    tally (announce w k c) = 0 := by
  unfold announce tally
  cases w.st.lsToken <;> simp [hk]

private theorem tally_deliver {w w' : World} {i : Nat} {o : Outcome} (hr : Reachable w) (hs : step w (.deliver i o) = .ok w') :
    (reserve w' : Int) = reserve w + tally (announced w (.deliver i o) w') + unannounced (.deliver i o) := by
  have quiet : Part.reserve ∉ touched w (.deliver i o) → tally (announced w (.deliver i o) w') = 0 →
      (reserve w' : Int) = reserve w + tally (announced w (.deliver i o) w') + unannounced (.deliver i o) := by
    intro h1 h2
    have : reserve w' = reserve w := C64_only_its_parts hr hs _ h1
    rw [this, h2]; simp [unannounced]
  obtain ⟨f, hf, hcb⟩ := deliver_ok hs
  by_cases hcl : ∃ ps g r, f = .claim ps ∧ o = .ok g r
  · obtain ⟨ps, g, r, rfl, rfl⟩ := hcl
    simp only [announced, hf]
    rcases hcb with hcb | ⟨_, rfl⟩
    · rw [if_pos (show w'.dead = w.dead from (runCallback_flights hcb).2)]
      rcases claimRewardsCb_ok.1 hcb with ⟨h0, rfl⟩ | ⟨h0, t, fee, ht, _, hle, rfl⟩
      · simp [callbackEvents, h0, tally, unannounced, reserve, arrive]
      · simp only [callbackEvents]
        rw [if_neg (by omega), tally_cons, tally_announce (t := t) (by exact ht)]
        simp only [entered, unannounced]
        show ((w.st.r.reserve + (r - fee) : Nat) : Int) = w.st.r.reserve + (-((w.st.r.fees + fee - w.st.r.fees : Nat) : Int) + r) + (0 : Nat)
        omega
    · rw [if_neg (by simp)]
      simp [tally, unannounced, reserve, arrive]
  · by_cases hwl : ∃ p a u g r, f = .whitelist p a u ∧ o = .ok g r
    · obtain ⟨p, a, u, g, r, rfl, rfl⟩ := hwl
      simp only [announced, hf]
      rcases hcb with hcb | ⟨_, rfl⟩
      · rw [if_pos (show w'.dead = w.dead from (runCallback_flights hcb).2)]
        obtain ⟨t, d, l, ht, _, _, rfl⟩ := whitelistCb_true_ok.1 hcb
        simp only [callbackEvents]
        rw [tally_announce (t := t) (by exact ht)]
        simp only [entered, unannounced]
        show ((w.st.r.reserve + a : Nat) : Int) = w.st.r.reserve + a + (0 : Nat)
        omega
      · rw [if_neg (by simp)]
        simp [tally, unannounced, reserve, arrive]
    · refine quiet ?_ ?_
      · simp only [touched, hf]
        cases f <;> cases o <;> simp [callbackParts] at hcl hwl ⊢
        split <;> simp
      · simp only [announced, hf]
        split
        · cases f <;> cases o <;> simp only [callbackEvents] <;>
            first
            | rfl
            | exact tally_quiet _ _ fun _ _ _ => rfl
            | exact absurd ⟨_, _, _, rfl, rfl⟩ hcl
            | exact absurd ⟨_, _, _, _, _, rfl, rfl⟩ hwl
            | skip
          split
          · rfl
          · exact tally_quiet _ _ fun _ _ _ => rfl
        · rfl

/-- **C106**, one transaction: the reserve moves by what the transaction announces, and by rewards brought by hand. -/
theorem C106_step {w w' : World} {op : Op} (hr : Reachable w) (hs : step w op = .ok w') :
    (reserve w' : Int) = reserve w + tally (announced w op w') + unannounced op := by
  have quiet : Part.reserve ∉ touched w op → tally (announced w op w') = 0 → unannounced op = 0 →
      (reserve w' : Int) = reserve w + tally (announced w op w') + unannounced op := by
    intro h1 h2 h3
    have : reserve w' = reserve w := C64_only_its_parts hr hs _ h1
    rw [this, h2, h3]; simp
  cases op
  case delegate c a =>
    obtain ⟨_, _, _, h2, _⟩ := C01_delegate_mints_pro_rata hs
    obtain ⟨hc, hv, _, m, t, p, e, l, hm, ht, _, _, _, _, rfl⟩ := delegate_ok.1 hs
    simp only [announced]
    rw [h2, tally_announce (t := t) (by exact ht)]
    simp [entered, unannounced]
  case unDelegate c v ps =>
    obtain ⟨t, l, i, u, n, ht, _, _, _, _, _, _, _, h2, _⟩ := C02_unDelegate_pays_pro_rata hs
    have ht' : w'.st.lsToken = some t := by
      have : w'.st.lsToken = w.st.lsToken := (C64_only_its_parts hr hs .lsSlot (by simp only [touched, positionParts]; split <;> simp)).1
      rw [this]; exact ht
    simp only [announced]
    rw [tally_announce ht']
    simp only [entered, unannounced]
    omega
  case migrate c v o =>
    obtain ⟨_, _, _, _, t, l, ht, _, rfl⟩ := migrate_ok.1 hs
    simp only [announced]
    rw [tally_announce (t := t) (by exact ht)]
    simp [entered, unannounced, reserve, commit, emit]
  case addRewards c v =>
    obtain ⟨hc, t, m, _, hm, rfl⟩ := addRewards_ok.1 hs
    simp only [announced]
    rw [tally_quiet _ _ fun _ _ _ => rfl]
    simp [unannounced, reserve, commit, emit]
  case deliver i o => exact tally_deliver hr hs
  case issued i o =>
    refine quiet ?_ rfl rfl
    simp only [touched]
    split
    · split <;> simp
    · split <;> simp
    · simp
  case owner c cmd => refine quiet ?_ rfl rfl; cases cmd <;> simp [touched, settingOf]
  all_goals exact quiet (by simp [touched]) (by first | rfl | exact tally_quiet _ _ fun _ _ _ => rfl) rfl

/-- A redemption of 40 LS tokens announces the EGLD it takes from the reserve; rewards brought by hand announce nothing. -/
example : Reachable settled ∧ tally (announced settled (.unDelegate 11 0 [⟨500, 0, E 40⟩]) redeemed) = -41768421052631578947 ∧
    reserve redeemed + 41768421052631578947 = reserve settled ∧
    tally (announced settled (.addRewards 11 (E 5)) (exec settled (.addRewards 11 (E 5)))) = 0 ∧
    reserve (exec settled (.addRewards 11 (E 5))) = reserve settled + E 5 :=
  ⟨settled_reachable, by decide +kernel, by decide +kernel, by decide +kernel, by decide +kernel⟩

/-- **C106**, a whole history: the reserve is what the log adds up to and the rewards brought by hand. -/
theorem C106_history {w : World} {d : Nat} (h : Unannounced w d) : (reserve w : Int) = tally w.events + d := by
  have key : Reachable w ∧ (reserve w : Int) = tally w.events + d := by
    induction h with
    | init h =>
      obtain ⟨self, owner, contracts, epoch, funds, acc, fees, rpe, mr, ms, ma, ub, _, _, rfl⟩ := isInit_eq h
      exact ⟨.init h, rfl⟩
    | step op h hs ih =>
      refine ⟨.step _ ih.1 hs, ?_⟩
      rw [C106_step ih.1 hs, ih.2, C65_events_exact ih.1 hs, tally_append]
      push_cast
      omega
  exact key.2

/-- Every reachable world has such a history. -/
theorem C106_history_exists {w : World} (hr : Reachable w) : ∃ d, Unannounced w d := by
  induction hr with
  | init h => exact ⟨0, .init h⟩
  | step op _ hs ih => obtain ⟨s, h⟩ := ih; exact ⟨_, .step op h hs⟩

example : ∃ d, Unannounced redeemed d := C106_history_exists redeemed_reachable

/-- **C106, what does hold.**  The full claim ("the amounts in the log add up to the reserve", for all reachable worlds) is refuted by
`C106_false`.  True is: they do in every history in which nobody brought rewards by hand.  Missing from the code is an event of
`addRewards` that carries the amount. -/
theorem C106_partial {w : World} (hr : ReachableBy (fun _ op _ => ∀ c v, op ≠ .addRewards c v) w) : (reserve w : Int) = tally w.events := by
  have key : Unannounced w 0 := by
    obtain ⟨w0, hi, ht⟩ := hr
    induction ht with
    | nil => exact .init hi
    | snoc op _ hs hp ih =>
      have := Unannounced.step op ih hs
      rw [show 0 + unannounced op = 0 by cases op <;> first | rfl | exact absurd rfl (hp _ _)] at this
      exact this
  simpa using C106_history key

private def noGift : List Op → Bool
  | [] => true
  | .addRewards .. :: _ => false
  | _ :: ops => noGift ops

private theorem reachableBy_noGift {ops : List Op} (h : noGift ops = true) :
    ReachableBy (fun _ op _ => ∀ c v, op ≠ .addRewards c v) (run fresh ops) := by
  refine ⟨fresh, fresh_isInit, trace_of_run (fun _ => noGift) (fun w op ops h => ?_) ops fresh h⟩
  cases op <;> first | exact ⟨h, fun _ _ _ _ e => by cases e⟩ | cases h

/-- A history with deposits, redemptions and rewards, after which the reserve is what the log adds up to. -/
example : ReachableBy (fun _ op _ => ∀ c v, op ≠ .addRewards c v) (run fresh busy) ∧
    0 < feesReserve (run fresh busy) ∧ tally (run fresh busy).events = 70058613861386138614 :=
  ⟨reachableBy_noGift (by decide +kernel), by decide +kernel, by decide +kernel⟩

/-- "The amounts in the log add up to the reserve" is false of the code: rewards brought by hand are announced without their amount. -/
theorem C106_false : ∃ w, Reachable w ∧ (reserve w : Int) ≠ tally w.events :=
  ⟨run active [.addRewards 11 (E 5)], reachable_run active_reachable _, by decide +kernel⟩

/-- What an entry of the log in bytes says about the reserve, to somebody who reads it. -/
def Spec.enteredAs : Option Seen → Int
  | some (.pool (.deposit v) ..) => v
  | some (.pool (.redemption v) ..) => -v
  | some (.pool (.rewards v) ..) => v
  | some (.revenue v _) => -v
  | _ => 0

/-- **C106**, in bytes: whoever reads the log adds up the same. -/
theorem C106_bytes {id : TokenId → Bytes} {l : List (Event × UInt64 × UInt64)} (hw : ∀ e ∈ l.map (·.1), Loggable id e) :
    ((log id l).map fun x => enteredAs (readEvent x)).sum = tally (l.map (·.1)) := by
  induction l with
  | nil => rfl
  | cons x l ih =>
    show enteredAs (readEvent (topics id x.2.1 x.2.2 x.1)) + ((log id l).map fun x => enteredAs (readEvent x)).sum = _
    rw [ih fun e he => hw e (List.mem_cons_of_mem _ he), C101_read id x.2.1 x.2.2 (hw x.1 List.mem_cons_self)]
    rw [List.map_cons, tally_cons]
    congr 1
    cases x.1 with
    | protocolRevenue v e => rfl
    | change k c t r e => cases k <;> rfl

/-- The log of a deposit, a claim of rewards and a redemption. -/
example : (∀ e ∈ redeemed.events, Loggable encTop e) ∧ (tally redeemed.events = reserve redeemed) ∧ redeemed.events.length = 9 :=
  ⟨by decide +kernel, by decide +kernel, by decide +kernel⟩

end LS
