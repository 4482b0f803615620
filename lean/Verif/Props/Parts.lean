import Verif.Proofs.Parts
import Verif.Proofs.Effects
import Verif.Demo

/-! What transactions change and announce, and when callbacks fail: C64–C67. -/

namespace LS
open Spec Demo

/-! ### C64 -/

/-- **C64.** A transaction changes only the parts of the state it is for, down to single accounts, providers, positions and epochs. -/
theorem C64_only_its_parts {w w' : World} {op : Op} (hr : Reachable w) (hs : step w op = .ok w') (x : Part) (hx : x ∉ touched w op) :
    Same w w' x :=
  parts_step hr hs x hx

/-- The redemption changes the parts it lists and no others, for instance not the record of a provider. -/
example : works settled (.unDelegate 11 0 [⟨500, 0, E 40⟩]) = true ∧
    Part.staked 21 ∉ touched settled (.unDelegate 11 0 [⟨500, 0, E 40⟩]) ∧
    (touched settled (.unDelegate 11 0 [⟨500, 0, E 40⟩])).filter
      (fun x => decide (¬ Same settled (exec settled (.unDelegate 11 0 [⟨500, 0, E 40⟩])) x)) =
      [.ls 11, .supply, .reserve, .queue, .events, .unstakes 1 11, .unstakes 1 1000, .attributes 1, .lastNonce, .registry 60] := by
  decide +kernel

/-- **C64**, a transaction that fails, a view and an upgrade change nothing at all. -/
theorem C64_nothing {w : World} {op : Op} (h : (∃ e, step w op = .error e) ∨ op = .upgrade ∨ (∃ l, op = .viewLsValue l) ∨
    ∃ e, op = .viewEgldPosition e) : exec w op = w := by
  rcases h with ⟨e, h⟩ | rfl | ⟨l, rfl⟩ | ⟨e, rfl⟩
  · simp [exec, h]
  · rfl
  · simp only [exec]
    cases h : step w (.viewLsValue l) with
    | error e => rfl
    | ok w' =>
      simp only [step, bind_ok, Prod.exists, Except.ok.injEq] at h
      obtain ⟨e, w1, h1, rfl⟩ := h
      obtain ⟨_, _, rfl⟩ := viewLsValue_ok.1 h1
      rfl
  · simp only [exec]
    cases h : step w (.viewEgldPosition e) with
    | error e => rfl
    | ok w' =>
      simp only [step, bind_ok, Prod.exists, Except.ok.injEq] at h
      obtain ⟨e, w1, h1, rfl⟩ := h
      obtain ⟨_, _, rfl⟩ := viewEgldPosition_ok.1 h1
      rfl

example : works settled (.viewLsValue (E 3)) = true ∧ works settled (.delegate 11 5) = false := by decide +kernel

/-! ### C65 -/

/-- **C65.** The events of a transaction, exactly and in order. -/
theorem C65_events_exact {w w' : World} {op : Op} (hr : Reachable w) (hs : step w op = .ok w') :
    w'.events = w.events ++ announced w op w' :=
  events_step (reachable_regInv hr) hs

example : announced settled (.unDelegate 11 0 [⟨500, 0, E 40⟩]) redeemed =
    [.change (.removeLiquidity 41768421052631578947) 11 500 redeemed.st.r 50] := by decide +kernel

/-! ### C66 -/

theorem lastFigures_reports {w : World} {evs : List Event} (h : ∀ e ∈ evs, Reports w e) :
    (lastFigures evs = none ∧ ∀ e ∈ evs, ¬ IsLiquidity e) ∨ lastFigures evs = some w.st.r := by
  induction evs with
  | nil => exact .inl ⟨rfl, by simp⟩
  | cons e l ih =>
    rcases ih fun x hx => h x (List.mem_cons_of_mem _ hx) with ⟨h1, h2⟩ | h1
    · cases e with
      | change k c t r ep =>
        have := h _ List.mem_cons_self
        simp only [Reports] at this
        exact .inr (by simp [lastFigures, h1, this.2.1])
      | protocolRevenue f ep =>
        refine .inl ⟨by simp [lastFigures, h1], fun x hx => ?_⟩
        rcases List.mem_cons.1 hx with rfl | hx
        · exact fun h => h
        · exact h2 x hx
    · exact .inr (by simp [lastFigures, h1])

/-- **C66.** The log of events is enough to know the pool: its last liquidity event carries all the present figures, except that the
fees may have been paid out since. -/
theorem C66_log_has_figures {w : World} (hr : Reachable w) :
    w.st.r = (lastFigures w.events).getD emptyPool ∨ w.st.r = { (lastFigures w.events).getD emptyPool with fees := 0 } := by
  induction hr with
  | init h =>
    obtain ⟨self, owner, contracts, epoch, funds, acc, fees, rpe, mr, ms, ma, ub, _, _, rfl⟩ := isInit_eq h
    exact .inl rfl
  | @step w w' op hr hs ih =>
    obtain ⟨evs, h1, h2, h3⟩ := estep (reachable_regInv hr) hs
    rw [h1, lastFigures_append]
    rcases lastFigures_reports h2 with ⟨h4, h5⟩ | h4
    · rw [h4, Option.none_or]
      rcases h3 with h3 | ⟨c, a, rfl⟩ | ⟨e, he, hl⟩
      · rw [h3]; exact ih
      · obtain ⟨_, _, _, _, _, m, hm, rfl⟩ := claimFees_ok hs
        right
        show { w.st.r with fees := 0 } = _
        rcases ih with ih | ih <;> rw [ih]
      · exact absurd hl (h5 e he)
    · rw [h4]
      exact .inl rfl

example : Reachable redeemed ∧ lastFigures redeemed.events = some redeemed.st.r ∧ redeemed.st.r ≠ emptyPool :=
  ⟨redeemed_reachable, by decide +kernel, by decide +kernel⟩

theorem revenue_announce (w : World) (k : EventKind) (c : Addr) : revenue (announce w k c) = 0 := by
  unfold announce
  cases w.st.lsToken <;> rfl

/-- **C66**, fees: apart from paying them out, the fees grow by exactly the protocol revenue announced. -/
theorem C66_revenue {w w' : World} {op : Op} (hr : Reachable w) (hs : step w op = .ok w') (hop : ∀ c a, op ≠ .claimFees c a) :
    feesReserve w' + revenue w.events = feesReserve w + revenue w'.events := by
  have hev := C65_events_exact hr hs
  have hfee : Part.fees ∉ touched w op → feesReserve w' = feesReserve w := fun h => C64_only_its_parts hr hs _ h
  rw [hev, revenue_append]
  have key : Part.fees ∉ touched w op → revenue (announced w op w') = 0 →
      feesReserve w' + revenue w.events = feesReserve w + (revenue w.events + revenue (announced w op w')) := by
    intro h1 h2
    have := hfee h1
    omega
  cases op
  case claimFees c a => exact absurd rfl (hop c a)
  case deliver i o =>
    obtain ⟨f, hf, hcb⟩ := deliver_ok hs
    by_cases hcl : ∃ ps g r, f = .claim ps ∧ o = .ok g r
    · obtain ⟨ps, g, r, rfl, rfl⟩ := hcl
      simp only [announced, hf]
      rcases hcb with hcb | ⟨_, rfl⟩
      · have hdead : w'.dead = w.dead := (runCallback_flights hcb).2
        rw [if_pos hdead]
        rcases claimRewardsCb_ok.1 hcb with ⟨h0, rfl⟩ | ⟨h0, t, fee, ht, _, _, rfl⟩
        · simp only [callbackEvents, h0, if_true, revenue, Nat.add_zero]
          rfl
        · simp only [callbackEvents]
          rw [if_neg (by omega)]
          simp only [revenue, revenue_announce, Nat.add_zero]
          show w.st.r.fees + fee + _ = w.st.r.fees + (_ + (w.st.r.fees + fee - w.st.r.fees))
          omega
      · rw [if_neg (by simp)]
        rfl
    · refine key ?_ ?_
      · simp only [touched, hf]
        cases f <;> cases o <;> simp [callbackParts] at hcl ⊢
        split <;> simp
      · simp only [announced, hf]
        split
        · cases f <;> cases o <;> simp only [callbackEvents, revenue_announce, revenue]
          · split <;> simp [revenue_announce, revenue]
          · exact absurd ⟨_, _, _, rfl, rfl⟩ hcl
        · rfl
  case unDelegate c v ps =>
    refine key ?_ (revenue_announce ..)
    simp only [touched, positionParts]
    split <;> simp
  case issued i o =>
    refine key ?_ rfl
    simp only [touched]
    split
    · split <;> simp
    · split <;> simp
    · simp
  case owner c cmd => refine key ?_ rfl; cases cmd <;> simp [touched, settingOf]
  all_goals exact key (by simp [touched]) (by first | rfl | exact revenue_announce ..)

/-- **C66**, fees: the fees reserve never exceeds the revenue announced. -/
theorem C66_fees_announced {w : World} (hr : Reachable w) : feesReserve w ≤ revenue w.events := by
  induction hr with
  | init h =>
    obtain ⟨self, owner, contracts, epoch, funds, acc, fees, rpe, mr, ms, ma, ub, _, _, rfl⟩ := isInit_eq h
    exact Nat.zero_le _
  | @step w w' op hr hs ih =>
    by_cases hop : ∃ c a, op = .claimFees c a
    · obtain ⟨c, a, rfl⟩ := hop
      obtain ⟨_, _, _, _, _, m, hm, rfl⟩ := claimFees_ok hs
      exact Nat.zero_le _
    · have := C66_revenue hr hs fun c a h => hop ⟨c, a, h⟩
      omega

/-! ### C67 -/

/-- **C67.** A callback fails, and its effects are lost, exactly in the cases listed; otherwise its call is settled. -/
theorem C67_callback_fails_iff {w w' : World} {i : Nat} {o : Outcome} {f : Flight} (hr : Reachable w) (hf : w.flights[i]? = some f)
    (hs : step w (.deliver i o) = .ok w') :
    (CallbackFails w f o → w'.dead = w.dead ++ [f] ∧ w'.st = w.st ∧ w'.ls = w.ls ∧ w'.nft = w.nft) ∧
    (¬ CallbackFails w f o → w'.dead = w.dead) := by
  obtain ⟨f', hf', hcb⟩ := deliver_ok hs
  have : f = f' := by rw [hf] at hf'; exact Option.some.inj hf'
  subst this
  rw [← callback_fails hr hf]
  rcases hcb with hcb | ⟨he, rfl⟩
  · have hdead : w'.dead = w.dead := (runCallback_flights hcb).2
    refine ⟨fun ⟨e, he⟩ => ?_, fun _ => hdead⟩
    rw [he] at hcb
    cases hcb
  · exact ⟨fun _ => ⟨rfl, rfl, rfl, rfl⟩, fun h => absurd he h⟩

/-- A provider that sends back more than was un-delegated from it: the callback fails. -/
example : returned.flights[0]? = some (.withdraw 21) ∧ CallbackFails returned (.withdraw 21) (.ok (E 1000) 0) ∧
    ¬ CallbackFails returned (.withdraw 21) (.ok 38672954215174376577 0) ∧
    (exec returned (.deliver 0 (.ok (E 1000) 0))).dead = [.withdraw 21] :=
  ⟨by decide +kernel, .inl (by decide +kernel), fun h => (not_or.2 ⟨by decide +kernel, by decide +kernel⟩) h, by decide +kernel⟩

end LS
