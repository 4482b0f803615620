import Verif.Props.Books
import Verif.Props.Closed
import Verif.Proofs.Coalition

/-! C121: what is entrusted to each provider, and what providers that keep it can cost. -/

namespace LS
open Spec Demo

/-- What is entrusted to `p`: stake recorded there, stake it is giving back, delegations it has not answered. -/
def Spec.entrusted (w : World) (p : Addr) : Nat :=
  figure (·.staked) w p + figure (·.unstaked) w p + delegationsTo p (unsettled w)

/-- What a transaction hands over to `p`: delegations it sends, and a stake that comes with a confirmed whitelisting. -/
def Spec.handedOver (p : Addr) (w : World) (op : Op) (w' : World) : Nat :=
  match op with
  | .delegatePending _ _ => delegationsTo p w'.flights - delegationsTo p w.flights
  | .deliver i (.ok _ _) =>
    match w.flights[i]? with
    | some (.whitelist q v _) => if q = p ∧ w'.dead = w.dead then v else 0
    | _ => 0
  | _ => 0

/-- What a transaction brings back from `p`: a delegation it refuses, and EGLD it pays out. -/
def Spec.broughtBack (p : Addr) (w : World) (op : Op) (w' : World) : Nat :=
  match op with
  | .deliver i .err =>
    match w.flights[i]? with
    | some (.delegate q a) => if q = p ∧ w'.dead = w.dead then a else 0
    | _ => 0
  | .deliver i (.ok v _) =>
    match w.flights[i]? with
    | some (.withdraw q) => if q = p ∧ w'.dead = w.dead then v else 0
    | _ => 0
  | _ => 0

/-- A history, with all that was handed over to `p` and all that it brought back. -/
inductive Spec.Entrusting (p : Addr) : World → Nat → Nat → Prop
  | init {w : World} : IsInit w → Entrusting p w 0 0
  | step {w w' : World} {g b : Nat} (op : Op) : Entrusting p w g b → step w op = .ok w' →
      Entrusting p w' (g + handedOver p w op w') (b + broughtBack p w op w')

/-! ### Proofs -/

private theorem delegationsTo_append (p : Addr) (l m : List Flight) :
    delegationsTo p (l ++ m) = delegationsTo p l + delegationsTo p m := by
  rw [delegationsTo_eq, delegationsTo_eq, delegationsTo_eq, fsum_append]

/-- The delegations in flight that an answer settles. -/
private def settledBy (p : Addr) (w : World) (op : Op) (w' : World) : Nat :=
  match op with
  | .deliver i _ =>
    match w.flights[i]? with
    | some (.delegate q a) => if q = p ∧ w'.dead = w.dead then a else 0
    | _ => 0
  | _ => 0

/-- The delegations that a transaction sends. -/
private def sentBy (p : Addr) (w : World) (op : Op) (w' : World) : Nat :=
  match op with
  | .delegatePending _ _ => delegationsTo p w'.flights - delegationsTo p w.flights
  | _ => 0

private theorem flying_own {w w' : World} {p : Addr} {a : Nat} {d d' : ProviderData} (h : provider w p = some d)
    (h' : provider w' p = some d') (e : d'.pStake + a = d.pStake) : figure (·.pStake) w' p + a = figure (·.pStake) w p := by
  unfold figure; rw [h, h']; exact e

private theorem flying_step {w w' : World} {op : Op} (hr : Reachable w) (hs : step w op = .ok w') (p : Addr) :
    delegationsTo p (unsettled w') + settledBy p w op w' = delegationsTo p (unsettled w) + sentBy p w op w' := by
  have e1 := (C21_counters_in_flight hr p).1
  have e2 := (C21_counters_in_flight (.step op hr hs) p).1
  have same : Part.inFlightStake p ∉ touched w op → delegationsTo p (unsettled w') = delegationsTo p (unsettled w) := by
    intro h
    have e : figure (·.pStake) w' p = figure (·.pStake) w p := C64_only_its_parts hr hs _ h
    omega
  cases op with
  | delegatePending c o =>
    obtain ⟨_, _, hm, t, amt, sels, left, E, D, _, _, _, hsub, htar, _, _, hD, _, _, rfl⟩ := delegatePending_ok hs
    show delegationsTo p ((w.flights ++ _) ++ w.dead) + 0 = delegationsTo p (w.flights ++ w.dead) + (delegationsTo p (w.flights ++ _) - _)
    simp only [delegationsTo_append]
    omega
  | deliver i o =>
    obtain ⟨f, hf, hcb⟩ := deliver_ok hs
    simp only [settledBy, sentBy, hf, Nat.add_zero]
    cases f with
    | whitelist q v u => exact same (by simp only [touched, hf]; cases o <;> simp only [callbackParts] <;> (try split) <;> simp)
    | withdraw q => exact same (by simp only [touched, hf]; cases o <;> simp [callbackParts])
    | claim ps => exact same (by simp only [touched, hf]; cases o <;> simp [callbackParts])
    | undelegate q a => exact same (by simp only [touched, hf]; cases o <;> simp [callbackParts])
    | delegate q a =>
      dsimp only
      by_cases hq : q = p
      swap
      · rw [if_neg (fun h => hq h.1)]
        exact same (by simp only [touched, hf]; cases o <;> simp [callbackParts, Ne.symm hq])
      subst hq
      rcases hcb with hcb | ⟨_, rfl⟩
      · rw [if_pos ⟨rfl, (runCallback_flights hcb).2⟩, ← e1, ← e2]
        cases o with
        | ok g r =>
          obtain ⟨_, d, h1, h2, rfl⟩ := addLiquidityCb_true_ok.1 hcb
          exact flying_own (d := d) h1 ((Map.get_set ..).trans (if_pos rfl)) (Nat.sub_add_cancel h2)
        | err =>
          obtain ⟨w2, d2, h2, h3, h4, h5, h6, h7, h8, _⟩ := C22_failed_delegation hr hf
          rw [h2] at hs; cases hs
          exact flying_own h3 h8 (Nat.sub_add_cancel h4)
      · rw [if_neg (by simp), Nat.add_zero, ← e1, ← e2]
        rfl
  | owner c cmd => exact same (by cases cmd <;> simp [touched, settingOf])
  | unDelegate c v ps => exact same (by simp only [touched, positionParts]; split <;> simp)
  | issued i o =>
    refine same ?_
    simp only [touched]
    split
    · split <;> simp
    · split <;> simp
    · simp
  | _ => exact same (by simp [touched])

/-! ### C121 -/

/-- **C121**, one transaction: what is entrusted to a provider grows by what the transaction hands over to it, falls by what it brings
back, and changes in no other way. -/
theorem C121_step {w w' : World} {op : Op} (hr : Reachable w) (hs : step w op = .ok w') (p : Addr) :
    entrusted w' p + broughtBack p w op w' = entrusted w p + handedOver p w op w' := by
  have h1 := C109_step hr hs p
  have h2 := flying_step hr hs p
  have h3 : settledBy p w op w' + (entry p w op w').collected + handedOver p w op w' =
      (entry p w op w').confirmed + broughtBack p w op w' + sentBy p w op w' := by
    cases op with
    | deliver i o =>
      cases hf : w.flights[i]? with
      | none => cases o <;> simp only [settledBy, entry, handedOver, broughtBack, sentBy, hf]
      | some f =>
        by_cases hd : w'.dead = w.dead
        · cases f <;> cases o <;> simp only [settledBy, entry, handedOver, broughtBack, sentBy, hf, answerOf, hd, and_true, if_true] <;>
            (try split) <;> simp
        · cases f <;> cases o <;> simp [settledBy, entry, handedOver, broughtBack, sentBy, hf, hd]
    | _ => simp [settledBy, entry, handedOver, broughtBack, sentBy]
  unfold entrusted
  omega

/-- **C121**, every history: what is entrusted to a provider is what was ever handed over to it less what it brought back. -/
theorem C121_history {w : World} {p : Addr} {g b : Nat} (h : Entrusting p w g b) : entrusted w p + b = g := by
  have key : Reachable w ∧ entrusted w p + b = g := by
    induction h with
    | init h =>
      obtain ⟨self, owner, contracts, epoch, funds, acc, fees, rpe, mr, ms, ma, ub, _, _, rfl⟩ := isInit_eq h
      exact ⟨.init h, rfl⟩
    | step op _ hs ih =>
      have := C121_step ih.1 hs p
      exact ⟨.step op ih.1 hs, by omega⟩
  exact key.2

/-- **C121.** All that is promised, to the holders of LS tokens and of unstake tokens, is the EGLD the contract counts as its own and
what is entrusted to the providers. -/
theorem C121_promises {w : World} (hr : Reachable w) :
    ∃ h e, IsSum (userTokens w) h ∧ IsSum (entrusted w) e ∧
      reserve w + h + w.burntUnstake + w.migratedPending = pendingEgld w + withdrawable w + e + w.migratedVirtual := by
  obtain ⟨u, h, hu, hh, e1⟩ := C07_unstake_tokens_covered hr
  obtain ⟨s, hs, e2⟩ := C08_reserve_backed hr
  exact ⟨h, s + u + allDelegations (unsettled w), hh, (hs.add hu).add (isSum_delegations _), by omega⟩

/-- **C121**, providers that keep everything: with honest answers about rewards, whatever happens at a group of providers, the EGLD of
the contract and what is entrusted to the other providers cover all promises but what is entrusted to the group. -/
theorem C121_covered {w : World} (hr : ReachableBy HonestManager w) (h0 : w.migratedVirtual = 0) (Q : Finset Addr) :
    ∃ h e, IsSum (userTokens w) h ∧ IsSum (fun p => if p ∈ Q then 0 else entrusted w p) e ∧
      reserve w + h + feesReserve w ≤ egldOf w w.self + e + ∑ p ∈ Q, entrusted w p := by
  obtain ⟨h, e, hh, he, heq⟩ := C121_promises (reachableBy_reachable hr)
  have hsol := C09_solvent hr
  obtain ⟨S, hS, hsum⟩ := he
  have hrest : IsSum (fun p => if p ∈ Q then 0 else entrusted w p) (∑ p ∈ S, if p ∈ Q then 0 else entrusted w p) :=
    ⟨S, fun a ha => by simp [hS a ha], rfl⟩
  have hall : IsSum (entrusted w) ((∑ p ∈ S, if p ∈ Q then 0 else entrusted w p) + ∑ p ∈ Q, entrusted w p) :=
    (hrest.add (isSum_restrict Q)).congr fun a => by by_cases ha : a ∈ Q <;> simp [ha]
  have := hall.unique ⟨S, hS, hsum⟩
  exact ⟨h, _, hh, hrest, by omega⟩

/-- **C121**, how to limit it: what is entrusted to a closed provider never grows until it is declared open again. -/
theorem C121_closed {w w' : World} {p : Addr} (hr : Reachable w) (hc : ShutOut w p) (ht : Trace (NoWord p) w w') :
    entrusted w' p ≤ entrusted w p := by
  have key : Reachable w' ∧ entrusted w' p ≤ entrusted w p := by
    induction ht with
    | nil => exact ⟨hr, Nat.le_refl _⟩
    | snoc op ht hs hu ih =>
      rename_i w1 w2
      have h1 := (C116_stays_closed hr hc ht).1
      have h2 := (C116_stays_closed ih.1 h1 (.snoc op .nil hs hu)).2.1
      have h3 := C121_step ih.1 hs p
      have h4 : handedOver p w1 op w2 = 0 := by
        cases op with
        | delegatePending c o =>
          have g := flying_step ih.1 hs p
          have g1 := C109_step ih.1 hs p
          have c1 := (C21_counters_in_flight ih.1 p).1
          have c2 := (C21_counters_in_flight (.step _ ih.1 hs) p).1
          simp only [settledBy, sentBy, entry] at g g1
          unfold exposure at h2
          simp only [handedOver]
          omega
        | deliver i o =>
          cases o with
          | err => rfl
          | ok g r =>
            simp only [handedOver]
            cases hf : w1.flights[i]? with
            | none => rfl
            | some f =>
              cases f with
              | whitelist q v u =>
                have hr0 : RegOk w1.st.lsToken w1.st.unstakeToken w1.st.delegList w1.st.undelegList w1.st.data w1.flights w1.dead :=
                  reachable_regInv ih.1
                have hq : q ≠ p := fun h => (hr0.wl2 q v u (List.mem_of_getElem? hf)).1 (h ▸ h1.1)
                simp [hq]
              | _ => rfl
        | _ => rfl
      exact ⟨.step op ih.1 hs, by omega⟩
  exact key.2

/-- Every reachable world has such a history. -/
theorem C121_history_exists {w : World} (hr : Reachable w) (p : Addr) : ∃ g b, Entrusting p w g b := by
  induction hr with
  | init h => exact ⟨_, _, .init h⟩
  | step op _ hs ih => obtain ⟨g, b, h⟩ := ih; exact ⟨_, _, .step op h hs⟩

/-- What a list of attempted transactions hands over to `p` and brings back. -/
def Spec.tallyOf (p : Addr) (w : World) (g b : Nat) : List Op → Nat × Nat
  | [] => (g, b)
  | op :: ops =>
    match step w op with
    | .error _ => tallyOf p w g b ops
    | .ok w' => tallyOf p w' (g + handedOver p w op w') (b + broughtBack p w op w') ops

theorem entrusting_tallyOf {p : Addr} {w : World} {g b : Nat} (h : Entrusting p w g b) (ops : List Op) :
    Entrusting p (run w ops) (tallyOf p w g b ops).1 (tallyOf p w g b ops).2 := by
  induction ops generalizing w g b with
  | nil => exact h
  | cons op ops ih =>
    show Entrusting p (run (exec w op) ops) _ _
    unfold tallyOf exec
    cases hs : step w op with
    | error e => exact ih h
    | ok w' => exact ih (.step op h hs)

/-- Non-vacuity of `C121_history`: provider 22 of the demonstration got 107.72 EGLD and brought back 20. -/
example : Entrusting 22 (run fresh busy) 107720000000000000000 (E 20) ∧ entrusted (run fresh busy) 22 = 87720000000000000000 := by
  have h := entrusting_tallyOf (.init fresh_isInit) busy (p := 22)
  rw [show tallyOf 22 fresh 0 0 busy = (107720000000000000000, E 20) by decide +kernel] at h
  exact ⟨h, by decide +kernel⟩

/-- Two providers, with stake recorded at both, stake being given back by one and a delegation in flight. -/
def partners : List Op := [
  .registerLsToken 1 0, .issued 0 (some 500), .registerUnstakeToken 1 0, .issued 0 (some 501),
  .owner 1 .stateActive, .setScoringConfig 1 ScoringConfig.default,
  .whitelist 1 (E 1) 21 41 (E 1000) (E 1500) 10 800, .deliver 0 (.ok 0 0),
  .whitelist 1 (E 1) 22 42 (E 1000) 0 20 900, .deliver 0 (.ok 0 0), .delegate 11 (E 100), .delegatePending 1 none,
  .deliver 0 (.ok 0 0), .deliver 0 (.ok 0 0), .claimRewards 1, .deliver 0 (.ok (E 7) (E 7)), .unDelegate 11 0 [⟨500, 0, E 40⟩],
  .unDelegatePending 1 none, .deliver 0 (.ok 0 0), .deliver 0 (.ok 0 0), .delegate 12 (E 5), .delegatePending 1 none]

/-- Non-vacuity of `C121_covered`, and the bound is met: the EGLD of the contract and what is entrusted to provider 21 fall short of the
promises by exactly what is entrusted to provider 22. -/
example : let w := run fresh partners
    ReachableBy HonestManager w ∧ w.migratedVirtual = 0 ∧ 0 < unstakeOf w 1 11 ∧ 0 < feesReserve w ∧ 0 < entrusted w 21 ∧
    0 < entrusted w 22 ∧ 0 < delegationsTo 22 w.flights ∧ 0 < figure (·.unstaked) w 22 ∧
    reserve w + unstakeOf w 1 11 + feesReserve w = egldOf w w.self + entrusted w 21 + entrusted w 22 :=
  ⟨reachableBy_honest (by decide +kernel), by decide +kernel, by decide +kernel, by decide +kernel, by decide +kernel,
    by decide +kernel, by decide +kernel, by decide +kernel, by decide +kernel⟩

/-- Non-vacuity of `C121_closed`: the refusal of a delegation, a deposit and a batch, which goes to the other provider. -/
example : Reachable refused ∧ ShutOut refused 21 ∧ ∃ w', Trace (NoWord 21) refused w' ∧ 0 < entrusted w' 21 ∧
    entrusted w' 21 = entrusted refused 21 ∧ entrusted refused 22 < entrusted w' 22 ∧ entrusted refused 21 < entrusted staked 21 := by
  have hs : step staked (.deliver 0 .err) = .ok refused := step_exec (by decide +kernel)
  refine ⟨.step _ staked_reachable hs, ?_, exec (exec refused (.delegate 12 (E 5))) (.delegatePending 1 none),
    .snoc (.delegatePending 1 none) (.snoc (.delegate 12 (E 5)) .nil (step_exec (by decide +kernel)) nofun)
      (step_exec (by decide +kernel)) nofun, by decide +kernel, by decide +kernel, by decide +kernel, by decide +kernel⟩
  obtain ⟨w', hs', h⟩ := C116_refusal_closes staked_reachable (i := 0) (p := 21) (a := 1615627648148068116) (by decide +kernel)
  rw [hs] at hs'; cases hs'
  exact h

end LS
