import Verif.Proofs.ProviderLemmas
import Verif.Props.Scoring

/-! Contract and providers together: C38. -/

namespace LS
open Spec Demo

/-- The calls whose answers settle stake: delegations, un-delegations and withdrawals. -/
def Settling : Flight → Prop
  | .delegate .. | .undelegate .. | .withdraw .. => True
  | _ => False

private theorem settling_cb {s : Sys} (hr : SysReachable InOrder s) {i : Nat} {f : Flight} {o : Outcome}
    (hm : s.msgs[i]? = some (f, some o)) (ho : InOrder s (.answer i)) (hf : Settling f) :
    ∃ w', runCallback (arrive s.w i f o) f o = .ok w' := by
  have h := sysInv hr
  have hfl : s.w.flights[i]? = some f := by rw [← h.msgs, List.getElem?_map, hm]; rfl
  obtain ⟨hsplit, hpre⟩ := msgs_split hm
  have hlive : ∀ p, target f = some p → ¬ DeadWl s.w p → ∃ b, serveOne (recBooks s.w p) f o = .ok b := by
    intro p hp hd
    have heq := h.eq p hd
    have hpre0 : ∀ b, effs p b (s.msgs.take i) = some b := fun b => effs_id fun e' he' ht => by
      obtain ⟨j, hj, hj'⟩ := hpre e' he'
      have := ho j hj e'.1 _ e'.2 (some o) hj' hm (by rw [ht, hp])
      rw [ht] at this; cases this
    rw [hsplit, effs_append, hpre0] at heq
    have heq' : (eff p (recBooks s.w p) (f, some o)).bind (effs p · (s.msgs.drop (i + 1))) = some (booksOf s p) := heq
    have e1 : eff p (recBooks s.w p) (f, some o) = (serveOne (recBooks s.w p) f o).toOption := by
      unfold eff
      show (if _ then _ else _) = _
      rw [if_pos hp]
    rw [e1] at heq'
    cases hb : serveOne (recBooks s.w p) f o with
    | error e => rw [hb] at heq'; cases heq'
    | ok b => exact ⟨b, rfl⟩
  cases f with
  | delegate p a => exact delegate_cb_ok h.reach o hfl
  | undelegate p a =>
    obtain ⟨_, _, _, _, _, _, hp⟩ := undelegate_flight h.reach (List.mem_of_getElem? hfl)
    obtain ⟨b, hb⟩ := hlive p rfl fun hd => (reachable_deadWl h.reach p hd).1 hp
    exact answer_effect h.reach hfl rfl hb fun _ _ h => by cases h
  | withdraw p =>
    by_cases hd : DeadWl s.w p
    · cases o with
      | err => exact ⟨_, withdrawTokensCb_ok.2 (.inl ⟨rfl, rfl⟩)⟩
      | ok g r => exact ⟨_, withdrawTokensCb_ok.2 (.inl ⟨(deadOk hr p hd).2 g r (List.mem_of_getElem? hm), rfl⟩)⟩
    · obtain ⟨b, hb⟩ := hlive p rfl hd
      exact answer_effect h.reach hfl rfl hb fun _ _ h => by cases h
  | claim ps => exact hf.elim
  | whitelist p x u => exact hf.elim

/-- **C38**, callbacks: with well-behaved providers whose answers keep their order, the callback of a delegation,
un-delegation or withdrawal takes effect: nothing is added to the failed callbacks. -/
theorem C38_callbacks_succeed {s : Sys} (hr : SysReachable InOrder s) {i : Nat} {f : Flight} {o : Outcome}
    (hm : s.msgs[i]? = some (f, some o)) (ho : InOrder s (.answer i)) (hf : Settling f) :
    ∃ s', sysStep s (.answer i) = .ok s' ∧ s'.w.dead = s.w.dead := by
  have h := sysInv hr
  have hfl : s.w.flights[i]? = some f := by rw [← h.msgs, List.getElem?_map, hm]; rfl
  obtain ⟨w', hcb⟩ := settling_cb hr hm ho hf
  refine ⟨{ s with w := w', msgs := s.msgs.eraseIdx i }, ?_, (runCallback_flights hcb).2⟩
  show answer s i = _
  unfold answer
  rw [hm]
  show (step s.w (.deliver i o)).bind _ = _
  rw [deliver_of_cb hfl hcb]
  rfl

/-- **C38**, so none of them has ever failed. -/
theorem C38_none_failed {s : Sys} (hr : SysReachable InOrder s) : ∀ f ∈ s.w.dead, ¬ Settling f := by
  induction hr with
  | init hi =>
    obtain ⟨self, owner, contracts, epoch, funds, acc, fees, rpe, mr, ms, ma, ub, _, _, rfl⟩ := isInit_eq hi
    intro f hf; simp at hf
  | @step s s' op hr hp hs ih =>
    cases op with
    | call op =>
      have hs : sysCall s op = .ok s' := hs
      unfold sysCall at hs
      cases hdl : isDeliver op with
      | true => rw [hdl] at hs; cases hs
      | false =>
        rw [hdl] at hs
        obtain ⟨w', hw, hs⟩ := bind_ok.1 hs
        cases hs
        intro f hf
        have hf' : f ∈ w'.dead := hf
        rw [(call_frame (sysInv hr).reach hdl hw).2.1] at hf'
        exact ih f hf'
    | serve i o =>
      have : s'.w = s.w := by
        have hs1 : serve s i o = .ok s' := hs
        unfold serve at hs1
        cases he : s.msgs[i]? with
        | none => rw [he] at hs1; cases hs1
        | some e =>
          obtain ⟨f, a⟩ := e
          rw [he] at hs1
          cases a with
          | some o' => cases hs1
          | none =>
            cases ht : target f with
            | none => simp only [ht] at hs1; cases hs1; rfl
            | some q =>
              simp only [ht] at hs1
              obtain ⟨b, hb, hs1⟩ := bind_ok.1 hs1
              cases hs1; rfl
      rw [this]; exact ih
    | lose i => exact hp.elim
    | answer i =>
      have hs1 : answer s i = .ok s' := hs
      unfold answer at hs1
      cases he : s.msgs[i]? with
      | none => rw [he] at hs1; cases hs1
      | some e =>
        obtain ⟨f, a⟩ := e
        rw [he] at hs1
        cases a with
        | none => cases hs1
        | some o =>
          obtain ⟨w', hw, hs1⟩ := bind_ok.1 hs1
          cases hs1
          have hfl : s.w.flights[i]? = some f := by rw [← (sysInv hr).msgs, List.getElem?_map, he]; rfl
          intro f' hf'
          have hf2 : f' ∈ w'.dead := hf'
          obtain ⟨f1, hf1, hcb | ⟨⟨e, herr⟩, rfl⟩⟩ := deliver_ok hw
          · rw [(runCallback_flights hcb).2] at hf2
            exact ih f' hf2
          · rw [hfl] at hf1; cases hf1
            have hf3 : f' ∈ s.w.dead ++ [f] := hf2
            rcases List.mem_append.1 hf3 with h | h
            · exact ih f' h
            · rw [List.mem_singleton] at h
              subst h
              intro hset
              obtain ⟨w1, h1⟩ := settling_cb hr he hp hset
              rw [h1] at herr; cases herr

/-- **C38**, records: once nothing is on its way to or from a whitelisted provider, the stake and the unbonding amount recorded
by the contract are those held by the provider. -/
theorem C38_records_match {s : Sys} (hr : SysReachable InOrder s) {p : Addr} (hp : p ∈ s.w.st.delegList)
    (hm : ∀ e ∈ s.msgs, target e.1 ≠ some p) :
    figure (·.staked) s.w p = (booksOf s p).stake ∧ figure (·.unstaked) s.w p = (booksOf s p).unbonding := by
  have h := sysInv hr
  have heq := h.eq p fun hd => (reachable_deadWl h.reach p hd).1 hp
  rw [effs_id fun e he ht => absurd ht (hm e he)] at heq
  have hb : recBooks s.w p = booksOf s p := Option.some.inj heq
  rw [← hb]
  unfold recBooks recOf figure provider
  cases s.w.st.data.get none p <;> exact ⟨rfl, rfl⟩

/-- A check of `InOrder`. -/
def inOrder (s : Sys) : SysOp → Bool
  | .call _ => true
  | .serve i _ => match s.msgs[i]? with
    | some (g, _) => (s.msgs.take i).all fun e => decide (target e.1 = target g → target e.1 = none ∨ e.2 ≠ none)
    | none => true
  | .answer i => match s.msgs[i]? with
    | some (g, _) => (s.msgs.take i).all fun e => decide (target e.1 = target g → target e.1 = none)
    | none => true
  | .lose _ => false

theorem inOrder_sound {s : Sys} {op : SysOp} (h : inOrder s op = true) : InOrder s op := by
  cases op with
  | call op => trivial
  | lose i => cases h
  | serve i o =>
    intro j hj f g x y hf hg ht hn
    unfold inOrder at h
    simp only [hg, List.all_eq_true] at h
    have hm : (f, x) ∈ s.msgs.take i :=
      List.mem_of_getElem? (i := j) (by rw [List.getElem?_take_of_lt hj]; exact hf)
    exact (of_decide_eq_true (h _ hm) ht).resolve_left hn
  | answer i =>
    intro j hj f g x y hf hg ht
    unfold inOrder at h
    simp only [hg, List.all_eq_true] at h
    have hm : (f, x) ∈ s.msgs.take i :=
      List.mem_of_getElem? (i := j) (by rw [List.getElem?_take_of_lt hj]; exact hf)
    exact of_decide_eq_true (h _ hm) ht

/-- A step, if possible. -/
def sysExec (s : Sys) (op : SysOp) : Sys :=
  match sysStep s op with
  | .ok s' => s'
  | .error _ => s

theorem sysExec_reachable {P : Sys → SysOp → Prop} {s : Sys} {op : SysOp} (h : SysReachable P s) (hp : P s op) :
    SysReachable P (sysExec s op) := by
  unfold sysExec
  cases hs : sysStep s op with
  | error e => exact h
  | ok s' => exact .step op h hp hs

theorem sysStep_exec {s : Sys} {op : SysOp} (h : (sysStep s op).isOk = true) : sysStep s op = .ok (sysExec s op) := by
  unfold sysExec
  cases hs : sysStep s op with
  | error e => rw [hs] at h; cases h
  | ok s' => rfl

/-- Running a list of steps, dropping those that fail or are out of order. -/
def ordRun (s : Sys) (ops : List SysOp) : Sys := ops.foldl (fun s op => if inOrder s op then sysExec s op else s) s

/-- Running a list of steps in any order, dropping those that fail. -/
def anyRun (s : Sys) (ops : List SysOp) : Sys := ops.foldl sysExec s

theorem ordRun_reachable : ∀ {ops : List SysOp} {s : Sys}, SysReachable InOrder s → SysReachable InOrder (ordRun s ops)
  | [], _, h => h
  | op :: ops, s, h => by
    show SysReachable InOrder (ordRun (if inOrder s op then sysExec s op else s) ops)
    refine ordRun_reachable ?_
    cases ho : inOrder s op with
    | false => exact h
    | true => exact sysExec_reachable h (inOrder_sound ho)

theorem anyRun_reachable : ∀ {ops : List SysOp} {s : Sys}, SysReachable (fun _ _ => True) s →
    SysReachable (fun _ _ => True) (anyRun s ops)
  | [], _, h => h
  | op :: ops, s, h => anyRun_reachable (s := sysExec s op) (sysExec_reachable h trivial)

/-- Tokens, two providers, 150 EGLD deposited and sent to the providers, which have not answered yet; then 140 LS tokens
redeemed and asked back from the same providers; the providers served everything. -/
def busyOps : List SysOp := [
  .call (.registerLsToken 1 0), .call (.issued 0 (some 500)), .call (.registerUnstakeToken 1 0), .call (.issued 0 (some 501)),
  .call (.owner 1 .stateActive),
  .call (.setScoringConfig 1 ScoringConfig.default),
  .call (.whitelist 1 (E 1) 21 41 (E 1000) (E 1500) 10 800), .serve 0 (.ok 0 0), .answer 0,
  .call (.whitelist 1 (E 1) 22 42 (E 1000) 0 20 900), .serve 0 (.ok 0 0), .answer 0,
  .call (.delegate 11 (E 100)), .call (.delegate 12 (E 50)), .call (.delegatePending 1 none),
  .serve 0 (.ok 0 0), .serve 1 (.ok 0 0),
  .call (.unDelegate 11 0 [⟨500, 0, E 90⟩]), .call (.unDelegate 12 0 [⟨500, 0, E 50⟩]), .call (.unDelegatePending 1 none),
  .serve 2 (.ok 0 0), .serve 3 (.ok 0 0)]

def inTransit : Sys := ordRun ⟨fresh, [], []⟩ busyOps

theorem inTransit_reachable : SysReachable InOrder inTransit := ordRun_reachable (.init fresh_isInit)

/-- Non-vacuity: four answers on their way, among them un-delegations of stake the contract has not recorded yet. -/
example : inTransit.msgs.length = 4 ∧ inTransit.msgs.all (fun e => e.2.isSome) = true ∧
    inTransit.msgs[2]? = some (.undelegate 21 37057326567026308461, some (.ok 0 0)) ∧
    figure (·.staked) inTransit.w 21 = E 1 ∧ inTransit.w.st.delegList = [21, 22] :=
  ⟨by decide +kernel, by decide +kernel, by decide +kernel, by decide +kernel, by decide +kernel⟩

/-- Non-vacuity of `C38_records_match`: all four answers arrived. -/
example : (ordRun inTransit [.answer 0, .answer 0, .answer 0, .answer 0]).msgs = [] ∧
    booksOf (ordRun inTransit [.answer 0, .answer 0, .answer 0, .answer 0]) 22 = ⟨E 12, 102942673432973691539⟩ :=
  ⟨by decide +kernel, by decide +kernel⟩

/-- **C38**, order is needed: if an answer overtakes an earlier one of the same provider, the callback of an un-delegation fails,
and after everything else has arrived the contract records stake the provider does not hold. -/
theorem C38_order_needed : ∃ s : Sys, SysReachable (fun _ _ => True) s ∧ s.msgs = [] ∧
    .undelegate 21 37057326567026308461 ∈ s.w.dead ∧ 21 ∈ s.w.st.delegList ∧
    figure (·.staked) s.w 21 = 37057326567026308461 ∧ booksOf s 21 = ⟨0, 37057326567026308461⟩ ∧
    figure (·.unstaked) s.w 21 = 0 :=
  ⟨anyRun ⟨fresh, [], []⟩ (busyOps ++ [.answer 2, .answer 0, .answer 0, .answer 0]), anyRun_reachable (.init fresh_isInit),
    by decide +kernel, by decide +kernel, by decide +kernel, by decide +kernel, by decide +kernel, by decide +kernel⟩

/-- Two delegations, served by their providers. -/
def delegating : Sys := ordRun ⟨fresh, [], []⟩ (busyOps.take 17)

/-- **C38**, gas is needed: everything in order, but the callback of one delegation runs out of gas; nothing is on its way to the
provider any more, and the contract has not recorded the stake the provider holds. -/
theorem C38_gas_needed : ∃ s s' : Sys, SysReachable InOrder s ∧ sysStep s (.lose 0) = .ok s' ∧ 21 ∈ s'.w.st.delegList ∧
    (∀ e ∈ s'.msgs, target e.1 ≠ some 21) ∧ figure (·.staked) s'.w 21 < (booksOf s' 21).stake :=
  ⟨delegating, sysExec delegating (.lose 0), ordRun_reachable (.init fresh_isInit), sysStep_exec (by decide +kernel), by decide +kernel,
    by decide +kernel, by decide +kernel⟩

end LS
