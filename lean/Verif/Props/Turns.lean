import Verif.Props.Accept
import Verif.Props.Losses
import Verif.Props.Parts

/-! The rotation over the providers comes round: C91. -/

namespace LS
open Spec Demo

/-- The delegation batches among `ops`, started in `w`, that send something to somebody. -/
def Spec.delegationBatches : World → List Op → Nat
  | _, [] => 0
  | w, .delegatePending c o :: ops =>
    (if (exec w (.delegatePending c o)).flights = w.flights then 0 else 1) + delegationBatches (exec w (.delegatePending c o)) ops
  | w, op :: ops => delegationBatches (exec w op) ops

/-- The un-delegation batches among `ops`, started in `w`, that ask something back from somebody. -/
def Spec.undelegationBatches : World → List Op → Nat
  | _, [] => 0
  | w, .unDelegatePending c o :: ops =>
    (if (exec w (.unDelegatePending c o)).flights = w.flights then 0 else 1) +
      undelegationBatches (exec w (.unDelegatePending c o)) ops
  | w, op :: ops => undelegationBatches (exec w op) ops

private theorem all_ahead {l l1 l2 b : List Addr} {p : Addr} {P : List Addr → Prop} (hP : ∀ a m, P (a ++ m) → P a)
    (hl : l = l1 ++ p :: l2) (hn : ¬ P l1) (hb : ∀ q ∈ b, ∃ a1 a2, l = a1 ++ q :: a2 ∧ P a1) : ∀ q ∈ b, q ∈ l1 := by
  intro q hq
  obtain ⟨a1, a2, h1, h2⟩ := hb q hq
  rw [hl] at h1
  rcases List.append_eq_append_iff.1 h1 with ⟨m, h3, h4⟩ | ⟨m, h3, h4⟩
  · exact absurd (hP _ _ (h3 ▸ h2)) hn
  · cases m with
    | nil =>
      rw [List.append_nil] at h3
      exact absurd (h3 ▸ h2) hn
    | cons y m =>
      simp only [List.cons_append, List.cons.injEq] at h4
      rw [h3, h4.1]
      simp

private theorem step_forward {l l1 l2 b : List Addr} {p : Addr} (hl : l = l1 ++ p :: l2) (hp : p ∉ l1) (hb : ∀ q ∈ b, q ∈ l1) :
    (l.filter (fun x => x ∉ b) ++ b).idxOf p + (if b = [] then 0 else 1) ≤ l.idxOf p := by
  have hpb : p ∉ b := fun h => hp (hb p h)
  have h1 : l.idxOf p = l1.length := by rw [hl, List.idxOf_append_of_notMem hp, List.idxOf_cons_self]; rfl
  have hpf : p ∉ l1.filter (fun x => x ∉ b) := fun h => hp (List.mem_filter.1 h).1
  have h2 : (l.filter (fun x => x ∉ b) ++ b).idxOf p = (l1.filter (fun x => x ∉ b)).length := by
    rw [hl, List.filter_append, List.filter_cons_of_pos (by simpa using hpb), List.append_assoc,
      List.idxOf_append_of_notMem hpf, List.cons_append, List.idxOf_cons_self]; rfl
  rw [h1, h2]
  cases b with
  | nil => simp
  | cons q b =>
    rw [if_neg (by simp)]
    have hq := hb q (by simp)
    have hlt : (l1.filter (fun x => x ∉ q :: b)).length < l1.length := by
      refine Nat.lt_of_le_of_ne (List.length_filter_le _ _) fun he => ?_
      have := List.length_filter_eq_length_iff.1 he q hq
      simp at this
    omega

private theorem batch_forward {l b : List Addr} {p : Addr} {P : List Addr → Prop} (hP : ∀ a m, P (a ++ m) → P a) (hp : p ∈ l)
    (hn : ¬ ∃ l1 l2, l = l1 ++ p :: l2 ∧ P l1) (hb : ∀ q ∈ b, ∃ a1 a2, l = a1 ++ q :: a2 ∧ P a1) :
    (l.filter (fun x => x ∉ b) ++ b).idxOf p + (if b = [] then 0 else 1) ≤ l.idxOf p := by
  obtain ⟨l1, l2, hl, hp1⟩ := List.eq_append_cons_of_mem hp
  exact step_forward hl hp1 (all_ahead hP hl (fun h => hn ⟨l1, l2, hl, h⟩) hb)

/-- Nothing but its own batches moves an order, except that newcomers are appended. -/
private theorem order_kept {w w' : World} {op : Op} (hr : Reachable w) (h : step w op = .ok w') :
    ((∀ c o, op ≠ .delegatePending c o) → ∃ m, w'.st.delegList = w.st.delegList ++ m) ∧
    ((∀ c o, op ≠ .unDelegatePending c o) → ∃ m, w'.st.undelegList = w.st.undelegList ++ m) := by
  have hins : ∀ (l : List Addr) (p : Addr), ∃ m, setInsert l p = l ++ m := by
    intro l p
    unfold setInsert
    split
    · exact ⟨[], by simp⟩
    · exact ⟨[p], rfl⟩
  by_cases hx : ∃ i p x u r s, op = .deliver i (.ok r s) ∧ w.flights[i]? = some (.whitelist p x u)
  · obtain ⟨i, p, x, u, r, s, rfl, hf⟩ := hx
    obtain ⟨f, hf', hcb | ⟨_, rfl⟩⟩ := deliver_ok h
    · rw [hf] at hf'
      cases hf'
      obtain ⟨t, d, l, _, _, _, rfl⟩ := whitelistCb_true_ok.1 hcb
      exact ⟨fun _ => hins _ _, fun _ => hins _ _⟩
    · exact ⟨fun _ => ⟨[], by simp [arrive]⟩, fun _ => ⟨[], by simp [arrive]⟩⟩
  · have hd : ∀ i o f, op = .deliver i o → w.flights[i]? = some f →
        .delegOrder ∉ callbackParts w f o ∧ .undelegOrder ∉ callbackParts w f o := by
      rintro i o f rfl hf
      cases f <;> cases o <;> simp [callbackParts]
      · exact hx ⟨_, _, _, _, _, _, rfl, hf⟩
      · split <;> simp
    constructor <;> intro ho <;> refine ⟨[], ?_⟩ <;> rw [List.append_nil]
    · refine parts_step hr h .delegOrder ?_
      cases op with
      | deliver i o =>
        simp only [touched]
        cases hf : w.flights[i]? with
        | none => simp
        | some f => exact (hd i o f rfl hf).1
      | delegatePending c o => exact absurd rfl (ho c o)
      | owner c cmd => cases cmd <;> simp [touched, settingOf]
      | _ => simp [touched, positionParts] <;> try split <;> simp
    · refine parts_step hr h .undelegOrder ?_
      cases op with
      | deliver i o =>
        simp only [touched]
        cases hf : w.flights[i]? with
        | none => simp
        | some f => exact (hd i o f rfl hf).2
      | unDelegatePending c o => exact absurd rfl (ho c o)
      | owner c cmd => cases cmd <;> simp [touched, settingOf]
      | _ => simp [touched, positionParts] <;> try split <;> simp

/-- **C32**, nothing else moves an order: apart from its own batches an order changes only by a newcomer put last in both. -/
theorem C32_nothing_else {w w' : World} {op : Op} (hr : Reachable w) (h : step w op = .ok w') :
    ((∀ c o, op ≠ .delegatePending c o) → w'.st.delegList = w.st.delegList ∨
      ∃ p, p ∉ w.st.delegList ∧ w'.st.delegList = w.st.delegList ++ [p] ∧ w'.st.undelegList = w.st.undelegList ++ [p]) ∧
    ((∀ c o, op ≠ .unDelegatePending c o) → w'.st.undelegList = w.st.undelegList ∨
      ∃ p, p ∉ w.st.delegList ∧ w'.st.delegList = w.st.delegList ++ [p] ∧ w'.st.undelegList = w.st.undelegList ++ [p]) := by
  obtain ⟨n1, n2, n3, _⟩ := C31_lists_consistent (hr.step op h)
  obtain ⟨_, _, k3, _⟩ := C31_lists_consistent hr
  have hnew : ∀ {l l' m : List Addr} {p : Addr}, l'.Nodup → l' = l ++ p :: m → p ∉ l ∧ p ∈ l' := by
    rintro l _ m p hn rfl
    exact ⟨fun hp => (List.nodup_append.1 hn).2.2 p hp p (by simp) rfl, by simp⟩
  constructor <;> intro ho
  · obtain ⟨m, hm⟩ := (order_kept hr h).1 ho
    cases m with
    | nil => exact .inl (by rw [hm, List.append_nil])
    | cons p m =>
      obtain ⟨h1, h2⟩ := hnew n1 hm
      exact .inr ⟨p, h1, C32_newcomer_last hr h h1 h2⟩
  · obtain ⟨m, hm⟩ := (order_kept hr h).2 ho
    cases m with
    | nil => exact .inl (by rw [hm, List.append_nil])
    | cons p m =>
      obtain ⟨h1, h2⟩ := hnew n2 hm
      have h1' := fun hp => h1 ((k3 p).1 hp)
      exact .inr ⟨p, h1', C32_newcomer_last hr h h1' ((n3 p).2 h2)⟩

/-- A deposit, a redemption and a new fee leave both orders alone; a newcomer comes last in both. -/
example : (run providers [.delegate 7 (E 10), .owner 1 (.fees 300)]).st.delegList = [21, 22] ∧
    (run providers [.delegate 7 (E 10), .delegatePending 1 none]).st.undelegList = [21, 22] ∧
    (run providers [.whitelist 1 (E 1) 23 41 0 0 10 800, .deliver 0 (.ok 0 0)]).st.undelegList = [21, 22, 23] := by
  decide +kernel

private theorem few_ahead {w : World} {A : Nat} (a m : List Addr)
    (h : ((a ++ m).filter (openTo w)).length < howMany w A w.st.delegList.length) :
    (a.filter (openTo w)).length < howMany w A w.st.delegList.length := by
  rw [List.filter_append, List.length_append] at h
  omega

private theorem little_ahead {w : World} {A : Nat} (a m : List Addr)
    (h : ((a ++ m).filter fun q => decide (0 < netStake w q)).length < w.st.maxSelectedProviders ∧
      (((a ++ m).filter fun q => decide (0 < netStake w q)).length < howMany w A w.st.undelegList.length ∨
        expectedOf w A ((a ++ m).filter fun q => decide (0 < netStake w q)) < A)) :
    (a.filter fun q => decide (0 < netStake w q)).length < w.st.maxSelectedProviders ∧
      ((a.filter fun q => decide (0 < netStake w q)).length < howMany w A w.st.undelegList.length ∨
        expectedOf w A (a.filter fun q => decide (0 < netStake w q)) < A) := by
  rw [List.filter_append, List.length_append, expectedOf, List.map_append, List.sum_append] at h
  unfold expectedOf
  omega

private theorem deleg_batch {w w' : World} {c : Addr} {o : Option Nat} {p : Addr} (hr : Reachable w)
    (h : step w (.delegatePending c o) = .ok w') (hn : w.st.delegList.length < 2 ^ 32) (hp : p ∈ w.st.delegList)
    (hl : ¬ LooksAt w (batchAsked (pendingEgld w) o) p) :
    (if w'.flights = w.flights then 0 else 1) + w'.st.delegList.idxOf p ≤ w.st.delegList.idxOf p := by
  obtain ⟨b, hb⟩ : ∃ b, w'.flights = w.flights ++ delegations b := by
    obtain ⟨_, _, hm, t, amt, sels, left, E, D, _, hamt, hsum, hsub, htar, hE, hE', hD, _, _, rfl⟩ := delegatePending_ok h
    exact ⟨batchOf sels, by rw [← delegations_eq]; rfl⟩
  have hs := (C45_complete hr h hb hn).1
  rw [((C32_round_robin hr).1 h hb).1]
  have := batch_forward few_ahead hp hl fun q hq => (mem_candidates_iff.1 (hs.subset hq)).2
  have hif : w'.flights = w.flights ↔ b.map Prod.fst = [] := by
    rw [hb]
    cases b <;> simp [delegations]
  simp only [hif]
  omega

private theorem undeleg_batch {w w' : World} {c : Addr} {o : Option Nat} {p : Addr} (hr : Reachable w)
    (h : step w (.unDelegatePending c o) = .ok w') (hm : w.st.maxSelectedProviders < 2 ^ 32) (hp : p ∈ w.st.undelegList)
    (hl : ¬ LooksBackAt w (batchAsked (toUndelegate w) o) p) :
    (if w'.flights = w.flights then 0 else 1) + w'.st.undelegList.idxOf p ≤ w.st.undelegList.idxOf p := by
  obtain ⟨b, hb⟩ : ∃ b, w'.flights = w.flights ++ undelegations b := by
    obtain ⟨_, _, hm, t, amt, sels, left, E, D, _, hamt, hsum, hsub, htar, hE, hD, _, _, rfl⟩ := unDelegatePending_ok h
    exact ⟨batchOf sels, by rw [← undelegations_eq]; rfl⟩
  obtain ⟨k, hk, _, _, hs⟩ := C54_givers hr h hb hm rfl
  rw [((C32_round_robin hr).2 h hb).1]
  have := batch_forward little_ahead hp hl fun q hq => ((mem_givers_iff hk).1 (hs.subset hq)).2
  have hif : w'.flights = w.flights ↔ b.map Prod.fst = [] := by
    rw [hb]
    cases b <;> simp [undelegations]
  simp only [hif]
  omega

private theorem exec_cases (w : World) (op : Op) : exec w op = w ∨ step w op = .ok (exec w op) := by
  unfold exec
  cases step w op <;> simp

private theorem order_exec {w : World} {op : Op} (hr : Reachable w) :
    ((∀ c o, op ≠ .delegatePending c o) → ∃ m, (exec w op).st.delegList = w.st.delegList ++ m) ∧
    ((∀ c o, op ≠ .unDelegatePending c o) → ∃ m, (exec w op).st.undelegList = w.st.undelegList ++ m) := by
  rcases exec_cases w op with h | h
  · rw [h]
    exact ⟨fun _ => ⟨[], by simp⟩, fun _ => ⟨[], by simp⟩⟩
  · exact order_kept hr h

private theorem later_run {w : World} : ∀ ops, Later w (run w ops) := by
  have key : ∀ (ops : List Op) {w1 : World}, Later w w1 → Later w (run w1 ops) := by
    intro ops
    induction ops with
    | nil => intro w1 h; exact h
    | cons op ops ih =>
      intro w1 h
      refine ih ?_
      rcases exec_cases w1 op with he | he
      · rw [he]; exact h
      · exact .snoc op h he trivial
  exact fun ops => key ops .nil

private theorem length_run {w : World} (hr : Reachable w) (ops : List Op) :
    w.st.delegList.length ≤ (run w ops).st.delegList.length :=
  ((C31_lists_consistent hr).1.subperm fun _ h => (C31_never_removed hr (later_run ops) h).1).length_le

/-- **C91**, delegation: among any transactions, by anybody and with any answers, containing more delegation batches that send
something than there are providers before `p` in the rotation, one of the batches looks at `p`. -/
theorem C91_turn {w : World} {p : Addr} (hr : Reachable w) (hp : p ∈ w.st.delegList) (ops : List Op)
    (hn : (run w ops).st.delegList.length < 2 ^ 32) (h : w.st.delegList.idxOf p < delegationBatches w ops) :
    ∃ ops1 c o ops2, ops = ops1 ++ .delegatePending c o :: ops2 ∧ works (run w ops1) (.delegatePending c o) = true ∧
      LooksAt (run w ops1) (batchAsked (pendingEgld (run w ops1)) o) p := by
  induction ops generalizing w with
  | nil => exact absurd h (Nat.not_lt_zero _)
  | cons op ops ih =>
    have hr1 := reachable_exec hr op
    have hp1 : p ∈ (exec w op).st.delegList := (C31_never_removed hr (later_run [op]) hp).1
    suffices hs : (∃ c o, op = .delegatePending c o ∧ works w op = true ∧ LooksAt w (batchAsked (pendingEgld w) o) p) ∨
        (exec w op).st.delegList.idxOf p < delegationBatches (exec w op) ops by
      rcases hs with ⟨c, o, rfl, h1, h2⟩ | hlt
      · exact ⟨[], c, o, ops, rfl, h1, h2⟩
      · obtain ⟨ops1, c, o, ops2, h1, h2, h3⟩ := ih hr1 hp1 hn hlt
        exact ⟨op :: ops1, c, o, ops2, by rw [h1]; rfl, h2, h3⟩
    by_cases hd : ∃ c o, op = .delegatePending c o
    · obtain ⟨c, o, rfl⟩ := hd
      simp only [delegationBatches] at h
      rcases exec_cases w (.delegatePending c o) with he | he
      · right
        rw [he] at h ⊢
        simpa using h
      · by_cases hl : LooksAt w (batchAsked (pendingEgld w) o) p
        · exact .inl ⟨c, o, rfl, works_iff.2 ⟨_, he⟩, hl⟩
        · have := deleg_batch hr he (Nat.lt_of_le_of_lt (length_run hr (_ :: ops)) hn) hp hl
          exact .inr (by omega)
    · have hd' : ∀ c o, op ≠ .delegatePending c o := fun c o he => hd ⟨c, o, he⟩
      obtain ⟨m, hm⟩ := (order_exec (op := op) hr).1 hd'
      right
      rw [hm, List.idxOf_append_of_mem hp]
      have : delegationBatches w (op :: ops) = delegationBatches (exec w op) ops := by
        cases op <;> first | rfl | exact absurd rfl (hd' _ _)
      omega

/-- Provider 22 comes second; in between a user redeems and the rotation moves: the first batch of one EGLD looks at provider 21
alone, the second at provider 22. -/
example : Reachable deposited ∧ 22 ∈ deposited.st.delegList ∧ deposited.st.delegList.idxOf 22 = 1 ∧
    delegationBatches deposited [.delegatePending 1 (some (E 1)), .unDelegate 11 0 [⟨500, 0, E 40⟩], .delegatePending 1 (some (E 1))] = 2 ∧
    candidates deposited (E 1) = [21] ∧
    candidates (run deposited [.delegatePending 1 (some (E 1)), .unDelegate 11 0 [⟨500, 0, E 40⟩]]) (E 1) = [22] :=
  ⟨deposited_reachable, by decide +kernel, by decide +kernel, by decide +kernel, by decide +kernel, by decide +kernel⟩

/-- **C91**, what a turn is worth: an open provider a batch looks at gets at least its share of the batch, unless that share or
the room it has is below one EGLD. -/
theorem C91_worth {w w' : World} {c : Addr} {o : Option Nat} {b : List (Addr × Nat)} {cfg : ScoringConfig} (hr : Reachable w)
    (h : step w (.delegatePending c o) = .ok w') (hb : w'.flights = w.flights ++ delegations b)
    (hn : w.st.delegList.length < 2 ^ 32) (hcfg : w.st.scoring = some cfg) {A : Nat} (hA : A = batchAsked (pendingEgld w) o)
    {l : List Addr} (hl : l = candidates w A) (hT : 0 < scoresOf w cfg l) {p : Addr} (hp : LooksAt w A p)
    (ho : openTo w p = true) :
    (∃ a, (p, a) ∈ b ∧ withinRoom w p (fairShare w cfg l A p) ≤ a) ∨ withinRoom w p (fairShare w cfg l A p) < oneEgld := by
  obtain ⟨h1, h2, _⟩ := C45_fair_shares hr h hb hn hcfg hA hl hT
  by_cases hx : oneEgld ≤ withinRoom w p (fairShare w cfg l A p)
  · left
    have hm : p ∈ b.map Prod.fst := by
      rw [h1]
      exact List.mem_filter.2 ⟨by rw [hl]; exact mem_candidates_iff.2 ⟨ho, hp⟩, decide_eq_true hx⟩
    obtain ⟨⟨q, a⟩, hqa, rfl⟩ := List.mem_map.1 hm
    exact ⟨a, hqa, h2 q a hqa⟩
  · right; omega

/-- A turn can be worth nothing: provider 21 is open and first in line, but of two EGLD its share is below one, so batch after
batch goes to provider 22 alone and provider 21 stays first. -/
theorem C91_worth_nothing :
    let ops : List Op := [.delegatePending 1 (some (E 2)), .delegatePending 1 (some (E 2)), .delegatePending 1 (some (E 2))]
    Reachable deposited ∧ deposited.st.delegList = [21, 22] ∧ openTo deposited 21 = true ∧ delegationBatches deposited ops = 3 ∧
    (run deposited ops).flights = delegations [(22, E 2), (22, E 2), (22, E 2)] ∧ (run deposited ops).st.delegList = [21, 22] ∧
    openTo (run deposited ops) 21 = true :=
  ⟨deposited_reachable, by decide +kernel, by decide +kernel, by decide +kernel, by decide +kernel, by decide +kernel,
    by decide +kernel⟩

/-- **C91**, un-delegation: the same for the order in which providers are asked for stake back. -/
theorem C91_turn_back {w : World} {p : Addr} (hr : Reachable w) (hp : p ∈ w.st.undelegList) (ops : List Op)
    (hm : ∀ ops1 ops2, ops = ops1 ++ ops2 → (run w ops1).st.maxSelectedProviders < 2 ^ 32)
    (h : w.st.undelegList.idxOf p < undelegationBatches w ops) :
    ∃ ops1 c o ops2, ops = ops1 ++ .unDelegatePending c o :: ops2 ∧ works (run w ops1) (.unDelegatePending c o) = true ∧
      LooksBackAt (run w ops1) (batchAsked (toUndelegate (run w ops1)) o) p := by
  induction ops generalizing w with
  | nil => exact absurd h (Nat.not_lt_zero _)
  | cons op ops ih =>
    have hr1 := reachable_exec hr op
    have hp1 : p ∈ (exec w op).st.undelegList :=
      (C31_never_removed hr (later_run [op]) (((C31_lists_consistent hr).2.2.1 p).2 hp)).2.1
    suffices hs : (∃ c o, op = .unDelegatePending c o ∧ works w op = true ∧ LooksBackAt w (batchAsked (toUndelegate w) o) p) ∨
        (exec w op).st.undelegList.idxOf p < undelegationBatches (exec w op) ops by
      rcases hs with ⟨c, o, rfl, h1, h2⟩ | hlt
      · exact ⟨[], c, o, ops, rfl, h1, h2⟩
      · obtain ⟨ops1, c, o, ops2, h1, h2, h3⟩ := ih hr1 hp1 (fun a b hab => hm (op :: a) b (by rw [hab]; rfl)) hlt
        exact ⟨op :: ops1, c, o, ops2, by rw [h1]; rfl, h2, h3⟩
    by_cases hd : ∃ c o, op = .unDelegatePending c o
    · obtain ⟨c, o, rfl⟩ := hd
      simp only [undelegationBatches] at h
      rcases exec_cases w (.unDelegatePending c o) with he | he
      · right
        rw [he] at h ⊢
        simpa using h
      · by_cases hl : LooksBackAt w (batchAsked (toUndelegate w) o) p
        · exact .inl ⟨c, o, rfl, works_iff.2 ⟨_, he⟩, hl⟩
        · have := undeleg_batch hr he (hm [] _ rfl) hp hl
          exact .inr (by omega)
    · have hd' : ∀ c o, op ≠ .unDelegatePending c o := fun c o he => hd ⟨c, o, he⟩
      obtain ⟨m, hm⟩ := (order_exec (op := op) hr).2 hd'
      right
      rw [hm, List.idxOf_append_of_mem hp]
      have : undelegationBatches w (op :: ops) = undelegationBatches (exec w op) ops := by
        cases op <;> first | rfl | exact absurd rfl (hd' _ _)
      omega

/-- Provider 21 is asked for one EGLD and refuses; the next batch asks provider 22, which came second. -/
example : Reachable redeemed ∧ 22 ∈ redeemed.st.undelegList ∧ redeemed.st.undelegList.idxOf 22 = 1 ∧
    undelegationBatches redeemed [.unDelegatePending 1 (some (E 1)), .deliver 0 .err, .unDelegatePending 1 (some (E 1))] = 2 ∧
    (run redeemed [.unDelegatePending 1 (some (E 1))]).flights = undelegations [(21, E 1)] ∧
    (run redeemed [.unDelegatePending 1 (some (E 1)), .deliver 0 .err, .unDelegatePending 1 (some (E 1))]).flights =
      undelegations [(22, E 1)] :=
  ⟨redeemed_reachable, by decide +kernel, by decide +kernel, by decide +kernel, by decide +kernel, by decide +kernel⟩

end LS
