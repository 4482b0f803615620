import Verif.Props.Parts
import Verif.Props.Accounting

/-! The record of a provider over a history: C109. -/

namespace LS
open Spec Demo

/-- What a provider has answered so far: stake it confirmed, stake it agreed to give back, EGLD it gave back. -/
structure Spec.Book where
  (confirmed agreed collected : Nat)
  deriving DecidableEq, Repr

/-- What the answer `o` to the call `f` enters in the book of `p`. -/
def Spec.answerOf (p : Addr) : Flight → Outcome → Book
  | .delegate q a, .ok _ _ => if q = p then ⟨a, 0, 0⟩ else ⟨0, 0, 0⟩
  | .whitelist q a _, .ok _ _ => if q = p then ⟨a, 0, 0⟩ else ⟨0, 0, 0⟩
  | .undelegate q a, .ok _ _ => if q = p then ⟨0, a, 0⟩ else ⟨0, 0, 0⟩
  | .withdraw q, .ok v _ => if q = p then ⟨0, 0, v⟩ else ⟨0, 0, 0⟩
  | .claim _, .ok _ _ => ⟨0, 0, 0⟩
  | _, .err => ⟨0, 0, 0⟩

/-- What a transaction enters: answers whose callback did not fail. -/
def Spec.entry (p : Addr) (w : World) (op : Op) (w' : World) : Book :=
  match op with
  | .deliver i o =>
    match w.flights[i]? with
    | some f => if w'.dead = w.dead then answerOf p f o else ⟨0, 0, 0⟩
    | none => ⟨0, 0, 0⟩
  | _ => ⟨0, 0, 0⟩

/-- A history, with the book of `p` kept along the way. -/
inductive Spec.Booked (p : Addr) : World → Book → Prop
  | init {w : World} : IsInit w → Booked p w ⟨0, 0, 0⟩
  | step {w w' : World} {b : Book} (op : Op) : Booked p w b → step w op = .ok w' →
      Booked p w' ⟨b.confirmed + (entry p w op w').confirmed, b.agreed + (entry p w op w').agreed,
        b.collected + (entry p w op w').collected⟩

/-- The balance of one transaction. -/
private def Balanced (p : Addr) (w w' : World) (e : Book) : Prop :=
  figure (·.staked) w' p + e.agreed = figure (·.staked) w p + e.confirmed ∧
  figure (·.unstaked) w' p + e.collected = figure (·.unstaked) w p + e.agreed

private theorem balanced_quiet {w w' : World} {op : Op} {p : Addr} (hr : Reachable w) (hs : step w op = .ok w')
    (h1 : .staked p ∉ touched w op) (h2 : .unstaked p ∉ touched w op) : Balanced p w w' ⟨0, 0, 0⟩ := by
  have e1 := C64_only_its_parts hr hs _ h1
  have e2 := C64_only_its_parts hr hs _ h2
  simp only [Same] at e1 e2
  exact ⟨by simpa using e1, by simpa using e2⟩

private theorem book_figure {w w' : World} {p q : Addr} {d' : ProviderData} (f : ProviderData → Nat)
    (h : w'.st.data = w.st.data.set q (some d')) : figure f w' p = if q = p then f d' else figure f w p := by
  unfold figure provider
  rw [h, Map.get_set]
  by_cases hq : q = p <;> simp [hq]

private theorem book_own {w : World} {q : Addr} {d : ProviderData} (f : ProviderData → Nat) (hd : w.st.data.get none q = some d) :
    figure f w q = f d := by
  unfold figure provider
  rw [hd]

private theorem balanced_set {w w' : World} {p q : Addr} {d d' : ProviderData} {e : Book} (hd : w.st.data.get none q = some d)
    (h : w'.st.data = w.st.data.set q (some d')) (h1 : d'.staked + e.agreed = d.staked + e.confirmed)
    (h2 : d'.unstaked + e.collected = d.unstaked + e.agreed) : Balanced p w w' (if q = p then e else ⟨0, 0, 0⟩) := by
  unfold Balanced
  rw [book_figure (·.staked) h, book_figure (·.unstaked) h]
  by_cases hq : q = p
  · subst hq
    rw [book_own (·.staked) hd, book_own (·.unstaked) hd]
    simp only [if_true]
    exact ⟨h1, h2⟩
  · simp [hq]

private theorem balanced_answer {w w' : World} {i : Nat} {o : Outcome} {p : Addr} (hr : Reachable w)
    (hs : step w (.deliver i o) = .ok w') : Balanced p w w' (entry p w (.deliver i o) w') := by
  obtain ⟨f, hf, hcb | ⟨_, rfl⟩⟩ := deliver_ok hs
  swap
  · simp only [entry, hf]
    rw [if_neg (by simp)]
    exact ⟨rfl, rfl⟩
  simp only [entry, hf]
  rw [if_pos (show w'.dead = w.dead from (runCallback_flights hcb).2)]
  have quiet : (∀ x, (x = .staked p ∨ x = .unstaked p) → x ∉ callbackParts w f o) → Balanced p w w' ⟨0, 0, 0⟩ := by
    intro h
    refine balanced_quiet hr hs ?_ ?_ <;> simp only [touched, hf]
    · exact h _ (.inl rfl)
    · exact h _ (.inr rfl)
  cases f with
  | delegate q a =>
    cases o with
    | ok g r =>
      obtain ⟨_, d, hd, _, rfl⟩ := addLiquidityCb_true_ok.1 hcb
      exact balanced_set (e := ⟨a, 0, 0⟩) hd rfl rfl rfl
    | err => exact quiet (by rintro x (rfl | rfl) <;> simp [callbackParts])
  | undelegate q a =>
    cases o with
    | ok g r =>
      obtain ⟨t, d, _, hd, h1, _, rfl⟩ := removeLiquidityCb_true_ok.1 hcb
      exact balanced_set (e := ⟨0, a, 0⟩) hd rfl (Nat.sub_add_cancel h1) rfl
    | err => exact quiet (by rintro x (rfl | rfl) <;> simp [callbackParts])
  | withdraw q =>
    cases o with
    | ok v r =>
      rcases withdrawTokensCb_ok.1 hcb with ⟨rfl, rfl⟩ | ⟨_, t, d, _, hd, h1, _, rfl⟩
      · simp only [answerOf, ite_self]
        exact ⟨rfl, rfl⟩
      · exact balanced_set (e := ⟨0, 0, v⟩) hd rfl rfl (Nat.sub_add_cancel h1)
    | err => exact quiet (by rintro x (rfl | rfl) <;> simp [callbackParts])
  | claim ps => cases o <;> exact quiet (by rintro x (rfl | rfl) <;> simp [callbackParts])
  | whitelist q a u =>
    cases o with
    | ok g r =>
      obtain ⟨t, d, l, _, hd, _, rfl⟩ := whitelistCb_true_ok.1 hcb
      exact balanced_set (e := ⟨a, 0, 0⟩) hd rfl rfl rfl
    | err => exact quiet (by rintro x (rfl | rfl) <;> simp only [callbackParts] <;> split <;> simp)

/-- **C109**, one transaction: stake and unbonding stake of a provider change by what it answers in it, and by nothing else. -/
theorem C109_step {w w' : World} {op : Op} (hr : Reachable w) (hs : step w op = .ok w') (p : Addr) :
    figure (·.staked) w' p + (entry p w op w').agreed = figure (·.staked) w p + (entry p w op w').confirmed ∧
    figure (·.unstaked) w' p + (entry p w op w').collected = figure (·.unstaked) w p + (entry p w op w').agreed := by
  show Balanced p w w' (entry p w op w')
  cases op with
  | deliver i o => exact balanced_answer hr hs
  | owner c cmd => refine balanced_quiet hr hs ?_ ?_ <;> cases cmd <;> simp [touched, settingOf]
  | _ =>
    refine balanced_quiet hr hs ?_ ?_ <;> simp [touched, positionParts] <;> try (split <;> simp)

/-- **C109.** Over any history the stake recorded for a provider and what it agreed to give back are together what it confirmed; the
stake recorded as unbonding and what was collected are together what it agreed to give back. -/
theorem C109_history {w : World} {p : Addr} {b : Book} (h : Booked p w b) :
    figure (·.staked) w p + b.agreed = b.confirmed ∧ figure (·.unstaked) w p + b.collected = b.agreed := by
  have key : Reachable w ∧ figure (·.staked) w p + b.agreed = b.confirmed ∧ figure (·.unstaked) w p + b.collected = b.agreed := by
    induction h with
    | init h =>
      obtain ⟨self, owner, contracts, epoch, funds, acc, fees, rpe, mr, ms, ma, ub, _, _, rfl⟩ := isInit_eq h
      exact ⟨.init h, rfl, rfl⟩
    | step op h hs ih =>
      refine ⟨.step _ ih.1 hs, ?_⟩
      have := C109_step ih.1 hs p
      dsimp only
      omega
  exact key.2

/-- Every reachable world has such a history. -/
theorem C109_history_exists {w : World} (hr : Reachable w) (p : Addr) : ∃ b, Booked p w b := by
  induction hr with
  | init h => exact ⟨_, .init h⟩
  | step op _ hs ih => obtain ⟨b, h⟩ := ih; exact ⟨_, .step op h hs⟩

/-- **C109**, in consequence: nothing is collected that was not agreed, and nothing agreed that was not confirmed. -/
theorem C109_in_order {w : World} {p : Addr} {b : Book} (h : Booked p w b) : b.collected ≤ b.agreed ∧ b.agreed ≤ b.confirmed := by
  have := C109_history h
  omega

/-- The book of `p` along a list of attempted transactions. -/
def Spec.keep (p : Addr) (w : World) (b : Book) : List Op → Book
  | [] => b
  | op :: ops =>
    match step w op with
    | .error _ => keep p w b ops
    | .ok w' => keep p w' ⟨b.confirmed + (entry p w op w').confirmed, b.agreed + (entry p w op w').agreed,
        b.collected + (entry p w op w').collected⟩ ops

theorem booked_keep {p : Addr} {w : World} {b : Book} (h : Booked p w b) (ops : List Op) :
    Booked p (run w ops) (keep p w b ops) := by
  induction ops generalizing w b with
  | nil => exact h
  | cons op ops ih =>
    show Booked p (run (exec w op) ops) _
    unfold keep exec
    cases hs : step w op with
    | error e => exact ih h
    | ok w' => exact ih (.step op h hs)

/-- The provider of the demonstration: it confirmed the 1 EGLD it was whitelisted with, 100 and 6.72 EGLD of rewards, agreed to give
back 42.66, and gave back 20. -/
example : Booked 22 (run fresh busy) ⟨107720000000000000000, 42661386138613861386, E 20⟩ ∧
    figure (·.staked) (run fresh busy) 22 = 65058613861386138614 ∧
    figure (·.unstaked) (run fresh busy) 22 = 22661386138613861386 := by
  have h := booked_keep (.init fresh_isInit) busy (p := 22)
  rw [show keep 22 fresh ⟨0, 0, 0⟩ busy = ⟨107720000000000000000, 42661386138613861386, E 20⟩ by decide +kernel] at h
  exact ⟨h, by decide +kernel, by decide +kernel⟩

end LS
