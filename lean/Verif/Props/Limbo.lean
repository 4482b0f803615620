import Verif.Props.Starve
import Verif.Props.Callbacks
import Verif.Props.Parts
import Verif.Proofs.Lists

/-! C29: what becomes of a whitelisting whose callback fails. -/

namespace LS
open Spec Demo

/-- The provider has a record, is on neither list, and no first delegation to it is under way. -/
structure Spec.InLimbo (w : World) (p : Addr) : Prop where
  recorded : provider w p ≠ none
  off : p ∉ w.st.delegList ∧ p ∉ w.st.undelegList
  idle : ∀ x u, Flight.whitelist p x u ∉ w.flights

theorem limbo_step {w w' : World} {op : Op} {p : Addr} (hr : Reachable w) (hs : step w op = .ok w') (h : InLimbo w p) : InLimbo w' p := by
  have hreg := reachable_regInv hr
  have hreg' : RegOk w'.st.lsToken w'.st.unstakeToken w'.st.delegList w'.st.undelegList w'.st.data w'.flights w'.dead :=
    regInv_step op hreg hs
  have hnot : ∀ i x u, w.flights[i]? ≠ some (Flight.whitelist p x u) := fun i x u hf => h.idle x u (List.mem_of_getElem? hf)
  have hlist : p ∉ w'.st.delegList := by
    intro h1
    obtain ⟨i, _, _, x, u, _, hf, _⟩ := C29_joins_partial hr hs h.off.1 h1
    exact hnot i x u hf
  have hrec : provider w' p ≠ none := by
    have hp : Part.listed p ∉ touched w op := by
      cases op with
      | whitelist c v q ad ts cap n apy =>
        have := (C29_once_partial hs).1
        have hne : p ≠ q := fun e => h.recorded (e ▸ this)
        simp [touched, hne]
      | deliver i o =>
        cases hf : w.flights[i]? with
        | none => simp [touched, hf]
        | some f =>
          cases f with
          | whitelist q x u =>
            have hne : p ≠ q := fun e => hnot i x u (e ▸ hf)
            cases o with
            | ok g r => simp [touched, hf, callbackParts]
            | err => simp only [touched, hf, callbackParts]; split_ifs <;> simp [hne]
          | _ => cases o <;> simp [touched, hf, callbackParts]
      | unDelegate c v ps => simp only [touched, positionParts]; split_ifs <;> simp
      | owner c cmd => cases cmd <;> simp [touched, settingOf]
      | issued i o =>
        simp only [touched]
        split <;> cases o <;> simp
      | _ => simp [touched]
    have hsame : (provider w' p).isSome = (provider w p).isSome := C64_only_its_parts hr hs (.listed p) hp
    intro e
    rw [e] at hsame
    exact h.recorded (Option.isSome_eq_false_iff.1 hsame.symm |> Option.isNone_iff_eq_none.1)
  refine ⟨hrec, ⟨hlist, fun hc => hlist ((hreg'.same p).2 hc)⟩, fun x u hm => ?_⟩
  have hst := fstep hreg hs
  generalize w'.flights = fl at hst hm
  generalize w'.dead = dd at hst
  cases hst with
  | same => exact h.idle x u hm
  | delegated c o sels hop _ => simp at hm; exact h.idle x u hm
  | undelegated c o sels hop _ => simp at hm; exact h.idle x u hm
  | withdrawn => simp at hm; exact h.idle x u hm
  | claimed => simp at hm; exact h.idle x u hm
  | whitelisted c v q ad ts cap n apy hop _ _ =>
    subst hop
    rcases List.mem_append.1 hm with hm | hm
    · exact h.idle x u hm
    · simp only [List.mem_singleton, Flight.whitelist.injEq] at hm
      exact h.recorded (hm.1 ▸ (C29_once_partial hs).1)
  | settled => exact h.idle x u (List.mem_of_mem_eraseIdx hm)
  | died => exact h.idle x u (List.mem_of_mem_eraseIdx hm)
  | starved => exact h.idle x u (List.mem_of_mem_eraseIdx hm)

/-- The loss of the callback of a whitelisting puts its provider in limbo. -/
theorem limbo_of_lost {w w' : World} {i : Nat} {p : Addr} {x : Nat} {u : Addr} (hr : Reachable w)
    (hf : w.flights[i]? = some (.whitelist p x u)) (hst : w'.st = w.st) (hfl : w'.flights = w.flights.eraseIdx i) : InLimbo w' p := by
  have hr0 : RegOk w.st.lsToken w.st.unstakeToken w.st.delegList w.st.undelegList w.st.data w.flights w.dead := reachable_regInv hr
  obtain ⟨hp, hd⟩ := hr0.wl2 p x u (List.mem_of_getElem? hf)
  refine ⟨?_, ?_, ?_⟩
  · unfold provider; rw [hst]; exact hd
  · rw [hst]; exact ⟨hp, fun h => hp ((hr0.same p).2 h)⟩
  · rw [hfl]
    intro y v hm
    have h1 := hr0.wl1 p
    rw [← (eraseIdx_perm hf).countP_eq, List.countP_cons, if_pos (by simp [isWl])] at h1
    have h3 : 0 < (w.flights.eraseIdx i).countP (isWl p) := List.countP_pos_iff.2 ⟨_, hm, by simp [isWl]⟩
    omega

/-- The record of a provider in limbo holds no figure, and whitelisting it again is refused to everybody. -/
theorem limbo_shut {w : World} {p : Addr} (hr : Reachable w) (h : InLimbo w p) :
    (figure (·.staked) w p = 0 ∧ figure (·.unstaked) w p = 0 ∧ figure (·.pStake) w p = 0 ∧ figure (·.pUnstake) w p = 0) ∧
    ∀ c v ad ts cap n apy, ¬ ∃ w', step w (.whitelist c v p ad ts cap n apy) = .ok w' := by
  have hr0 : RegOk w.st.lsToken w.st.unstakeToken w.st.delegList w.st.undelegList w.st.data w.flights w.dead := reachable_regInv hr
  refine ⟨?_, fun c v ad ts cap n apy ⟨w', hs⟩ => h.recorded (C29_once_partial hs).1⟩
  cases hd : provider w p with
  | none => exact absurd hd h.recorded
  | some d =>
    obtain ⟨z1, z2, z3, z4⟩ := hr0.zero p d hd h.off.1
    simp only [figure, hd]
    exact ⟨z1, z2, z3, z4⟩

theorem limbo_later {w w' : World} {p : Addr} (hr : Reachable w) (h : InLimbo w p) (hl : Later w w') : Reachable w' ∧ InLimbo w' p := by
  induction hl with
  | nil => exact ⟨hr, h⟩
  | snoc op _ hs _ ih => exact ⟨.step op ih.1 hs, limbo_step ih.1 hs ih.2⟩

/-- **C29**, where it fails, exactly.  The callback of a first delegation fails if and only if there is no LS token yet, or the delegation
succeeded and its amount would mint no token.  Then the caller gets neither EGLD nor LS tokens, and for ever after, whatever anybody does, the
provider keeps a record without figures, is on neither list, and cannot be whitelisted again. -/
theorem C29_limbo {w w1 : World} {i : Nat} {o : Outcome} {p : Addr} {x : Nat} {u : Addr} (hr : Reachable w)
    (hf : w.flights[i]? = some (.whitelist p x u)) (hs : step w (.deliver i o) = .ok w1) :
    (Flight.whitelist p x u ∈ w1.dead.drop w.dead.length ↔
      w.st.lsToken = none ∨ (o ≠ .err ∧ lsFor (supply w) (reserve w) x = 0)) ∧
    (Flight.whitelist p x u ∈ w1.dead.drop w.dead.length →
      egldOf w1 u = egldOf w u ∧ lsOf w1 u = lsOf w u ∧ supply w1 = supply w ∧ reserve w1 = reserve w ∧
      ∀ w', Later w1 w' → InLimbo w' p ∧
        (figure (·.staked) w' p = 0 ∧ figure (·.unstaked) w' p = 0 ∧ figure (·.pStake) w' p = 0 ∧ figure (·.pUnstake) w' p = 0) ∧
        ∀ c v ad ts cap n apy, ¬ ∃ w'', step w' (.whitelist c v p ad ts cap n apy) = .ok w'') := by
  obtain ⟨k1, k2⟩ := C67_callback_fails_iff hr hf hs
  have hu : u ≠ w.self := (reachable_wl hr p x u (List.mem_of_getElem? hf)).2
  have hiff : CallbackFails w (.whitelist p x u) o ↔ w.st.lsToken = none ∨ (o ≠ .err ∧ lsFor (supply w) (reserve w) x = 0) := by
    cases o <;> simp [CallbackFails]
  have hmem : Flight.whitelist p x u ∈ w1.dead.drop w.dead.length ↔ CallbackFails w (.whitelist p x u) o := by
    constructor
    · intro h
      by_contra hc
      rw [k2 hc] at h
      simp at h
    · intro h
      rw [(k1 h).1]
      simp
  refine ⟨hmem.trans hiff, fun h => ?_⟩
  have hc := hmem.1 h
  obtain ⟨g1, g2, g3, _⟩ := k1 hc
  have hfl : w1.flights = w.flights.eraseIdx i := by
    obtain ⟨f, hf', hcb | ⟨_, rfl⟩⟩ := deliver_ok hs
    · rw [hf] at hf'
      cases hf'
      exact (runCallback_flights hcb).1
    · rfl
  have hegld : egldOf w1 u = egldOf w u := by
    refine C64_only_its_parts hr hs (.egld u) ?_
    cases o with
    | ok g r => simp [touched, hf, callbackParts, hu]
    | err =>
      have hn : w.st.lsToken = none := hc
      simp [touched, hf, callbackParts, hn, hu]
  refine ⟨hegld, by unfold lsOf; rw [g3], by unfold supply; rw [g2], by unfold reserve; rw [g2], fun w' hl => ?_⟩
  obtain ⟨hr', h'⟩ := limbo_later (.step _ hr hs) (limbo_of_lost hr hf g2 hfl) hl
  exact ⟨h', limbo_shut hr' h'⟩

/-- **C29**, the same when the callback finds no gas: the provider is in limbo for ever. -/
theorem C29_limbo_gas {w w1 w' : World} {i : Nat} {o : Outcome} {p : Addr} {x : Nat} {u : Addr} (hr : Reachable w)
    (hf : w.flights[i]? = some (.whitelist p x u)) (hs : step w (.starve i o) = .ok w1) (hl : Later w1 w') :
    InLimbo w' p ∧ ∀ c v ad ts cap n apy, ¬ ∃ w'', step w' (.whitelist c v p ad ts cap n apy) = .ok w'' := by
  have e : w1.st = w.st ∧ w1.flights = w.flights.eraseIdx i := by
    obtain ⟨f, hf', rfl⟩ := starve_ok hs
    exact ⟨rfl, rfl⟩
  obtain ⟨hr', h'⟩ := limbo_later (.step _ hr hs) (limbo_of_lost hr hf e.1 e.2) hl
  exact ⟨h', (limbo_shut hr' h').2⟩

/-- A provider whitelisted before the token exists: the answer, either way, puts it in limbo, and there it is once the token is there. -/
example : ∃ w, Reachable w ∧ w.flights[0]? = some (.whitelist 21 (E 1) 1) ∧ w.st.lsToken = none ∧
    works w (.deliver 0 .err) = true ∧ works w (.deliver 0 (.ok 0 0)) = true ∧ works w (.starve 0 .err) = true ∧
    works (run w [.deliver 0 .err, .registerLsToken 1 0, .issued 0 (some 500)]) (.whitelist 1 (E 1) 21 41 0 0 10 800) = false ∧
    works (run w [.deliver 0 .err, .registerLsToken 1 0, .issued 0 (some 500)]) (.whitelist 1 (E 1) 22 41 0 0 10 800) = true :=
  ⟨run fresh [.whitelist 1 (E 1) 21 41 0 0 10 800], reachable_run (.init fresh_isInit) _, by decide +kernel, by decide +kernel,
    by decide +kernel, by decide +kernel, by decide +kernel, by decide +kernel, by decide +kernel⟩

end LS
