import Verif.Props.Parts
import Verif.Props.Batch
import Verif.Props.Access
import Verif.Props.Callbacks

/-! C116: providers that are closed to delegations. -/

namespace LS
open Spec Demo

/-- A listed provider that is not to receive delegations. -/
def Spec.ShutOut (w : World) (p : Addr) : Prop := p ∈ w.st.delegList ∧ ∃ d, provider w p = some d ∧ d.eligible = false

/-- What is staked at `p` and on its way there. -/
def Spec.exposure (w : World) (p : Addr) : Nat := figure (·.staked) w p + figure (·.pStake) w p

/-- No new declaration is made for `p`. -/
def Spec.NoWord (p : Addr) (_ : World) (op : Op) (_ : World) : Prop := ∀ c ts cap n apy e, op ≠ .changeParams c p ts cap n apy e

/-! ### Proofs -/

private theorem exposure_le {w w' : World} {p : Addr} {d d' : ProviderData} (h : provider w p = some d) (h' : provider w' p = some d')
    (hle : d'.staked + d'.pStake ≤ d.staked + d.pStake) : exposure w' p ≤ exposure w p := by
  unfold exposure figure; rw [h, h']; exact hle

private theorem not_selected {w : World} {p : Addr} {sels : List Selection} (hc : ShutOut w p) (h : ∀ s ∈ sels, DelegTarget w.st s) :
    p ∉ sels.map Selection.address := by
  obtain ⟨_, d, hd, he⟩ := hc
  intro hm
  obtain ⟨s, hs, rfl⟩ := List.mem_map.1 hm
  obtain ⟨d', hd', he', _⟩ := h s hs
  have hd : w.st.data.get none s.address = some d := hd
  rw [hd] at hd'; cases hd'
  rw [he] at he'; cases he'

private theorem closed_eligible {w w' : World} {p : Addr} {op : Op} (hr : Reachable w) (hc : ShutOut w p) (hu : NoWord p w op w')
    (hs : step w op = .ok w') : ShutOut w' p := by
  have hr0 : RegOk w.st.lsToken w.st.unstakeToken w.st.delegList w.st.undelegList w.st.data w.flights w.dead := reachable_regInv hr
  obtain ⟨hp, d, hd, he⟩ := hc
  obtain ⟨hp', _, d', hd'⟩ := C31_never_removed hr (.snoc op .nil hs trivial) hp
  refine ⟨hp', d', hd', ?_⟩
  by_cases h2 : ∃ i a, op = .deliver i .err ∧ w.flights[i]? = some (.delegate p a)
  · obtain ⟨i, a, rfl, hf⟩ := h2
    obtain ⟨w2, d2, h2, h3, h4, h5, h6, h7, h8, _⟩ := C22_failed_delegation hr hf
    rw [h2] at hs; cases hs
    rw [h8] at hd'; cases hd'; rfl
  have hkey : .eligible p ∉ touched w op := by
    cases op with
    | deliver i o =>
      simp only [touched]
      cases hf : w.flights[i]? with
      | none => simp
      | some f =>
        cases f with
        | whitelist q v u =>
          have hq : p ≠ q := fun h => (hr0.wl2 q v u (List.mem_of_getElem? hf)).1 (h ▸ hp)
          cases o <;> simp only [callbackParts]
          · simp
          · split <;> simp [hq]
        | delegate q a =>
          cases o with
          | ok r x => simp [callbackParts]
          | err =>
            have hq : p ≠ q := fun h => h2 ⟨i, a, rfl, h ▸ hf⟩
            simp [callbackParts, hq]
        | _ => cases o <;> simp [callbackParts]
    | whitelist c v q ad ts cap n apy =>
      have hq : p ≠ q := fun h => hr0.recd p hp (h ▸ (whitelist_ok hs).2.2.2.2.1)
      simp [touched, hq]
    | changeParams c q ts cap n apy e =>
      have hq : p ≠ q := fun h => hu c ts cap n apy e (by rw [h])
      simp [touched, hq]
    | owner c cmd => cases cmd <;> simp [touched, settingOf]
    | _ => simp [touched, positionParts] <;> try split <;> simp
  have hel : (provider w' p).map (·.eligible) = (provider w p).map (·.eligible) := C64_only_its_parts hr hs _ hkey
  rw [hd, hd'] at hel
  simp only [Option.map_some, Option.some.injEq] at hel
  rw [hel, he]

private theorem closed_exposure {w w' : World} {p : Addr} {op : Op} (hr : Reachable w) (hc : ShutOut w p) (hs : step w op = .ok w') :
    exposure w' p ≤ exposure w p := by
  have hr0 : RegOk w.st.lsToken w.st.unstakeToken w.st.delegList w.st.undelegList w.st.data w.flights w.dead := reachable_regInv hr
  have hp := hc.1
  have same : Part.staked p ∉ touched w op → Part.inFlightStake p ∉ touched w op → exposure w' p ≤ exposure w p := by
    intro h1 h2
    have e1 : figure (·.staked) w' p = figure (·.staked) w p := C64_only_its_parts hr hs _ h1
    have e2 : figure (·.pStake) w' p = figure (·.pStake) w p := C64_only_its_parts hr hs _ h2
    unfold exposure
    omega
  cases op with
  | delegatePending c o =>
    obtain ⟨_, _, hm, t, amt, sels, left, E, D, _, _, _, hsub, htar, _, _, hD, _, _, rfl⟩ := delegatePending_ok hs
    have h0 := selAt_eq_zero (not_selected hc htar)
    obtain ⟨_, d, hd, _⟩ := hc
    have hd' : w.st.data.get none p = some d := hd
    have h1 := hD p
    rw [hd', h0] at h1
    exact exposure_le hd (d' := { d with pStake := d.pStake + 0 }) h1 (Nat.le_refl _)
  | deliver i o =>
    obtain ⟨f, hf, hcb⟩ := deliver_ok hs
    cases f with
    | whitelist q v u =>
      have hq : p ≠ q := fun h => (hr0.wl2 q v u (List.mem_of_getElem? hf)).1 (h ▸ hp)
      refine same ?_ ?_ <;> simp only [touched, hf] <;> cases o <;> simp only [callbackParts] <;> (try split) <;> simp [hq]
    | withdraw q => refine same ?_ ?_ <;> simp only [touched, hf] <;> cases o <;> simp [callbackParts]
    | claim ps => refine same ?_ ?_ <;> simp only [touched, hf] <;> cases o <;> simp [callbackParts]
    | delegate q a =>
      by_cases hq : p = q
      · subst hq
        rcases hcb with hcb | ⟨_, rfl⟩
        · cases o with
          | ok g r =>
            obtain ⟨_, d, h1, h2, rfl⟩ := addLiquidityCb_true_ok.1 hcb
            exact exposure_le (d := d) h1 ((Map.get_set ..).trans (if_pos rfl)) (by simp only; omega)
          | err =>
            obtain ⟨w2, d2, h2, h3, h4, h5, h6, h7, h8, _⟩ := C22_failed_delegation hr hf
            rw [h2] at hs; cases hs
            exact exposure_le h3 h8 (by simp only; omega)
        · exact Nat.le_refl _
      · refine same ?_ ?_ <;> simp only [touched, hf] <;> cases o <;> simp [callbackParts, hq]
    | undelegate q a =>
      by_cases hq : p = q
      · subst hq
        cases o with
        | err => refine same ?_ ?_ <;> simp [touched, hf, callbackParts]
        | ok g r =>
          rcases hcb with hcb | ⟨_, rfl⟩
          · obtain ⟨t, d, _, h1, h2, h3, rfl⟩ := removeLiquidityCb_true_ok.1 hcb
            exact exposure_le (d := d) h1 ((Map.get_set ..).trans (if_pos rfl)) (by simp only; omega)
          · exact Nat.le_refl _
      · refine same ?_ ?_ <;> simp only [touched, hf] <;> cases o <;> simp [callbackParts, hq]
  | whitelist c v q ad ts cap n apy => exact same (by simp [touched]) (by simp [touched])
  | owner c cmd => exact same (by cases cmd <;> simp [touched, settingOf]) (by cases cmd <;> simp [touched, settingOf])
  | unDelegate c v ps =>
    exact same (by simp only [touched, positionParts]; split <;> simp) (by simp only [touched, positionParts]; split <;> simp)
  | issued i o =>
    refine same ?_ ?_ <;> simp only [touched] <;> split
    · split <;> simp
    · split <;> simp
    · simp
    · split <;> simp
    · split <;> simp
    · simp
  | _ => exact same (by simp [touched]) (by simp [touched])

/-! ### C116 -/

/-- **C116.** A closed provider stays closed until a new declaration is made for it, however long that takes and whatever else happens:
no batch of delegations includes it, and what is staked there and on its way there never grows. -/
theorem C116_stays_closed {w w' : World} {p : Addr} (hr : Reachable w) (hc : ShutOut w p) (ht : Trace (NoWord p) w w') :
    ShutOut w' p ∧ exposure w' p ≤ exposure w p ∧
    ∀ c o w'' a, step w' (.delegatePending c o) = .ok w'' → w''.flights.count (.delegate p a) = w'.flights.count (.delegate p a) := by
  have key : Reachable w' ∧ ShutOut w' p ∧ exposure w' p ≤ exposure w p := by
    induction ht with
    | nil => exact ⟨hr, hc, Nat.le_refl _⟩
    | snoc op _ hs hu ih =>
      obtain ⟨h1, h2, h3⟩ := ih
      exact ⟨.step op h1 hs, closed_eligible h1 h2 hu hs, Nat.le_trans (closed_exposure h1 h2 hs) h3⟩
  refine ⟨key.2.1, key.2.2, fun c o w'' a hs => ?_⟩
  obtain ⟨_, _, hm, t, amt, sels, left, E, D, _, _, _, hsub, htar, _, _, hD, _, _, rfl⟩ := delegatePending_ok hs
  show (w'.flights ++ sels.map (fun s => Flight.delegate s.address s.amount)).count _ = _
  have hno : Flight.delegate p a ∉ sels.map (fun s => Flight.delegate s.address s.amount) := ?_
  · rw [List.count_append, List.count_eq_zero.2 hno, Nat.add_zero]
  intro hmem
  obtain ⟨s, hs, e⟩ := List.mem_map.1 hmem
  cases e
  exact not_selected key.2.1 htar (List.mem_map.2 ⟨s, hs, rfl⟩)

/-- **C116**, how it happens: a provider that refuses a delegation is closed by the answer, in every state. -/
theorem C116_refusal_closes {w : World} (hr : Reachable w) {i : Nat} {p : Addr} {a : Nat} (hf : w.flights[i]? = some (.delegate p a)) :
    ∃ w', step w (.deliver i .err) = .ok w' ∧ ShutOut w' p := by
  obtain ⟨w', d, hs, _, _, _, _, _, h, _⟩ := C22_failed_delegation hr hf
  have hp : p ∈ w.st.delegList := (reachable_regInv hr).flt p a (.inl (List.mem_of_getElem? hf))
  exact ⟨w', hs, (C31_never_removed hr (.snoc _ .nil hs trivial) hp).1, _, h, rfl⟩

/-- **C116**, how it ends: the provider's own admin, a manager or the owner opens it again with one declaration, in every state, and
nobody else can. -/
theorem C116_reopen {w : World} {p c : Addr} {ts cap : Nat} {n apy : UInt64} (hc : ShutOut w p) :
    (∃ w', step w (.changeParams c p ts cap n apy true) = .ok w' ∧ ¬ ShutOut w' p) ↔
      c ≠ w.self ∧ (ts ≤ cap ∨ cap = 0) ∧ ((∃ d, provider w p = some d ∧ d.admin = c) ∨ c ∈ w.st.managers ∨ c = w.owner) := by
  obtain ⟨hp, d, hd, he⟩ := hc
  have hm : isManager w c = true ↔ c ∈ w.st.managers ∨ c = w.owner := by simp [isManager]
  constructor
  · rintro ⟨w', hs, _⟩
    obtain ⟨h1, h2, d', hd', h3, _⟩ := changeParams_ok.1 hs
    exact ⟨h1, h2, h3.imp (fun h => ⟨d', hd', h⟩) hm.1⟩
  · rintro ⟨h1, h2, h3⟩
    have h3 : d.admin = c ∨ isManager w c = true := by
      rcases h3 with ⟨d', hd', h⟩ | h
      · rw [hd] at hd'; cases hd'; exact .inl h
      · exact .inr (hm.2 h)
    refine ⟨_, changeParams_ok.2 ⟨h1, h2, d, hd, h3, rfl⟩, ?_⟩
    rintro ⟨_, d', hd', he'⟩
    have hd'' : (w.st.data.set p (some { d with totalStaked := ts, cap := cap, nrNodes := n, apy := apy, eligible := true })).get none p =
        some d' := hd'
    rw [Map.get_set, if_pos rfl] at hd''
    cases hd''
    cases he'

/-- Provider 21 has refused a delegation. -/
def refused : World := exec staked (.deliver 0 .err)

/-- Non-vacuity of `C116_refusal_closes`, `C116_stays_closed` and `C116_reopen`: the refusal, a deposit and a batch, which goes to the other
provider alone. -/
example : Reachable staked ∧ staked.flights[0]? = some (.delegate 21 1615627648148068116) ∧ Reachable refused ∧ ShutOut refused 21 ∧
    1 = refused.owner ∧ E 30 < exposure refused 21 ∧ ∃ w' a, Trace (NoWord 21) refused w' ∧ w'.flights = refused.flights ++ [.delegate 22 a] := by
  have hs : step staked (.deliver 0 .err) = .ok (exec staked (.deliver 0 .err)) := step_exec (by decide +kernel)
  have hr : Reachable refused := .step _ staked_reachable hs
  refine ⟨staked_reachable, by decide +kernel, hr, ?_, by decide +kernel, by decide +kernel,
    exec (exec refused (.delegate 12 (E 5))) (.delegatePending 1 none), 6615627648148068116,
    .snoc (.delegatePending 1 none) (.snoc (.delegate 12 (E 5)) .nil (step_exec (by decide +kernel)) nofun)
      (step_exec (by decide +kernel)) nofun, by decide +kernel⟩
  obtain ⟨w', hs', h⟩ := C116_refusal_closes staked_reachable (i := 0) (p := 21) (a := 1615627648148068116) (by decide +kernel)
  rw [hs] at hs'; cases hs'
  exact h

end LS
