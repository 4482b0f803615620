import Verif.Spec.Roles
import Verif.Props.Config
import Verif.Props.Parts
import Verif.Props.Economy

/-! Roles: how they are given, passed on and lost: C73. -/

namespace LS
open Spec Demo

/-- **C73**, handing over.  The owner, and nobody else, can make any account the owner; nothing else changes. -/
theorem C73_handover {w w' : World} {c d : Addr} :
    step w (.changeOwner c d) = .ok w' ↔ c ≠ w.self ∧ c = w.owner ∧ w' = { w with owner := d } := changeOwner_ok

/-- **C73**, after the handover the new owner has all rights of the owner and of a manager, and the old owner has those of a manager
only when also named as one. -/
theorem C73_after_handover {w w' : World} {c d : Addr} (h : step w (.changeOwner c d) = .ok w') :
    IsManagerOf w' d ∧ (d ≠ w'.self → ∀ cmd, cmd ≠ .maxAddresses 0 → cmd ≠ .maxSelected 0 → ∃ w'', step w' (.owner d cmd) = .ok w'') ∧
    (∀ x, x ≠ d → (IsManagerOf w' x ↔ x ∈ w.st.managers) ∧ ∀ cmd, ¬ ∃ w'', step w' (.owner x cmd) = .ok w'') := by
  obtain ⟨_, _, rfl⟩ := changeOwner_ok.1 h
  refine ⟨.inr rfl, fun hd cmd h1 h2 => C47_setters_available cmd hd h1 h2, fun x hx => ⟨?_, fun cmd ⟨w'', h'⟩ => ?_⟩⟩
  · exact ⟨fun h => h.resolve_right hx, .inl⟩
  · exact hx (C25_privileged_calls h')

/-- Two records of a provider with the same admin. -/
theorem admin_same {w w' : World} {p : Addr} {d : ProviderData} (h : Same w w' (.admin p)) (hd : provider w' p = some d) :
    ∃ d0, provider w p = some d0 ∧ d0.admin = d.admin := by
  have h : (provider w' p).map (·.admin) = (provider w p).map (·.admin) := h
  rw [hd] at h
  cases h0 : provider w p with
  | none => rw [h0] at h; cases h
  | some d0 => rw [h0] at h; exact ⟨d0, rfl, (Option.some.inj h).symm⟩

/-- **C73**, an appointment: whoever has a role after a transaction and had none before is named in it, and it was sent by the owner or a
manager; by the owner unless the role is that of a provider's admin. -/
theorem C73_appointed {w w' : World} {op : Op} {x : Addr} (hr : Reachable w) (hs : step w op = .ok w') (h0 : Outsider w x)
    (h1 : ¬ Outsider w' x) :
    x ∈ names op ∧ ∃ c, callerOf op = some c ∧ IsManagerOf w c ∧
      (c = w.owner ∨ ∃ p d, provider w' p = some d ∧ d.admin = x ∧ ∀ d0, provider w p = some d0 → d0.admin ≠ x) := by
  obtain ⟨n1, n2, n3⟩ := h0
  have hc := C27_configuration hr hs
  obtain ⟨_, _, _, _, _, _, _, hmg, hmig, _, _, _, _, how, _⟩ := hc
  have hx : IsManagerOf w' x ∨ w'.st.migrationSc = some x ∨ ∃ p d, provider w' p = some d ∧ d.admin = x := by
    by_contra hn
    exact h1 ⟨fun h => hn (.inl h), fun h => hn (.inr (.inl h)), fun p d hd ha => hn (.inr (.inr ⟨p, d, hd, ha⟩))⟩
  rcases hx with (hx | hx) | hx | ⟨p, d, hd, ha⟩
  · rcases hmg with h | ⟨l, rfl, h⟩ | ⟨m, rfl, h⟩
    · rw [h] at hx; exact absurd (.inl hx) n1
    · rcases (h x).1 hx with h' | h'
      · exact absurd (.inl h') n1
      · exact ⟨h', _, rfl, .inr rfl, .inl rfl⟩
    · exact absurd (.inl ((h x).1 hx).1) n1
  · rcases how with h | rfl
    · rw [h] at hx; exact absurd (.inr hx) n1
    · exact ⟨by simp [names, hx], _, rfl, .inr rfl, .inl rfl⟩
  · rcases hmig with h | ⟨a, rfl, h⟩
    · rw [h] at hx; exact absurd hx n2
    · rw [h] at hx
      exact ⟨by simp [names, Option.some.inj hx], _, rfl, .inr rfl, .inl rfl⟩
  · have old : Part.admin p ∉ touched w op → False := fun hp => by
      obtain ⟨d0, e0, e1⟩ := admin_same (parts_step hr hs _ hp) hd
      exact n3 p d0 e0 (e1.trans ha)
    have hn : ∀ d0, provider w p = some d0 → d0.admin ≠ x := fun d0 h => n3 p d0 h
    have hau := C25_privileged_calls hs
    cases op with
    | whitelist c v q ad ts cap n apy =>
      by_cases hq : p = q
      · subst hq
        refine ⟨?_, c, rfl, hau, .inr ⟨p, d, hd, ha, hn⟩⟩
        obtain ⟨_, _, _, _, _, _, _, _, E, _, _, _, rfl⟩ := whitelist_ok hs
        have : (w.st.data.set p (some ⟨ad, ts, cap, n, apy, 0, 0, true, 0, 0⟩)).get none p = some d := hd
        rw [Map.get_set, if_pos rfl] at this
        have := Option.some.inj this
        subst this
        simp only [names, List.mem_singleton]; exact ha.symm
      · exact (old (by simp [touched, hq])).elim
    | changeAdmin c q a =>
      by_cases hq : p = q
      · subst hq
        refine ⟨?_, c, rfl, hau, .inr ⟨p, d, hd, ha, hn⟩⟩
        obtain ⟨_, _, d0, _, rfl⟩ := changeAdmin_ok.1 hs
        have : (w.st.data.set p (some { d0 with admin := a })).get none p = some d := hd
        rw [Map.get_set, if_pos rfl] at this
        have := Option.some.inj this
        subst this
        simp only [names, List.mem_singleton]; exact ha.symm
      · exact (old (by simp [touched, hq])).elim
    | deliver i o =>
      exfalso
      obtain ⟨f, hf, hcb⟩ := deliver_ok hs
      by_cases hp : Part.admin p ∈ touched w (.deliver i o)
      · simp only [touched, hf] at hp
        cases f with
        | whitelist q y u =>
          cases o with
          | ok g r => simp [callbackParts] at hp
          | err =>
            simp only [callbackParts] at hp
            split at hp
            · simp at hp
            · rename_i ht
              obtain rfl : p = q := by simpa using hp
              obtain ⟨w2, h2, h3, _⟩ := C29_refund_partial hr hf ht
              rw [h2] at hs
              cases hs
              rw [h3] at hd; cases hd
        | _ => cases o <;> simp [callbackParts] at hp
      · exact old hp
    | owner c cmd => exact (old (by cases cmd <;> simp [touched, settingOf])).elim
    | issued i o =>
      refine (old ?_).elim
      simp only [touched]; split <;> simp <;> split <;> simp
    | unDelegate c v ps =>
      refine (old ?_).elim
      simp only [touched, positionParts]; split <;> simp
    | _ => exact (old (by simp [touched])).elim

/-- **C73**, no way in.  As long as nobody outside a group of accounts without roles names one of them, they have no roles, whatever they do. -/
theorem C73_no_escalation {w w' : World} {B : Addr → Prop} (hr : Reachable w) (h0 : ∀ x, B x → Outsider w x)
    (ht : Trace (fun _ op _ => ∀ x, B x → x ∈ names op → ∃ c, callerOf op = some c ∧ B c) w w') : ∀ x, B x → Outsider w' x := by
  induction ht with
  | nil => exact h0
  | @snoc w1 w2 op ht hs hp ih =>
    intro x hx
    by_contra hn
    have hr1 := reachable_trace hr ht
    obtain ⟨h1, c, h2, h3, _⟩ := C73_appointed hr1 hs (ih x hx) hn
    obtain ⟨c', h4, h5⟩ := hp x hx h1
    rw [h2] at h4
    cases h4
    exact (ih c h5).1 h3

theorem mem_of_get {m : Map Addr (Option ProviderData)} {p : Addr} {d : ProviderData} (h : m.get none p = some d) : (p, some d) ∈ m := by
  induction m with
  | nil => cases h
  | cons e m ih =>
    obtain ⟨a, b⟩ := e
    simp only [Map.get] at h
    split at h
    · rename_i hk; subst hk; subst h; exact List.mem_cons_self
    · exact List.mem_cons_of_mem _ (ih h)

/-- Users 11, 12 and 13 try everything; 11 stays without a role until the owner names them. -/
def trying : List Op := [.owner 11 (.addManagers [11]), .changeOwner 12 11, .changeAdmin 13 21 11, .setMigrationSc 11 11, .delegate 11 (E 5),
  .addRewards 12 (E 1), .unDelegate 11 0 [⟨500, 0, E 2⟩]]

example : Reachable settled ∧ (∀ x : Addr, 11 ≤ x ∧ x ≤ 13 → Outsider settled x) ∧
    Trace (fun _ op _ => ∀ x : Addr, 11 ≤ x ∧ x ≤ 13 → x ∈ names op → ∃ c, callerOf op = some c ∧ 11 ≤ c ∧ c ≤ 13) settled (run settled trying) ∧
    works settled (.owner 1 (.addManagers [11])) = true ∧ isManager (exec settled (.owner 1 (.addManagers [11]))) 11 = true := by
  have hm : settled.st.managers = [] ∧ settled.owner = 1 ∧ settled.st.migrationSc = none := by decide +kernel
  have hd : ∀ e ∈ settled.st.data, ∀ d, e.2 = some d → d.admin = 41 ∨ d.admin = 42 := by decide +kernel
  refine ⟨settled_reachable, fun x hx => ⟨?_, ?_, fun p d h => ?_⟩, ?_, by decide +kernel, by decide +kernel⟩
  · rintro (h | h)
    · rw [hm.1] at h; cases h
    · rw [hm.2.1] at h; subst h; exact absurd hx (by decide)
  · rw [hm.2.2]; simp
  · rintro rfl
    rcases hd _ (mem_of_get h) d rfl with h | h <;> rw [h] at hx <;> exact absurd hx (by decide)
  · refine trace_ops (fun op => decide ((∀ c ∈ callerOf op, 11 ≤ c ∧ c ≤ 13) ∧ (callerOf op).isSome)) (fun op h v v' x _ _ => ?_) _ _ (by decide +kernel)
    obtain ⟨h1, h2⟩ := of_decide_eq_true h
    obtain ⟨c, hc⟩ := Option.isSome_iff_exists.1 h2
    exact ⟨c, hc, h1 c hc⟩

example : works settled (.changeOwner 1 11) = true ∧ works settled (.changeOwner 11 11) = false ∧
    works (exec settled (.changeOwner 1 11)) (.claimRewards 11) = true ∧ works (exec settled (.changeOwner 1 11)) (.claimRewards 1) = false ∧
    works (exec settled (.changeOwner 1 11)) (.owner 1 .stateInactive) = false ∧
    works (exec settled (.changeOwner 1 11)) (.owner 11 .stateInactive) = true :=
  ⟨by decide +kernel, by decide +kernel, by decide +kernel, by decide +kernel, by decide +kernel, by decide +kernel⟩

end LS
