import Verif.Props.Attack
import Verif.Props.Callbacks
import Verif.Props.Batch

/-!
# The third blockade: a remnant at the front of the order

`C37_false` exhibits one state.  Here: which states block un-delegation, which answers lead there, and what leads out again.
-/

namespace LS
open Spec Demo

/-- The provider to be asked first holds something, but less than one EGLD. -/
def Spec.Jams (w : World) (p : Addr) : Prop :=
  (∃ l, w.st.undelegList = p :: l) ∧ 0 < netStake w p ∧ netStake w p < oneEgld

private theorem jam_figure {w : World} {p : Addr} {d : ProviderData} (hd : provider w p = some d) :
    netStake w p = d.staked + d.pStake - d.pUnstake := by unfold netStake figure; rw [hd]

/-- **C37, for every state with a remnant in front.** Every batch of un-delegations fails, of any amount and by anybody. -/
theorem C37_jams {w : World} {p : Addr} (hr : Reachable w) (h : Jams w p) (hlen : w.st.undelegList.length < 2 ^ 32) (c : Addr)
    (o : Option Nat) : ¬ ∃ w', step w (.unDelegatePending c o) = .ok w' := by
  obtain ⟨⟨l, hl⟩, h0, h1⟩ := h
  cases hd : provider w p with
  | none => simp [netStake, figure, hd] at h0
  | some d =>
    rw [jam_figure hd] at h0 h1
    exact unDelegatePending_poisoned hl hd (by omega) h1 (reachable_limits hr).1 hlen c o

/-- **C37, where remnants come from.** In every state in which a delegation of `a` is on its way to a provider that, net of what is
asked back, has more than `a` there but less than `a` and one EGLD, its refusal leaves a remnant; and if the provider is the one to
be asked first, it alone thereby stops all un-delegation. -/
theorem C37_refusal {w : World} {i : Nat} {p : Addr} {a : Nat} (hr : Reachable w) (hf : w.flights[i]? = some (.delegate p a))
    (h1 : a < netStake w p) (h2 : netStake w p < a + oneEgld) :
    ∃ w', step w (.deliver i .err) = .ok w' ∧ 0 < netStake w' p ∧ netStake w' p < oneEgld ∧
      ∀ l, w.st.undelegList = p :: l → w.st.undelegList.length < 2 ^ 32 →
        Jams w' p ∧ ∀ c o, ¬ ∃ w'', step w' (.unDelegatePending c o) = .ok w'' := by
  obtain ⟨w', d, hs, hd, ha, _, _, _, hd', _⟩ := C22_failed_delegation hr hf
  have e := jam_figure hd
  have e' := jam_figure hd'
  dsimp only at e'
  have hb : 0 < netStake w' p ∧ netStake w' p < oneEgld := by omega
  refine ⟨w', hs, hb.1, hb.2, fun l hl hlen => ?_⟩
  have hord : w'.st.undelegList = w.st.undelegList :=
    C64_only_its_parts hr hs .undelegOrder (by simp [touched, hf, callbackParts])
  have hj : Jams w' p := ⟨⟨l, hord.trans hl⟩, hb⟩
  exact ⟨hj, fun c o => C37_jams (.step _ hr hs) hj (by rw [hord]; exact hlen) c o⟩

/-- **C37, how a blockade ends.** By a delegation batch that sends something to the same provider, or by its refusing a call.
Confirmations, other providers, users, settings and time do not end it. -/
theorem C37_lasts {w w' : World} {p : Addr} {op : Op} (hr : Reachable w) (hj : Jams w p) (hlen : w.st.undelegList.length < 2 ^ 32)
    (hs : step w op = .ok w') :
    Jams w' p ∨ (∃ c o, op = .delegatePending c o ∧ netStake w p < netStake w' p) ∨
      ∃ i a, op = .deliver i .err ∧ (w.flights[i]? = some (.delegate p a) ∨ w.flights[i]? = some (.undelegate p a)) := by
  have hr0 : RegOk w.st.lsToken w.st.unstakeToken w.st.delegList w.st.undelegList w.st.data w.flights w.dead := reachable_regInv hr
  have hno : ∀ c o, op ≠ .unDelegatePending c o := by
    rintro c o rfl
    exact C37_jams hr hj hlen c o ⟨w', hs⟩
  obtain ⟨⟨l, hl⟩, h0, h1⟩ := hj
  have hp : p ∈ w.st.delegList := (hr0.same p).2 (by rw [hl]; exact List.mem_cons_self)
  have hfront : ∃ l', w'.st.undelegList = p :: l' := by
    rcases (C32_nothing_else hr hs).2 hno with h | ⟨q, _, _, h⟩
    · exact ⟨l, h.trans hl⟩
    · exact ⟨l ++ [q], by rw [h, hl, List.cons_append]⟩
  have finish : netStake w' p = netStake w p → Jams w' p := fun h => ⟨hfront, by rw [h]; exact ⟨h0, h1⟩⟩
  have quiet : .staked p ∉ touched w op → .inFlightStake p ∉ touched w op → .inFlightUnstake p ∉ touched w op → Jams w' p := by
    intro k1 k2 k3
    have e1 : figure (·.staked) w' p = figure (·.staked) w p := C64_only_its_parts hr hs _ k1
    have e2 : figure (·.pStake) w' p = figure (·.pStake) w p := C64_only_its_parts hr hs _ k2
    have e3 : figure (·.pUnstake) w' p = figure (·.pUnstake) w p := C64_only_its_parts hr hs _ k3
    exact finish (by unfold netStake; rw [e1, e2, e3])
  cases op with
  | delegatePending c o =>
    obtain ⟨b, _, _, _, _, _, _, _, hall, _⟩ := C17_delegatePending_exact hs
    cases hd : provider w p with
    | none => simp [netStake, figure, hd] at h0
    | some d =>
      have hd' := hall p
      rw [hd, Option.map_some] at hd'
      have e := jam_figure hd
      have e' := jam_figure hd'
      dsimp only at e'
      by_cases hb : batchFor p b = 0
      · exact .inl (finish (by rw [e, e', hb, Nat.add_zero]))
      · exact .inr (.inl ⟨c, o, rfl, by omega⟩)
  | unDelegatePending c o => exact absurd rfl (hno c o)
  | deliver i o =>
    cases hf : w.flights[i]? with
    | none => exact .inl (quiet (by simp [touched, hf]) (by simp [touched, hf]) (by simp [touched, hf]))
    | some f =>
      cases f with
      | delegate q a =>
        by_cases hq : q = p
        · subst hq
          cases o with
          | err => exact .inr (.inr ⟨i, a, rfl, .inl hf⟩)
          | ok g r =>
            left
            obtain ⟨f', hf', hcb | ⟨_, rfl⟩⟩ := deliver_ok hs
            · rw [hf] at hf'
              obtain rfl := Option.some.inj hf'
              obtain ⟨_, d, hd, ha, rfl⟩ := addLiquidityCb_true_ok.1 hcb
              refine finish ?_
              have hd1 : provider w q = some d := hd
              rw [jam_figure hd1, jam_figure (d := { d with staked := d.staked + a, pStake := d.pStake - a })
                (by unfold provider; dsimp only; rw [Map.get_set, if_pos rfl])]
              dsimp only
              omega
            · exact finish rfl
        · left
          cases o <;> refine quiet ?_ ?_ ?_ <;> simp [touched, hf, callbackParts, Ne.symm hq]
      | undelegate q a =>
        by_cases hq : q = p
        · subst hq
          cases o with
          | err => exact .inr (.inr ⟨i, a, rfl, .inr hf⟩)
          | ok g r =>
            left
            obtain ⟨f', hf', hcb | ⟨_, rfl⟩⟩ := deliver_ok hs
            · rw [hf] at hf'
              obtain rfl := Option.some.inj hf'
              obtain ⟨t, d, _, hd, ha, hb, rfl⟩ := removeLiquidityCb_true_ok.1 hcb
              refine finish ?_
              have hd1 : provider w q = some d := hd
              rw [jam_figure hd1, jam_figure
                (d := { d with staked := d.staked - a, unstaked := d.unstaked + a, pUnstake := d.pUnstake - a })
                (by unfold provider; simp only [commit, emit]; rw [Map.get_set, if_pos rfl])]
              dsimp only
              omega
            · exact finish rfl
        · left
          cases o <;> refine quiet ?_ ?_ ?_ <;> simp [touched, hf, callbackParts, Ne.symm hq]
      | whitelist q v u =>
        left
        have hq : p ≠ q := fun h => (hr0.wl2 q v u (List.mem_of_getElem? hf)).1 (h ▸ hp)
        cases o <;> refine quiet ?_ ?_ ?_ <;> simp only [touched, hf, callbackParts] <;> first | (split <;> simp [hq]) | simp [hq]
      | _ =>
        left
        cases o <;> refine quiet ?_ ?_ ?_ <;> simp [touched, hf, callbackParts]
  | owner c cmd => left; refine quiet ?_ ?_ ?_ <;> cases cmd <;> simp [touched, settingOf]
  | _ => left; refine quiet ?_ ?_ ?_ <;> simp [touched, positionParts] <;> try (split <;> simp)

/-- The state of `C37_false` before the refusal: 1 EGLD on its way to provider 22, which net of what is asked back has 1.3. -/
example : let w := run active [.whitelist 1 (E 1) 22 42 (E 1000) 0 20 900, .deliver 0 (.ok 0 0), .delegate 11 1500000000000000000,
      .delegatePending 1 none, .deliver 0 (.ok 0 0), .delegate 11 (E 1), .delegatePending 1 none,
      .unDelegate 11 0 [⟨500, 0, 2200000000000000000⟩], .unDelegatePending 1 none]
    Reachable w ∧ w.flights[0]? = some (.delegate 22 (E 1)) ∧ netStake w 22 = 1300000000000000000 ∧ w.st.undelegList = [22] :=
  ⟨reachable_run active_reachable _, by decide +kernel⟩

/-- The state of `C37_false`: blocked, still blocked after the confirmation of what was asked back and ten epochs, and open again once a
manager lets the provider receive stake and sends it the EGLD that came back. -/
example : let w := run dusty [.deliver 0 (.ok 0 0), .advance 70]
    Reachable w ∧ w.st.undelegList = [22] ∧ netStake dusty 22 = 300000000000000000 ∧ netStake w 22 = 300000000000000000 ∧
    works w (.unDelegatePending 1 none) = false ∧
    works (run w [.changeParams 1 22 0 0 20 900 true, .delegatePending 1 none]) (.unDelegatePending 1 none) = true :=
  ⟨reachable_run (reachable_run active_reachable _) _, by decide +kernel⟩

end LS
