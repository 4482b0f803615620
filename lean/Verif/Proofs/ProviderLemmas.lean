import Verif.Model.Providers
import Verif.Proofs.CallbackLemmas
import Verif.Props.Accounting

/-! Contract and providers: the answers on their way lead from the recorded figures to the providers' books. -/

namespace LS
open Spec

/-- The effect of a served message on the books of `p`. -/
def eff (p : Addr) (b : Books) (e : Flight × Option Outcome) : Option Books :=
  match e.2 with
  | none => some b
  | some o => if target e.1 = some p then (serveOne b e.1 o).toOption else some b

/-- The effect of a list of messages. -/
def effs (p : Addr) : Books → List (Flight × Option Outcome) → Option Books
  | b, [] => some b
  | b, e :: l => (eff p b e).bind (effs p · l)

theorem effs_append {p : Addr} : ∀ {l l' : List (Flight × Option Outcome)} {b : Books},
    effs p b (l ++ l') = (effs p b l).bind (effs p · l')
  | [], _, _ => rfl
  | e :: l, l', b => by
    show (eff p b e).bind _ = ((eff p b e).bind _).bind _
    cases eff p b e with
    | none => rfl
    | some b' => exact effs_append

theorem effs_id {p : Addr} : ∀ {l : List (Flight × Option Outcome)} {b : Books},
    (∀ e ∈ l, target e.1 = some p → e.2 = none) → effs p b l = some b
  | [], _, _ => rfl
  | e :: l, b, h => by
    have : eff p b e = some b := by
      unfold eff
      cases he : e.2 with
      | none => rfl
      | some o =>
        show (if _ then _ else _) = _
        rw [if_neg]
        intro ht
        have := h e (by simp) ht
        rw [he] at this; cases this
    show (eff p b e).bind _ = _
    rw [this]
    exact effs_id fun e' he' => h e' (by simp [he'])

/-- The recorded figures of a provider. -/
def recBooks (w : World) (p : Addr) : Books := ⟨recOf (·.staked) w.st.data p, recOf (·.unstaked) w.st.data p⟩

/-- Among the messages to one provider the served ones come first. -/
def Served (l : List (Flight × Option Outcome)) : Prop :=
  l.Pairwise fun e e' => target e.1 = target e'.1 → target e.1 ≠ none → e'.2 ≠ none → e.2 ≠ none

/-- Failed whitelistings. -/
def DeadWl (w : World) (p : Addr) : Prop := ∃ x u, .whitelist p x u ∈ w.dead

structure SysInv (s : Sys) : Prop where
  reach : Reachable s.w
  msgs : s.msgs.map Prod.fst = s.w.flights
  served : Served s.msgs
  eq : ∀ p, ¬ DeadWl s.w p → effs p (recBooks s.w p) s.msgs = some (booksOf s p)

/-- A whitelisting whose callback failed stays as it is for ever. -/
theorem reachable_deadWl {w : World} (h : Reachable w) : ∀ p, DeadWl w p →
    p ∉ w.st.delegList ∧ w.st.data.get none p ≠ none ∧ ∀ x u, .whitelist p x u ∉ w.flights := by
  induction h with
  | init h =>
    obtain ⟨self, owner, contracts, epoch, funds, acc, fees, rpe, mr, ms, ma, ub, _, _, rfl⟩ := isInit_eq h
    rintro p ⟨x, u, h⟩; simp at h
  | @step w w' op hr hs ih =>
    have hreg := reachable_regInv hr
    have hreg0 : RegOk w.st.lsToken w.st.unstakeToken w.st.delegList w.st.undelegList w.st.data w.flights w.dead := hreg
    rintro p ⟨x, u, hd⟩
    have hF := fstep hreg hs
    have hP := pstep p hreg hs
    have hL := lstep hreg hs
    by_cases hold : DeadWl w p
    · obtain ⟨h1, h2, h3⟩ := ih p hold
      refine ⟨?_, ?_, ?_⟩
      · cases hL with
        | same h => intro hp; exact h1 ((h p).1 hp)
        | joined i g r q y v hop hf ht hl =>
          rw [hl, mem_setInsert]
          rintro (h | rfl)
          · exact h1 h
          · exact h3 _ _ (List.mem_of_getElem? hf)
      · generalize w'.st.data.get none p = o' at hP ⊢
        generalize ho : w.st.data.get none p = o at hP h2
        cases hP with
        | same => exact h2
        | dropped _ i y v hop hf => exact absurd (List.mem_of_getElem? hf) (h3 _ _)
        | _ => simp
      · intro y v hy
        rcases hF.mem hy with h | ⟨_, _, _, _, _, h, _⟩ | ⟨_, _, _, _, _, h, _⟩ | ⟨_, _, _, h⟩ | ⟨_, _, h⟩ |
          ⟨c, v', p', ad, ts, cap, n, apy, hop, h, hv⟩
        · exact h3 _ _ h
        · cases h
        · cases h
        · cases h
        · cases h
        · cases h
          subst hop
          have := (whitelist_ok hs)
          obtain ⟨_, _, _, _, h5, _⟩ := this
          exact h2 h5
    · have hsame : w'.dead = w.dead → False := fun h => hold ⟨x, u, by rw [← h]; exact hd⟩
      have hdied : ∃ i o f, w.flights[i]? = some f ∧ w' = { arrive w i f o with dead := w.dead ++ [f] } := by
        generalize hfl : w'.flights = fl at hF
        generalize hdd : w'.dead = dd at hF hsame
        cases hF with
        | died i o f e hop hf hcb =>
          subst hop
          obtain ⟨f', hf', hcb' | ⟨_, h⟩⟩ := deliver_ok hs
          · rw [hf] at hf'; cases hf'
            rw [hcb] at hcb'; cases hcb'
          · exact ⟨i, o, f', hf', h⟩
        | starved i o f hop hf =>
          subst hop
          obtain ⟨f', hf', h⟩ := starve_ok hs
          exact ⟨i, o, f', hf', h⟩
        | _ => exact absurd rfl hsame
      obtain ⟨i, o, f, hf, rfl⟩ := hdied
      have hd' : Flight.whitelist p x u ∈ w.dead ++ [f] := hd
      rw [List.mem_append, List.mem_singleton] at hd'
      rcases hd' with hd' | rfl
      · exact absurd ⟨x, u, hd'⟩ hold
      obtain ⟨h1, h2⟩ := hreg0.wl2 p x u (List.mem_of_getElem? hf)
      refine ⟨h1, h2, fun y v hy => ?_⟩
      have hy' : Flight.whitelist p y v ∈ w.flights.eraseIdx i := hy
      have hc := hreg0.wl1 p
      rw [← (eraseIdx_perm hf).countP_eq, List.countP_cons] at hc
      have h3 : 0 < (w.flights.eraseIdx i).countP (isWl p) := List.countP_pos_iff.2 ⟨_, hy', by simp [isWl]⟩
      have h4 : isWl p (.whitelist p x u) = true := by simp [isWl]
      rw [if_pos h4] at hc
      omega

theorem msgs_split {l : List (Flight × Option Outcome)} {i : Nat} {e : Flight × Option Outcome} (h : l[i]? = some e) :
    l = l.take i ++ e :: l.drop (i + 1) ∧ ∀ e' ∈ l.take i, ∃ j, j < i ∧ l[j]? = some e' := by
  obtain ⟨hi, rfl⟩ := List.getElem?_eq_some_iff.1 h
  refine ⟨?_, fun e' he => ?_⟩
  · rw [← List.drop_eq_getElem_cons hi, List.take_append_drop]
  · obtain ⟨j, hj, rfl⟩ := List.mem_take_iff_getElem.1 he
    exact ⟨j, by omega, List.getElem?_eq_getElem _⟩

/-- Calls other than callbacks leave the recorded figures alone and only add promises. -/
theorem call_frame {w w' : World} {op : Op} (hr : Reachable w) (hop : isDeliver op = false) (hs : step w op = .ok w') :
    (∀ p, recBooks w' p = recBooks w p) ∧ w'.dead = w.dead ∧ ∃ l, w'.flights = w.flights ++ l := by
  have hreg := reachable_regInv hr
  have hno : ∀ i o, op ≠ .deliver i o := by rintro i o rfl; cases hop
  have hop0 := hop
  refine ⟨fun p => ?_, ?_⟩
  · have hP := pstep p hreg hs
    unfold recBooks recOf
    generalize w'.st.data.get none p = o' at hP ⊢
    generalize w.st.data.get none p = o at hP ⊢
    cases hP with
    | dropped _ i y v hop hf => exact absurd hop (hno _ _)
    | stakeOk d i g r a hop => exact absurd hop (hno _ _)
    | stakeErr d i a hop => exact absurd hop (hno _ _)
    | unstakeOk d i g r a hop => exact absurd hop (hno _ _)
    | unstakeErr d i a hop => exact absurd hop (hno _ _)
    | returned d i g r hop => exact absurd hop (hno _ _)
    | joined d i g r x u hop => exact absurd hop (hno _ _)
    | _ => rfl
  · have hF := fstep hreg hs
    generalize w'.flights = fl at hF
    generalize w'.dead = dd at hF
    cases hF with
    | settled i o f w1 hop => exact absurd hop (hno _ _)
    | died i o f e hop => exact absurd hop (hno _ _)
    | starved i o f hop => subst hop; cases hop0
    | same => exact ⟨rfl, [], by simp⟩
    | _ => exact ⟨rfl, _, rfl⟩

theorem map_eraseIdx {l : List (Flight × Option Outcome)} {i : Nat} : (l.eraseIdx i).map Prod.fst = (l.map Prod.fst).eraseIdx i := by
  rw [List.eraseIdx_map]

/-- The callback of an answered message to `p`, first in line: it takes effect if the books say so. -/
theorem answer_effect {w : World} {i : Nat} {f : Flight} {o : Outcome} {p : Addr} {b : Books} (hr : Reachable w)
    (hf : w.flights[i]? = some f) (hp : target f = some p) (hb : serveOne (recBooks w p) f o = .ok b)
    (hw : ∀ x u, f ≠ .whitelist p x u) :
    ∃ w', runCallback (arrive w i f o) f o = .ok w' := by
  have hm := List.mem_of_getElem? hf
  cases f with
  | delegate q a => exact delegate_cb_ok hr o hf
  | undelegate q a =>
    cases hp
    obtain ⟨t, d, ht, hd, ha, _⟩ := undelegate_flight hr hm
    cases o with
    | ok g r =>
      have h1 : a ≤ d.staked := by
        unfold serveOne at hb
        simp only [bind_ok, csub_ok] at hb
        obtain ⟨_, ⟨h, _⟩, _⟩ := hb
        have e : (recBooks w p).stake = d.staked := by unfold recBooks recOf; rw [hd]; rfl
        rw [e] at h; exact h
      exact ⟨_, removeLiquidityCb_true_ok.2 ⟨t, d, ht, hd, h1, ha, rfl⟩⟩
    | err => exact ⟨_, removeLiquidityCb_false_ok.2 ⟨t, d, ht, hd, ha, rfl⟩⟩
  | withdraw q =>
    cases hp
    cases o with
    | err => exact ⟨_, withdrawTokensCb_ok.2 (.inl ⟨rfl, rfl⟩)⟩
    | ok g r =>
      rcases Nat.eq_zero_or_pos g with rfl | hg
      · exact ⟨_, withdrawTokensCb_ok.2 (.inl ⟨rfl, rfl⟩)⟩
      have ht : w.st.lsToken ≠ none := by
        intro ht
        obtain ⟨_, _, _, h⟩ := reachable_noFlights hr ht _ hm
        cases h
      obtain ⟨t, ht⟩ := Option.ne_none_iff_exists'.1 ht
      unfold serveOne at hb
      simp only [bind_ok, csub_ok] at hb
      obtain ⟨_, ⟨h, _⟩, _⟩ := hb
      cases hd : w.st.data.get none p with
      | none =>
        have e : (recBooks w p).unbonding = 0 := by unfold recBooks recOf; rw [hd]; rfl
        omega
      | some d =>
        have e : (recBooks w p).unbonding = d.unstaked := by unfold recBooks recOf; rw [hd]; rfl
        rw [e] at h
        have hsum := C44_unbonding_total hr
        have hle := Spec.IsSum.le hsum p
        have e2 : figure (·.unstaked) w p = d.unstaked := by unfold figure provider; rw [hd]
        rw [e2] at hle
        exact ⟨_, withdrawTokensCb_ok.2 (.inr ⟨hg, t, d, ht, hd, h, Nat.le_trans h hle, rfl⟩)⟩
  | claim ps => cases hp
  | whitelist q x u => cases hp; exact absurd rfl (hw x u)

/-- A callback that took effect changed the figures of its provider as the provider changed its books. -/
theorem answer_books {w w' : World} {i : Nat} {f : Flight} {o : Outcome} {p : Addr} {b : Books} (hr : Reachable w)
    (hf : w.flights[i]? = some f) (hp : target f = some p) (hb : serveOne (recBooks w p) f o = .ok b)
    (hcb : runCallback (arrive w i f o) f o = .ok w') : recBooks w' p = b := by
  have hm := List.mem_of_getElem? hf
  have hreg : RegOk w.st.lsToken w.st.unstakeToken w.st.delegList w.st.undelegList w.st.data w.flights w.dead :=
    reachable_regInv hr
  have key : ∀ {d d' : ProviderData}, w.st.data.get none p = some d → w'.st.data = w.st.data.set p (some d') →
      recBooks w p = ⟨d.staked, d.unstaked⟩ ∧ recBooks w' p = ⟨d'.staked, d'.unstaked⟩ := by
    intro d d' h1 h2
    have h3 : (w.st.data.set p (some d')).get none p = if p = p then some d' else _ := Map.get_set ..
    rw [if_pos rfl] at h3
    unfold recBooks recOf
    rw [h2, h3, h1]
    exact ⟨rfl, rfl⟩
  cases f with
  | claim ps => cases hp
  | delegate q a =>
    cases hp
    cases o with
    | ok g r =>
      obtain ⟨_, d, hd, ha, rfl⟩ := addLiquidityCb_true_ok.1 hcb
      obtain ⟨e1, e2⟩ := key (d := d) hd rfl
      rw [e1] at hb; rw [e2]; cases hb; rfl
    | err =>
      obtain ⟨t, d, _, hd, ha, rfl⟩ := addLiquidityCb_false_ok.1 hcb
      obtain ⟨e1, e2⟩ := key (d := d) hd rfl
      rw [e1] at hb; rw [e2]; cases hb; rfl
  | undelegate q a =>
    cases hp
    cases o with
    | ok g r =>
      obtain ⟨t, d, _, hd, h1, ha, rfl⟩ := removeLiquidityCb_true_ok.1 hcb
      obtain ⟨e1, e2⟩ := key (d := d) hd rfl
      rw [e1] at hb; rw [e2]
      unfold serveOne at hb
      simp only [bind_ok, csub_ok, Except.ok.injEq] at hb
      obtain ⟨_, ⟨_, rfl⟩, rfl⟩ := hb
      rfl
    | err =>
      obtain ⟨t, d, _, hd, ha, rfl⟩ := removeLiquidityCb_false_ok.1 hcb
      obtain ⟨e1, e2⟩ := key (d := d) hd rfl
      rw [e1] at hb; rw [e2]; cases hb; rfl
  | withdraw q =>
    cases hp
    cases o with
    | ok g r =>
      unfold serveOne at hb
      simp only [bind_ok, csub_ok, Except.ok.injEq] at hb
      obtain ⟨_, ⟨_, rfl⟩, rfl⟩ := hb
      rcases withdrawTokensCb_ok.1 hcb with ⟨rfl, rfl⟩ | ⟨_, t, d, _, hd, hg, _, rfl⟩
      · rfl
      · obtain ⟨e1, e2⟩ := key (d := d) hd rfl
        rw [e1, e2]
    | err =>
      cases hb
      rcases withdrawTokensCb_ok.1 hcb with ⟨_, rfl⟩ | ⟨h0, _⟩
      · rfl
      · omega
  | whitelist q x u =>
    cases hp
    cases o with
    | ok g r =>
      obtain ⟨t, d, l, _, hd, _, rfl⟩ := whitelistCb_true_ok.1 hcb
      obtain ⟨e1, e2⟩ := key (d := d) hd rfl
      rw [e1] at hb; rw [e2]; cases hb; rfl
    | err =>
      cases hb
      obtain ⟨h1, h2⟩ := hreg.wl2 p x u hm
      obtain ⟨d, hd⟩ := Option.ne_none_iff_exists'.1 h2
      obtain ⟨z1, z2, _⟩ := hreg.zero p d hd h1
      have e1 : recBooks w p = ⟨0, 0⟩ := by unfold recBooks recOf; rw [hd]; show Books.mk d.staked d.unstaked = _; rw [z1, z2]
      rw [e1]
      have e2 : w'.st.data.get none p = none := by
        obtain ⟨_, m, _, rfl⟩ := whitelistCb_false_ok.1 hcb
        have h3 : (w.st.data.set p none).get none p = if p = p then none else _ := Map.get_set ..
        rw [if_pos rfl] at h3
        exact h3
      unfold recBooks recOf; rw [e2]; rfl

/-- Delivering an answer of another provider leaves the figures alone. -/
theorem answer_other {w w' : World} {i : Nat} {f : Flight} {o : Outcome} {p : Addr} (hr : Reachable w)
    (hf : w.flights[i]? = some f) (hp : target f ≠ some p) (hs : step w (.deliver i o) = .ok w') :
    recBooks w' p = recBooks w p := by
  have hP := pstep p (reachable_regInv hr) hs
  have key : ∀ {j o' g}, Op.deliver i o = .deliver j o' → w.flights[j]? = some g → target g = some p → False := by
    intro j o' g h1 h2 h3
    cases h1
    rw [hf] at h2; cases h2
    exact hp h3
  unfold recBooks recOf
  generalize w'.st.data.get none p = o' at hP ⊢
  generalize w.st.data.get none p = o1 at hP ⊢
  cases hP with
  | dropped _ i y v hop hf => exact (key hop hf rfl).elim
  | stakeOk d i g r a hop hf => exact (key hop hf rfl).elim
  | stakeErr d i a hop hf => exact (key hop hf rfl).elim
  | unstakeOk d i g r a hop hf => exact (key hop hf rfl).elim
  | unstakeErr d i a hop hf => exact (key hop hf rfl).elim
  | returned d i g r hop hf => exact (key hop hf rfl).elim
  | joined d i g r x u hop hf => exact (key hop hf rfl).elim
  | _ => rfl

theorem eff_other {p : Addr} {b : Books} {e : Flight × Option Outcome} (h : target e.1 ≠ some p) : eff p b e = some b := by
  unfold eff
  cases e.2 with
  | none => rfl
  | some o => show (if _ then _ else _) = _; rw [if_neg h]

theorem sysInv_answer {s s' : Sys} {i : Nat} (h : SysInv s) (ho : InOrder s (.answer i)) (hs : sysStep s (.answer i) = .ok s') :
    SysInv s' := by
  have hs : answer s i = .ok s' := hs
  unfold answer at hs
  cases he : s.msgs[i]? with
  | none => rw [he] at hs; cases hs
  | some e =>
    obtain ⟨f, a⟩ := e
    rw [he] at hs
    cases a with
    | none => cases hs
    | some o =>
      obtain ⟨w', hw, hs⟩ := bind_ok.1 hs
      cases hs
      have hf : s.w.flights[i]? = some f := by rw [← h.msgs, List.getElem?_map, he]; rfl
      obtain ⟨hsplit, hpre⟩ := msgs_split he
      have her : s.msgs.eraseIdx i = s.msgs.take i ++ s.msgs.drop (i + 1) := List.eraseIdx_eq_take_drop_succ _ _
      have hreach : Reachable w' := .step _ h.reach hw
      have hfl : w'.flights = s.w.flights.eraseIdx i ∧ (w'.dead = s.w.dead ∧ runCallback (arrive s.w i f o) f o = .ok w' ∨
          w'.dead = s.w.dead ++ [f] ∧ ∃ e, runCallback (arrive s.w i f o) f o = .error e) := by
        obtain ⟨f', hf', hcb | ⟨he', rfl⟩⟩ := deliver_ok hw
        · rw [hf] at hf'; cases hf'
          exact ⟨(runCallback_flights hcb).1, .inl ⟨(runCallback_flights hcb).2, hcb⟩⟩
        · rw [hf] at hf'; cases hf'
          exact ⟨rfl, .inr ⟨rfl, he'⟩⟩
      refine ⟨hreach, ?_, ?_, fun p hd => ?_⟩
      · show (s.msgs.eraseIdx i).map Prod.fst = w'.flights
        rw [map_eraseIdx, h.msgs, hfl.1]
      · exact List.Pairwise.sublist (List.eraseIdx_sublist _ _) h.served
      · show effs p (recBooks w' p) (s.msgs.eraseIdx i) = some (booksOf s p)
        have hd0 : ¬ DeadWl s.w p := by
          rintro ⟨x, u, hx⟩
          apply hd
          refine ⟨x, u, ?_⟩
          show _ ∈ w'.dead
          rcases hfl.2 with ⟨h1, _⟩ | ⟨h1, _⟩
          · rw [h1]; exact hx
          · rw [h1]; exact List.mem_append_left _ hx
        have heq := h.eq p hd0
        rw [hsplit, effs_append] at heq
        rw [her, effs_append]
        by_cases hp : target f = some p
        · have hpre0 : ∀ b, effs p b (s.msgs.take i) = some b := fun b => effs_id fun e' he' ht => by
            obtain ⟨j, hj, hj'⟩ := hpre e' he'
            have := ho j hj e'.1 f e'.2 (some o) hj' he (by rw [ht, hp])
            rw [ht] at this; cases this
          rw [hpre0] at heq ⊢
          have heq' : (eff p (recBooks s.w p) (f, some o)).bind (effs p · (s.msgs.drop (i + 1))) = some (booksOf s p) := heq
          have heff : eff p (recBooks s.w p) (f, some o) = (serveOne (recBooks s.w p) f o).toOption := by
            unfold eff
            show (if target f = some p then _ else _) = _
            rw [if_pos hp]
          rw [heff] at heq'
          cases hb : serveOne (recBooks s.w p) f o with
          | error e => rw [hb] at heq'; cases heq'
          | ok b =>
            rw [hb] at heq'
            have hcb : runCallback (arrive s.w i f o) f o = .ok w' := by
              rcases hfl.2 with ⟨_, h1⟩ | ⟨h1, e', h2⟩
              · exact h1
              · exfalso
                by_cases hwl : ∃ x u, f = .whitelist p x u
                · obtain ⟨x, u, rfl⟩ := hwl
                  exact hd ⟨x, u, by show _ ∈ w'.dead; rw [h1]; simp⟩
                · obtain ⟨w1, h3⟩ := answer_effect h.reach hf hp hb fun x u hx => hwl ⟨x, u, hx⟩
                  rw [h2] at h3; cases h3
            rw [answer_books h.reach hf hp hb hcb]
            exact heq'
        · rw [answer_other h.reach hf hp hw]
          have : ∀ b, effs p b ((f, some o) :: s.msgs.drop (i + 1)) = effs p b (s.msgs.drop (i + 1)) := fun b => by
            show (eff p b _).bind _ = _
            rw [eff_other hp]; rfl
          simp only [this] at heq
          exact heq

theorem sysInv_serve {s s' : Sys} {i : Nat} {o : Outcome} (h : SysInv s) (ho : InOrder s (.serve i o))
    (hs : sysStep s (.serve i o) = .ok s') : SysInv s' := by
  have hs1 : serve s i o = .ok s' := hs
  unfold serve at hs1
  cases he : s.msgs[i]? with
  | none => rw [he] at hs1; cases hs1
  | some e =>
    obtain ⟨f, a⟩ := e
    rw [he] at hs1
    cases a with
    | some o' => cases hs1
    | none =>
      have hi : i < s.msgs.length := (List.getElem?_eq_some_iff.1 he).1
      obtain ⟨hsplit, hpre⟩ := msgs_split he
      have hset : s.msgs.set i (f, some o) = s.msgs.take i ++ (f, some o) :: s.msgs.drop (i + 1) := List.set_eq_take_append_cons_drop .. |>.trans (by rw [if_pos hi])
      have hmsgs : (s.msgs.set i (f, some o)).map Prod.fst = s.w.flights := by
        rw [← h.msgs]
        conv_rhs => rw [hsplit]
        rw [hset]; simp
      have hsv0 := h.served
      unfold Served at hsv0
      rw [hsplit, List.pairwise_append, List.pairwise_cons] at hsv0
      obtain ⟨v1, ⟨v2, v3⟩, v4⟩ := hsv0
      have hserved : Served (s.msgs.set i (f, some o)) := by
        unfold Served
        rw [hset, List.pairwise_append, List.pairwise_cons]
        refine ⟨v1, ⟨fun e' _ _ _ _ => by simp, v3⟩, fun e1 h1 e2 h2 => ?_⟩
        rcases List.mem_cons.1 h2 with rfl | h2
        · intro ht hn _
          obtain ⟨j, hj, hj'⟩ := hpre e1 h1
          exact ho j hj e1.1 f e1.2 none hj' he ht hn
        · exact v4 e1 h1 e2 (List.mem_cons_of_mem _ h2)
      have hold : ∀ p, ¬ DeadWl s.w p → target f = some p → effs p (recBooks s.w p) (s.msgs.take i) = some (booksOf s p) ∧
          ∀ b, effs p b (s.msgs.drop (i + 1)) = some b := by
        intro p hd hp
        have hpost : ∀ b, effs p b (s.msgs.drop (i + 1)) = some b := fun b => effs_id fun e' he' ht => by
          by_contra hne
          exact v2 e' he' (by show target f = _; rw [hp, ht]) (by show target f ≠ _; rw [hp]; simp) hne rfl
        refine ⟨?_, hpost⟩
        have heq := h.eq p hd
        rw [hsplit, effs_append] at heq
        have : ∀ b, effs p b ((f, none) :: s.msgs.drop (i + 1)) = some b := fun b => by
          show (eff p b (f, none)).bind _ = _
          exact hpost b
        simp only [this] at heq
        cases hx : effs p (recBooks s.w p) (s.msgs.take i) with
        | none => rw [hx] at heq; cases heq
        | some b => rw [hx] at heq; exact heq
      have hother : ∀ p, ¬ DeadWl s.w p → target f ≠ some p →
          effs p (recBooks s.w p) (s.msgs.set i (f, some o)) = some (booksOf s p) := by
        intro p hd hp
        have heq := h.eq p hd
        rw [hsplit, effs_append] at heq
        rw [hset, effs_append]
        have : ∀ b x, effs p b ((f, x) :: s.msgs.drop (i + 1)) = effs p b (s.msgs.drop (i + 1)) := fun b x => by
          show (eff p b _).bind _ = _
          rw [eff_other hp]; rfl
        simp only [this] at heq ⊢
        exact heq
      cases ht : target f with
      | none =>
        simp only [ht] at hs1
        cases hs1
        exact ⟨h.reach, hmsgs, hserved, fun p hd => hother p hd (by rw [ht]; simp)⟩
      | some q =>
        simp only [ht] at hs1
        obtain ⟨b, hb, hs1⟩ := bind_ok.1 hs1
        cases hs1
        refine ⟨h.reach, hmsgs, hserved, fun p hd => ?_⟩
        have hg : (s.books.set q b).get ⟨0, 0⟩ p = if q = p then b else _ := Map.get_set ..
        show effs p (recBooks s.w p) (s.msgs.set i (f, some o)) = some ((s.books.set q b).get ⟨0, 0⟩ p)
        by_cases hp : q = p
        · subst hp
          rw [hg, if_pos rfl]
          obtain ⟨e1, e2⟩ := hold q hd ht
          rw [hset, effs_append, e1]
          show (eff q (booksOf s q) (f, some o)).bind _ = _
          have : eff q (booksOf s q) (f, some o) = some b := by
            unfold eff
            show (if target f = some q then _ else _) = _
            rw [if_pos ht, hb]; rfl
          rw [this]
          exact e2 b
        · rw [hg, if_neg hp]
          exact hother p hd (by rw [ht]; intro h; cases h; exact hp rfl)

theorem sysInv_call {s s' : Sys} {op : Op} (h : SysInv s) (hs : sysStep s (.call op) = .ok s') : SysInv s' := by
  have hs : sysCall s op = .ok s' := hs
  unfold sysCall at hs
  cases hd : isDeliver op with
  | true => rw [hd] at hs; cases hs
  | false =>
    rw [hd] at hs
    obtain ⟨w', hw, hs⟩ := bind_ok.1 hs
    cases hs
    obtain ⟨h1, h2, l, h3⟩ := call_frame h.reach hd hw
    have hdrop : w'.flights.drop s.w.flights.length = l := by rw [h3]; exact List.drop_left
    have hnone : ∀ e ∈ l.map (fun f => ((f, none) : Flight × Option Outcome)), e.2 = none := by
      intro e he; obtain ⟨f, _, rfl⟩ := List.mem_map.1 he; rfl
    refine ⟨.step _ h.reach hw, ?_, ?_, fun p hp => ?_⟩
    · show (s.msgs ++ (w'.flights.drop _).map _).map Prod.fst = w'.flights
      rw [hdrop, List.map_append, h.msgs, h3, List.map_map]
      congr 1
      exact List.map_id _
    · show Served (s.msgs ++ (w'.flights.drop _).map _)
      rw [hdrop]
      unfold Served
      rw [List.pairwise_append]
      refine ⟨h.served, ?_, fun e1 _ e2 h2 _ _ hn => absurd (hnone e2 h2) hn⟩
      rw [List.pairwise_iff_forall_sublist]
      intro a b hab _ _ hn
      exact absurd (hnone b (hab.subset (by simp))) hn
    · show effs p (recBooks w' p) (s.msgs ++ (w'.flights.drop _).map _) = some (booksOf s p)
      rw [hdrop, h1 p, effs_append, h.eq p (by rintro ⟨x, u, hx⟩; exact hp ⟨x, u, by show _ ∈ w'.dead; rw [h2]; exact hx⟩)]
      exact effs_id fun e he _ => hnone e he

theorem sysInv {s : Sys} (h : SysReachable InOrder s) : SysInv s := by
  induction h with
  | init hi =>
    refine ⟨.init hi, ?_, List.Pairwise.nil, fun p _ => ?_⟩
    · obtain ⟨self, owner, contracts, epoch, funds, acc, fees, rpe, mr, ms, ma, ub, _, _, rfl⟩ := isInit_eq hi
      rfl
    · obtain ⟨self, owner, contracts, epoch, funds, acc, fees, rpe, mr, ms, ma, ub, _, _, rfl⟩ := isInit_eq hi
      rfl
  | step op _ hp hs ih =>
    cases op with
    | call op => exact sysInv_call ih hs
    | serve i o => exact sysInv_serve ih hp hs
    | answer i => exact sysInv_answer ih hp hs
    | lose i => exact hp.elim

/-! Providers whose whitelisting failed pay nothing back. -/

theorem effs_withdrawals {p : Addr} : ∀ {l : List (Flight × Option Outcome)} {x : Nat} {b : Books},
    (∀ e ∈ l, target e.1 = some p → e.1 = .withdraw p) → effs p ⟨x, 0⟩ l = some b →
    b = ⟨x, 0⟩ ∧ ∀ g r, (.withdraw p, some (.ok g r)) ∈ l → g = 0
  | [], x, b, _, h => by
    cases h; exact ⟨rfl, fun _ _ h => by simp at h⟩
  | (f, a) :: l, x, b, hw, h => by
    have hw' : ∀ e ∈ l, target e.1 = some p → e.1 = .withdraw p := fun e he => hw e (List.mem_cons_of_mem _ he)
    have h' : (eff p ⟨x, 0⟩ (f, a)).bind (effs p · l) = some b := h
    have key : eff p ⟨x, 0⟩ (f, a) = some ⟨x, 0⟩ ∧ (∀ g r, (f, a) = (.withdraw p, some (.ok g r)) → g = 0) := by
      by_cases ht : target f = some p
      · have hf : f = .withdraw p := hw (f, a) (by simp) ht
        subst hf
        cases a with
        | none => exact ⟨rfl, fun _ _ h => by cases h⟩
        | some o =>
          cases o with
          | err =>
            refine ⟨?_, fun _ _ h => by cases h⟩
            unfold eff
            show (if _ then _ else _) = _
            rw [if_pos ht]; rfl
          | ok g r =>
            have e1 : eff p ⟨x, 0⟩ (.withdraw p, some (.ok g r)) = (serveOne ⟨x, 0⟩ (.withdraw p) (.ok g r)).toOption := by
              unfold eff
              show (if _ then _ else _) = _
              rw [if_pos ht]
            rw [e1] at h' ⊢
            cases hs : serveOne ⟨x, 0⟩ (.withdraw p) (.ok g r) with
            | error e => rw [hs] at h'; cases h'
            | ok b' =>
              unfold serveOne at hs
              simp only [bind_ok, csub_ok, Except.ok.injEq] at hs
              obtain ⟨_, ⟨hg, rfl⟩, rfl⟩ := hs
              have : g = 0 := by omega
              subst this
              exact ⟨rfl, fun _ _ h => by cases h; rfl⟩
      · exact ⟨eff_other ht, fun _ _ h => by cases h; exact absurd rfl ht⟩
    rw [key.1] at h'
    obtain ⟨h1, h2⟩ := effs_withdrawals hw' h'
    refine ⟨h1, fun g r hm => ?_⟩
    rcases List.mem_cons.1 hm with hm | hm
    · exact key.2 g r hm.symm
    · exact h2 g r hm

/-- A provider whose whitelisting failed has nothing unbonding and pays nothing. -/
def DeadOk (s : Sys) : Prop := ∀ p, DeadWl s.w p →
  (booksOf s p).unbonding = 0 ∧ ∀ g r, (.withdraw p, some (.ok g r)) ∈ s.msgs → g = 0

theorem dead_targets {w : World} (hr : Reachable w) {p : Addr} (hd : DeadWl w p) {f : Flight} (hf : f ∈ w.flights)
    (ht : target f = some p) : f = .withdraw p := by
  have hreg : RegOk w.st.lsToken w.st.unstakeToken w.st.delegList w.st.undelegList w.st.data w.flights w.dead :=
    reachable_regInv hr
  obtain ⟨h1, _, h3⟩ := reachable_deadWl hr p hd
  cases f with
  | delegate q a => cases ht; exact absurd (hreg.flt _ _ (.inl hf)) h1
  | undelegate q a => cases ht; exact absurd (hreg.flt _ _ (.inr hf)) h1
  | withdraw q => cases ht; rfl
  | claim ps => cases ht
  | whitelist q x u => cases ht; exact absurd hf (h3 x u)

theorem msgs_flight {s : Sys} (h : SysInv s) {e : Flight × Option Outcome} (he : e ∈ s.msgs) : e.1 ∈ s.w.flights := by
  rw [← h.msgs]; exact List.mem_map_of_mem he

theorem deadOk_serve {s s' : Sys} {i : Nat} {o : Outcome} (h : SysInv s) (hd : DeadOk s)
    (hs : sysStep s (.serve i o) = .ok s') : DeadOk s' := by
  have hs1 : serve s i o = .ok s' := hs
  unfold serve at hs1
  cases he : s.msgs[i]? with
  | none => rw [he] at hs1; cases hs1
  | some e =>
    obtain ⟨f, a⟩ := e
    rw [he] at hs1
    cases a with
    | some o' => cases hs1
    | none =>
      have hmem := List.mem_of_getElem? he
      have hset : ∀ {e}, e ∈ s.msgs.set i (f, some o) → e ∈ s.msgs ∨ e = (f, some o) := fun h => List.mem_or_eq_of_mem_set h
      cases ht : target f with
      | none =>
        simp only [ht] at hs1
        cases hs1
        intro p hp
        obtain ⟨h1, h2⟩ := hd p hp
        refine ⟨h1, fun g r hm => ?_⟩
        rcases hset hm with hm | hm
        · exact h2 g r hm
        · cases hm; cases ht
      | some q =>
        simp only [ht] at hs1
        obtain ⟨b, hb, hs1⟩ := bind_ok.1 hs1
        cases hs1
        intro p hp
        obtain ⟨h1, h2⟩ := hd p hp
        have hg : (s.books.set q b).get ⟨0, 0⟩ p = if q = p then b else _ := Map.get_set ..
        show ((s.books.set q b).get ⟨0, 0⟩ p).unbonding = 0 ∧ _
        by_cases hq : q = p
        · subst hq
          rw [hg, if_pos rfl]
          have hf := dead_targets h.reach hp (msgs_flight h hmem) ht
          have hf' : f = .withdraw q := hf
          subst hf'
          cases o with
          | err =>
            cases hb
            refine ⟨h1, fun g r hm => ?_⟩
            rcases hset hm with hm | hm
            · exact h2 g r hm
            · cases hm
          | ok g0 r0 =>
            unfold serveOne at hb
            simp only [bind_ok, csub_ok, Except.ok.injEq] at hb
            obtain ⟨_, ⟨hle, rfl⟩, rfl⟩ := hb
            rw [h1] at hle
            refine ⟨by show (booksOf s q).unbonding - g0 = 0; omega, fun g r hm => ?_⟩
            rcases hset hm with hm | hm
            · exact h2 g r hm
            · cases hm; omega
        · rw [hg, if_neg hq]
          refine ⟨h1, fun g r hm => ?_⟩
          rcases hset hm with hm | hm
          · exact h2 g r hm
          · cases hm; cases ht; exact absurd rfl hq

theorem deadOk_call {s s' : Sys} {op : Op} (h : SysInv s) (hd : DeadOk s) (hs : sysStep s (.call op) = .ok s') : DeadOk s' := by
  have hs : sysCall s op = .ok s' := hs
  unfold sysCall at hs
  cases hdl : isDeliver op with
  | true => rw [hdl] at hs; cases hs
  | false =>
    rw [hdl] at hs
    obtain ⟨w', hw, hs⟩ := bind_ok.1 hs
    cases hs
    obtain ⟨_, h2, _⟩ := call_frame h.reach hdl hw
    rintro p ⟨x, u, hx⟩
    have hx' : Flight.whitelist p x u ∈ w'.dead := hx
    rw [h2] at hx'
    obtain ⟨h3, h4⟩ := hd p ⟨x, u, hx'⟩
    refine ⟨h3, fun g r hm => ?_⟩
    rcases List.mem_append.1 hm with hm | hm
    · exact h4 g r hm
    · obtain ⟨_, _, hm⟩ := List.mem_map.1 hm
      cases hm

theorem deadOk_answer {s s' : Sys} {i : Nat} (h : SysInv s) (hd : DeadOk s) (ho : InOrder s (.answer i))
    (hs : sysStep s (.answer i) = .ok s') : DeadOk s' := by
  have hs0 := hs
  have hs : answer s i = .ok s' := hs
  unfold answer at hs
  cases he : s.msgs[i]? with
  | none => rw [he] at hs; cases hs
  | some e =>
    obtain ⟨f, a⟩ := e
    rw [he] at hs
    cases a with
    | none => cases hs
    | some o =>
      obtain ⟨w', hw, hs⟩ := bind_ok.1 hs
      cases hs
      have hf : s.w.flights[i]? = some f := by rw [← h.msgs, List.getElem?_map, he]; rfl
      obtain ⟨hsplit, hpre⟩ := msgs_split he
      have her : s.msgs.eraseIdx i = s.msgs.take i ++ s.msgs.drop (i + 1) := List.eraseIdx_eq_take_drop_succ _ _
      intro p hp
      by_cases hold : DeadWl s.w p
      · obtain ⟨h1, h2⟩ := hd p hold
        exact ⟨h1, fun g r hm => h2 g r (List.mem_of_mem_eraseIdx hm)⟩
      · have hpd : ∃ x u, f = .whitelist p x u := by
          obtain ⟨x, u, hx⟩ := hp
          have hx' : Flight.whitelist p x u ∈ w'.dead := hx
          obtain ⟨f', hf', hcb | ⟨_, rfl⟩⟩ := deliver_ok hw
          · rw [(runCallback_flights hcb).2] at hx'
            exact absurd ⟨x, u, hx'⟩ hold
          · rw [hf] at hf'; cases hf'
            have hx2 : Flight.whitelist p x u ∈ s.w.dead ++ [f] := hx'
            rw [List.mem_append, List.mem_singleton] at hx2
            rcases hx2 with hx2 | hx2
            · exact absurd ⟨x, u, hx2⟩ hold
            · exact ⟨x, u, hx2.symm⟩
        obtain ⟨x, u, rfl⟩ := hpd
        have hreach' : Reachable w' := .step _ h.reach hw
        have hfl' : w'.flights = s.w.flights.eraseIdx i := by
          obtain ⟨f', hf', hcb | ⟨_, rfl⟩⟩ := deliver_ok hw
          · exact (runCallback_flights hcb).1
          · rfl
        have hall : ∀ e ∈ s.msgs.take i ++ s.msgs.drop (i + 1), target e.1 = some p → e.1 = .withdraw p := by
          intro e hmem ht
          refine dead_targets hreach' hp ?_ ht
          rw [hfl', ← h.msgs, ← map_eraseIdx, her]
          exact List.mem_map_of_mem hmem
        have hreg : RegOk s.w.st.lsToken s.w.st.unstakeToken s.w.st.delegList s.w.st.undelegList s.w.st.data s.w.flights s.w.dead :=
          reachable_regInv h.reach
        obtain ⟨z1, z2⟩ := hreg.wl2 p x u (List.mem_of_getElem? hf)
        obtain ⟨d, hd'⟩ := Option.ne_none_iff_exists'.1 z2
        obtain ⟨z3, z4, _⟩ := hreg.zero p d hd' z1
        have hrec : recBooks s.w p = ⟨0, 0⟩ := by
          unfold recBooks recOf; rw [hd']; show Books.mk d.staked d.unstaked = _; rw [z3, z4]
        have heq := h.eq p hold
        have hpre0 : ∀ b, effs p b (s.msgs.take i) = some b := fun b => effs_id fun e' he' ht => by
          obtain ⟨j, hj, hj'⟩ := hpre e' he'
          have := ho j hj e'.1 _ e'.2 (some o) hj' he ht
          rw [ht] at this; cases this
        rw [hsplit, effs_append, hpre0, hrec] at heq
        have hex : ∃ y, effs p ⟨y, 0⟩ (s.msgs.drop (i + 1)) = some (booksOf s p) := by
          have heq' : (eff p ⟨0, 0⟩ (.whitelist p x u, some o)).bind (effs p · (s.msgs.drop (i + 1))) = some (booksOf s p) := heq
          have e1 : eff p ⟨0, 0⟩ (.whitelist p x u, some o) = (serveOne ⟨0, 0⟩ (.whitelist p x u) o).toOption := by
            unfold eff
            show (if _ then _ else _) = _
            rw [if_pos (show target (.whitelist p x u) = some p from rfl)]
          rw [e1] at heq'
          cases o with
          | ok g r => exact ⟨_, heq'⟩
          | err => exact ⟨_, heq'⟩
        obtain ⟨y, hy⟩ := hex
        have hfin : effs p ⟨y, 0⟩ (s.msgs.take i ++ s.msgs.drop (i + 1)) = some (booksOf s p) := by
          rw [effs_append, hpre0]; exact hy
        obtain ⟨r1, r2⟩ := effs_withdrawals hall hfin
        refine ⟨by show (booksOf s p).unbonding = 0; rw [r1], fun g r hm => r2 g r ?_⟩
        have hm' : _ ∈ s.msgs.eraseIdx i := hm
        rw [her] at hm'
        exact hm'

theorem deadOk {s : Sys} (h : SysReachable InOrder s) : DeadOk s := by
  induction h with
  | init hi =>
    obtain ⟨self, owner, contracts, epoch, funds, acc, fees, rpe, mr, ms, ma, ub, _, _, rfl⟩ := isInit_eq hi
    rintro p ⟨x, u, hx⟩; simp at hx
  | step op hr hp hs ih =>
    cases op with
    | call op => exact deadOk_call (sysInv hr) ih hs
    | serve i o => exact deadOk_serve (sysInv hr) ih hs
    | answer i => exact deadOk_answer (sysInv hr) ih hp hs
    | lose i => exact hp.elim

end LS
