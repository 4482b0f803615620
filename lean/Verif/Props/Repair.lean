import Verif.Props.Accept
import Verif.Props.Shares
import Verif.Proofs.Parts

/-! What the managers can always repair: C87, C88. -/

namespace LS
open Spec Demo

/-- The transaction is one of manager `m` setting the scoring configuration or the declared terms of some provider. -/
def Steers (m : Addr) (_ : World) (op : Op) (_ : World) : Prop :=
  (∃ cfg, op = .setScoringConfig m cfg) ∨ ∃ q ts cap nn apy e, op = .changeParams m q ts cap nn apy e

/-- The record with no cap declared. -/
private def uncapped (e : Bool) (d : ProviderData) : ProviderData := { d with totalStaked := 0, cap := 0, eligible := e }

private theorem params_step {w : World} {m q : Addr} {d : ProviderData} (hm : Manager w m) (hd : provider w q = some d) (e : Bool) :
    step w (.changeParams m q 0 0 d.nrNodes d.apy e) =
      .ok { w with st := { w.st with data := w.st.data.set q (some (uncapped e d)) } } := by
  have hd' : w.st.data.get none q = some d := hd
  have hmm : isManager w m = true := by
    unfold isManager; simpa using hm.2
  show changeParams w m q 0 0 d.nrNodes d.apy e = _
  unfold changeParams requireUser req updateData getData
  rw [if_pos hm.1, hd']
  simp only [bind, Except.bind]
  rw [if_pos (by simp), if_pos (.inr hmm), if_pos (.inl (Nat.le_refl 0))]
  rfl

private theorem close_all {m : Addr} (l : List Addr) {w : World} (hm : Manager w m) (hl : ∀ q ∈ l, provider w q ≠ none) :
    ∃ D, Trace (Steers m) w { w with st := { w.st with data := D } } ∧
      ∀ q, D.get none q = if q ∈ l then (provider w q).map (uncapped false) else provider w q := by
  induction l generalizing w with
  | nil => exact ⟨w.st.data, .nil, fun q => by simp [provider]⟩
  | cons p l ih =>
    obtain ⟨d, hd⟩ := Option.ne_none_iff_exists'.1 (hl p List.mem_cons_self)
    have hs := params_step hm hd false
    have hp : ∀ q, provider { w with st := { w.st with data := w.st.data.set p (some (uncapped false d)) } } q =
        if p = q then some (uncapped false d) else provider w q := fun q => Map.get_set _ _ _ _ _
    obtain ⟨D, ht, hD⟩ := ih (w := { w with st := { w.st with data := w.st.data.set p (some (uncapped false d)) } }) hm (by
      intro q hq
      rw [hp]
      split
      · simp
      · exact hl q (List.mem_cons_of_mem _ hq))
    refine ⟨D, trace_cons hs (.inr ⟨_, _, _, _, _, _, rfl⟩) ht, fun q => ?_⟩
    rw [hD, hp]
    by_cases h1 : p = q
    · subst h1
      rw [if_pos rfl, if_pos List.mem_cons_self, hd]
      split <;> rfl
    · rw [if_neg h1]
      simp only [List.mem_cons, Ne.symm h1, false_or]

/-- What `steer` arrives at: everybody on the list closed except `p`, which has no cap. -/
private theorem steer {w : World} {m p : Addr} (hR : Reachable w) (hm : Manager w m) (hp : p ∈ w.st.delegList) :
    ∃ D, Trace (Steers m) w { w with st := { w.st with data := D, scoring := some .default } } ∧
      (∀ q ∈ w.st.delegList, q ≠ p → D.get none q = (provider w q).map (uncapped false)) ∧
      D.get none p = (provider w p).map (uncapped true) ∧ (∀ q, q ∉ w.st.delegList → D.get none q = provider w q) := by
  have hreg : RegOk w.st.lsToken w.st.unstakeToken w.st.delegList w.st.undelegList w.st.data w.flights w.dead :=
    reachable_regInv hR
  have hrec : ∀ q ∈ w.st.delegList, provider w q ≠ none := hreg.recd
  have h0 : step w (.setScoringConfig m .default) = .ok { w with st := { w.st with scoring := some .default } } := by
    have hmm : isManager w m = true := by
      unfold isManager; simpa using hm.2
    show setScoringConfig w m .default = _
    unfold setScoringConfig requireUser requireManager req
    rw [if_pos hm.1, hmm]
    rfl
  obtain ⟨D, ht, hD⟩ := close_all (m := m) w.st.delegList (w := { w with st := { w.st with scoring := some .default } }) hm hrec
  obtain ⟨d, hd⟩ := Option.ne_none_iff_exists'.1 (hrec p hp)
  have hD' : ∀ q, D.get none q = if q ∈ w.st.delegList then (provider w q).map (uncapped false) else provider w q := hD
  have h1 : D.get none p = some (uncapped false d) := by rw [hD', if_pos hp, hd]; rfl
  have hs := params_step (w := { w with st := { w.st with data := D, scoring := some .default } }) hm h1 true
  refine ⟨D.set p (some (uncapped true (uncapped false d))), trace_cons h0 (.inl ⟨_, rfl⟩) (.snoc _ ht hs (.inr ⟨_, _, _, _, _, _, rfl⟩)), ?_, ?_, ?_⟩
  · intro q hq hne
    rw [Map.get_set, if_neg (Ne.symm hne), hD', if_pos hq]
  · rw [Map.get_set, if_pos rfl, hd]; rfl
  · intro q hq
    rw [Map.get_set, if_neg (by rintro rfl; exact hq hp), hD', if_neg hq]

private theorem trace_then {P} {w w1 w2 : World} (h1 : Trace P w w1) (h2 : Trace P w1 w2) : Trace P w w2 := by
  induction h2 with
  | nil => exact h1
  | snoc op _ hs hp ih => exact .snoc op ih hs hp

private theorem honest_of {m : Addr} {w w' : World} {op : Op} (h : Steers m w op w') : HonestManager w op w' := by
  rcases h with ⟨_, rfl⟩ | ⟨_, _, _, _, _, _, rfl⟩ <;> trivial

private theorem figures_same {w : World} {D : Map Addr (Option ProviderData)} {sc : Option ScoringConfig}
    (hD : ∀ q, ∃ f : ProviderData → ProviderData, (∀ d, (f d).staked = d.staked ∧ (f d).unstaked = d.unstaked ∧
      (f d).pStake = d.pStake ∧ (f d).pUnstake = d.pUnstake ∧ (f d).admin = d.admin) ∧ D.get none q = (provider w q).map f) (x : Part)
    (h1 : ∀ q, x ≠ .terms q ∧ x ≠ .eligible q) (h2 : x ≠ .scoring) :
    Same w { w with st := { w.st with data := D, scoring := sc } } x := by
  have key : ∀ {β : Type} (g : ProviderData → β) (q : Addr), (∀ f : ProviderData → ProviderData,
      (∀ d, (f d).staked = d.staked ∧ (f d).unstaked = d.unstaked ∧ (f d).pStake = d.pStake ∧ (f d).pUnstake = d.pUnstake ∧
        (f d).admin = d.admin) → ∀ d, g (f d) = g d) → (D.get none q).map g = (provider w q).map g := by
    intro β g q hg
    obtain ⟨f, hf, hq⟩ := hD q
    rw [hq, Option.map_map]
    cases provider w q with
    | none => rfl
    | some d => exact congrArg some (hg f hf d)
  have kfig : ∀ (g : ProviderData → Nat) (q : Addr), (D.get none q).map g = (provider w q).map g →
      figure g { w with st := { w.st with data := D, scoring := sc } } q = figure g w q := by
    intro g q h
    have : ∀ w : World, figure g w q = ((provider w q).map g).getD 0 := by
      intro w; unfold figure; cases provider w q <;> rfl
    rw [this, this]
    exact congrArg (·.getD 0) h
  cases x with
  | scoring => exact absurd rfl h2
  | terms q => exact absurd rfl (h1 q).1
  | eligible q => exact absurd rfl (h1 q).2
  | listed q =>
    have := key (fun _ => ()) q (fun _ _ _ => rfl)
    have h : (D.get none q).isSome = (provider w q).isSome := by
      have := congrArg Option.isSome this
      simpa using this
    exact h
  | admin q => exact key (·.admin) q (fun f hf d => (hf d).2.2.2.2)
  | staked q => exact kfig _ q (key (·.staked) q (fun f hf d => (hf d).1))
  | unstaked q => exact kfig _ q (key (·.unstaked) q (fun f hf d => (hf d).2.1))
  | inFlightStake q => exact kfig _ q (key (·.pStake) q (fun f hf d => (hf d).2.2.1))
  | inFlightUnstake q => exact kfig _ q (key (·.pUnstake) q (fun f hf d => (hf d).2.2.2.1))
  | identity => exact ⟨rfl, rfl⟩
  | lsSlot => exact ⟨rfl, rfl⟩
  | unstakeSlot => exact ⟨rfl, rfl⟩
  | migrated => exact ⟨rfl, rfl⟩
  | burnt => exact ⟨rfl, rfl⟩
  | _ => rfl

/-- **C87.** Whatever the admins of the providers have declared, and however many are closed: for every listed provider `p` from
which no more is asked back than it has, any manager can, by setting terms and the scoring configuration alone, reach a state
in which every valid `delegatePending` succeeds and sends the whole amount to `p`.  Nothing but terms, eligibility and scoring
configuration is changed on the way. -/
theorem C87_steer {w : World} {m p : Addr} (hr : ReachableBy HonestManager w) (hm : Manager w m) (hrun : Running w)
    (hp : p ∈ w.st.delegList) (hd : NotOverdrawn w p) (h1 : w.st.delegList.length < 2 ^ 32)
    (h2 : w.st.undelegList.length < 2 ^ 32) (h3 : w.st.maxSelectedProviders < 2 ^ 32) :
    ∃ w1, Trace (Steers m) w w1 ∧
      (∀ x, (∀ q, x ≠ .terms q ∧ x ≠ .eligible q) → x ≠ .scoring → Same w w1 x) ∧
      ∀ o, ValidBatch (pendingEgld w) o → ∃ w2, step w1 (.delegatePending m o) = .ok w2 ∧
        w2.flights = w.flights ++ [.delegate p (batchAsked (pendingEgld w) o)] := by
  have hR := reachableBy_reachable hr
  obtain ⟨D, ht, hD1, hD2, hD3⟩ := steer hR hm hp
  have hsame := figures_same (w := w) (D := D) (sc := some .default) (fun q => by
    by_cases hq : q ∈ w.st.delegList
    · by_cases hqp : q = p
      · subst hqp; exact ⟨uncapped true, fun d => ⟨rfl, rfl, rfl, rfl, rfl⟩, hD2⟩
      · exact ⟨uncapped false, fun d => ⟨rfl, rfl, rfl, rfl, rfl⟩, hD1 q hq hqp⟩
    · exact ⟨id, fun d => ⟨rfl, rfl, rfl, rfl, rfl⟩, by rw [hD3 q hq]; simp⟩)
  refine ⟨_, ht, hsame, fun o hv => ?_⟩
  have hr1 : ReachableBy HonestManager { w with st := { w.st with data := D, scoring := some .default } } := by
    obtain ⟨w0, hi, h0⟩ := hr
    exact ⟨w0, hi, trace_then h0 (trace_mono (fun _ _ _ => honest_of) ht)⟩
  obtain ⟨d, hd1, hd2⟩ := hd
  generalize hw1 : ({ w with st := { w.st with data := D, scoring := some .default } } : World) = w1 at hr1 ht hsame ⊢
  have e1 : w1.st.delegList = w.st.delegList := by rw [← hw1]
  have e2 : w1.st.undelegList = w.st.undelegList := by rw [← hw1]
  have e3 : w1.st.maxSelectedProviders = w.st.maxSelectedProviders := by rw [← hw1]
  have e4 : pendingEgld w1 = pendingEgld w := by rw [← hw1]; rfl
  have ep : provider w1 p = some (uncapped true d) := by
    rw [← hw1]; show D.get none p = _; rw [hD2, hd1]; rfl
  have eq : ∀ q ∈ w.st.delegList, q ≠ p → provider w1 q = (provider w q).map (uncapped false) := by
    intro q hq hne; rw [← hw1]; exact hD1 q hq hne
  have hopen : openTo w1 p = true := by unfold openTo; rw [ep]; rfl
  have hclosed : ∀ q ∈ w.st.delegList, q ≠ p → openTo w1 q = false := by
    intro q hq hne
    unfold openTo; rw [eq q hq hne]
    cases provider w q <;> rfl
  have hreg : RegOk w.st.lsToken w.st.unstakeToken w.st.delegList w.st.undelegList w.st.data w.flights w.dead :=
    reachable_regInv hR
  obtain ⟨l1, l2, hl⟩ := List.append_of_mem hp
  have hnd := hreg.nd1
  rw [hl] at hnd
  have hlooks : LooksAt w1 (batchAsked (pendingEgld w) o) p := by
    refine ⟨l1, l2, by rw [e1, hl], ?_⟩
    have hf : l1.filter (openTo w1) = [] := by
      rw [List.filter_eq_nil_iff]
      intro q hq
      have hne : q ≠ p := by
        rintro rfl
        exact (List.nodup_append.1 hnd).2.2 q hq q List.mem_cons_self rfl
      rw [hclosed q (by rw [hl]; simp [hq]) hne]; simp
    rw [hf, e1]
    unfold howMany
    rw [e3]
    have := (reachable_limits hR).1
    have hlen : 0 < w.st.delegList.length := List.length_pos_of_mem hp
    have h5 : 0 < batchAsked (pendingEgld w) o / oneEgld := Nat.div_pos hv.1 (by decide)
    show 0 < _
    omega
  have hacc : Accepted w1 (.delegatePending m o) := by
    refine ⟨by rw [← hw1]; exact hm, by rw [← hw1]; exact hrun, by rw [e4]; exact hv, ?_⟩
    rw [e4]
    refine ⟨.default, by rw [← hw1], ?_, ⟨p, hlooks, hopen⟩, ?_⟩
    · rintro q ⟨k1, k2, hk, _⟩
      have hq : q ∈ w.st.delegList := by rw [← e1, hk]; simp
      by_cases hne : q = p
      · subst hne
        exact ⟨_, ep, fun _ => ⟨hd2, .inl rfl⟩⟩
      · obtain ⟨d', hd'⟩ := Option.ne_none_iff_exists'.1 (hreg.recd q hq)
        refine ⟨_, by rw [eq q hq hne]; show Option.map _ (w.st.data.get none q) = _; rw [hd']; rfl, fun h => by cases h⟩
    · intro q _ _ d' _
      have a1 : (1 : UInt64) ≠ 100 := by decide
      have a2 : (500 : UInt64) ≠ 1000 := by decide
      exact ⟨fun h => a1 (h.1.symm.trans h.2), fun h => a2 (h.1.symm.trans h.2)⟩
  obtain ⟨w2, hs⟩ := (C69_accepted_iff hr1 (by rw [e1]; exact h1) (by rw [e2]; exact h2) (by rw [e3]; exact h3)).2 hacc
  refine ⟨w2, hs, ?_⟩
  have hR1 := reachableBy_reachable hr1
  obtain ⟨b, hb, _⟩ := C17_delegatePending_exact hs
  obtain ⟨g1, g2, _⟩ := C18_delegation_targets hR1 hs hb (by rw [e1]; exact h1)
  have hall := C45_all_sent hR1 hs hb (by rw [e1]; exact h1) (by
    intro q hq
    have hq2 := (mem_candidates hq)
    have : q = p := by
      by_contra hne
      rw [hclosed q (by rw [← e1]; exact hq2.1) hne] at hq2
      cases hq2.2
    subst this
    unfold room; rw [ep]; rfl)
  rw [e4] at hall
  have hmem : ∀ x ∈ b, x.1 = p := by
    intro x hx
    by_contra hne
    obtain ⟨g3, ⟨d', g4, g5⟩, _⟩ := g2 x.1 x.2 hx
    rw [e1] at g3
    rw [eq _ g3 hne] at g4
    cases hh : provider w x.1 with
    | none => rw [hh] at g4; cases g4
    | some d0 => rw [hh] at g4; cases g4; cases g5
  have hf : w1.flights = w.flights := by rw [← hw1]
  rw [hb, hf]
  congr 1
  cases b with
  | nil =>
    have : 0 < batchAsked (pendingEgld w) o := Nat.lt_of_lt_of_le (by decide) hv.1
    rw [← hall] at this
    exact absurd this (by simp [batchTotal])
  | cons x b =>
    cases b with
    | nil =>
      obtain ⟨q, a⟩ := x
      have : q = p := hmem _ List.mem_cons_self
      subst this
      have : a = batchAsked (pendingEgld w) o := by simpa [batchTotal] using hall
      rw [← this]; rfl
    | cons y b =>
      have h5 := hmem x List.mem_cons_self
      have h6 := hmem y (by simp)
      simp [h5, h6] at g1

private theorem notOver_of {w : World} {p : Addr}
    (h : (match provider w p with | some d => decide (d.pUnstake ≤ d.staked + d.pStake) | none => false) = true) : NotOverdrawn w p := by
  cases hd : provider w p with
  | none => rw [hd] at h; cases h
  | some d => rw [hd] at h; exact ⟨d, hd, of_decide_eq_true h⟩

/-- Opening of the contract, two providers with 51 EGLD each, and 50 EGLD waiting, when the admin of provider 21 lowers its cap. -/
def blocked : List Op := [
  .registerLsToken 1 0, .issued 0 (some 500), .registerUnstakeToken 1 0, .issued 0 (some 501), .owner 1 .stateActive,
  .setScoringConfig 1 ScoringConfig.default,
  .whitelist 1 (E 1) 21 41 (E 1000) (E 1500) 10 800, .deliver 0 (.ok 0 0), .whitelist 1 (E 1) 22 42 (E 1000) 0 20 900, .deliver 0 (.ok 0 0),
  .delegate 11 (E 100), .delegatePending 1 none, .deliver 0 (.ok 0 0), .deliver 0 (.ok 0 0), .delegate 12 (E 50),
  .changeParams 41 21 0 (E 1) 10 800 true]

/-- Every `delegatePending` fails there until a manager intervenes. -/
example : let w := run fresh blocked
    ReachableBy HonestManager w ∧ Manager w 1 ∧ Running w ∧ (∀ p ∈ [21, 22], p ∈ w.st.delegList ∧ NotOverdrawn w p) ∧
    ValidBatch (pendingEgld w) none ∧ works w (.delegatePending 1 none) = false := by
  refine ⟨reachableBy_honest (by decide +kernel), ⟨by decide +kernel, .inr (by decide +kernel)⟩,
    ⟨by decide +kernel, by decide +kernel⟩, ?_, ⟨by decide +kernel, by decide +kernel, .inl (by decide +kernel)⟩, by decide +kernel⟩
  intro p hp
  simp only [List.mem_cons, List.not_mem_nil, or_false] at hp
  rcases hp with rfl | rfl
  · exact ⟨by decide +kernel, notOver_of (by decide +kernel)⟩
  · exact ⟨by decide +kernel, notOver_of (by decide +kernel)⟩

/-- **C87**, when it applies: a provider is overdrawn only while an un-delegation from it is on its way, or after the callback of one
failed. -/
theorem C87_not_overdrawn {w : World} {p : Addr} (hr : Reachable w) (hp : p ∈ w.st.delegList)
    (h1 : ∀ a, .undelegate p a ∉ w.flights) (h2 : ∀ a, .undelegate p a ∉ w.dead) : NotOverdrawn w p := by
  have hreg : RegOk w.st.lsToken w.st.unstakeToken w.st.delegList w.st.undelegList w.st.data w.flights w.dead :=
    reachable_regInv hr
  have h0 : ∀ l : List Flight, (∀ a, .undelegate p a ∉ l) → fsum (undelegAmt p) l = 0 := by
    intro l hl
    induction l with
    | nil => rfl
    | cons f l ih =>
      have h3 : undelegAmt p f = 0 := by
        cases f with
        | undelegate q a =>
          refine if_neg ?_
          rintro rfl
          exact hl a List.mem_cons_self
        | _ => rfl
      show undelegAmt p f + fsum (undelegAmt p) l = 0
      rw [h3, ih (fun a ha => hl a (List.mem_cons_of_mem _ ha))]
  obtain ⟨d, hd⟩ := Option.ne_none_iff_exists'.1 (hreg.recd p hp)
  have hpu := hreg.pu p
  rw [h0 _ h1, h0 _ h2] at hpu
  unfold recOf at hpu
  rw [hd] at hpu
  refine ⟨d, hd, ?_⟩
  have : d.pUnstake = 0 := hpu
  omega

example : 21 ∈ (run fresh blocked).st.delegList ∧ (∀ a, .undelegate 21 a ∉ (run fresh blocked).flights) ∧
    ∀ a, .undelegate 21 a ∉ (run fresh blocked).dead := by
  have h1 : (run fresh blocked).flights = [] := by decide +kernel
  have h2 : (run fresh blocked).dead = [] := by decide +kernel
  exact ⟨by decide +kernel, fun a => by rw [h1]; simp, fun a => by rw [h2]; simp⟩

/-- The transaction is one of manager `m` setting the scoring configuration or the declared terms of some provider, or sending a
delegation batch. -/
def Rescues (m : Addr) (w : World) (op : Op) (w' : World) : Prop := Steers m w op w' ∨ ∃ o, op = .delegatePending m o

/-- What such transactions change. -/
def Rescued (w : World) : Part → Prop
  | .terms _ | .eligible _ | .scoring | .pending | .delegOrder | .calls | .events | .inFlightStake _ => True
  | .egld a => a = w.self
  | _ => False

/-- Provider `p` has stake, but less than one EGLD. -/
def Remnant (w : World) (p : Addr) : Prop := 0 < netStake w p ∧ netStake w p < oneEgld

instance (w : World) (p : Addr) : Decidable (Remnant w p) := inferInstanceAs (Decidable (_ ∧ _))

private structure Fine (m : Addr) (w : World) : Prop where
  hr : ReachableBy HonestManager w
  hm : Manager w m
  hrun : Running w
  hno : ∀ p ∈ w.st.undelegList, NotOverdrawn w p
  h1 : w.st.delegList.length < 2 ^ 32
  h2 : w.st.undelegList.length < 2 ^ 32
  h3 : w.st.maxSelectedProviders < 2 ^ 32

private theorem lengths {w : World} (hR : Reachable w) : w.st.delegList.length = w.st.undelegList.length := by
  have hreg : RegOk w.st.lsToken w.st.unstakeToken w.st.delegList w.st.undelegList w.st.data w.flights w.dead :=
    reachable_regInv hR
  exact ((List.perm_ext_iff_of_nodup hreg.nd1 hreg.nd2).2 hreg.same).length_eq

private theorem rescued_trans {w w1 w2 : World} (h1 : ∀ x, ¬ Rescued w x → Same w w1 x)
    (h2 : ∀ x, ¬ Rescued w1 x → Same w1 w2 x) : ∀ x, ¬ Rescued w x → Same w w2 x := by
  intro x hx
  have hi : w1.self = w.self := (h1 .identity (fun h => h)).1
  refine Spec.Same.trans (h1 x hx) (h2 x ?_)
  cases x with
  | egld a => intro h; exact hx (h.trans hi)
  | _ => exact hx

private theorem fine_of {m : Addr} {w w1 : World} (hf : Fine m w) (ht : Trace (Rescues m) w w1)
    (hs : ∀ x, ¬ Rescued w x → Same w w1 x) (hn : ∀ p, figure (·.pStake) w p ≤ figure (·.pStake) w1 p) : Fine m w1 := by
  have i1 : w1.self = w.self := (hs .identity (fun h => h)).1
  have i2 : w1.owner = w.owner := hs .owner (fun h => h)
  have i3 : w1.st.managers = w.st.managers := hs .managers (fun h => h)
  have i4 : w1.st.state = w.st.state := hs .switch (fun h => h)
  have i5 : w1.st.lsToken = w.st.lsToken := (hs .lsSlot (fun h => h)).1
  have i6 : w1.st.undelegList = w.st.undelegList := hs .undelegOrder (fun h => h)
  have i7 : w1.st.maxSelectedProviders = w.st.maxSelectedProviders := hs .maxSelected (fun h => h)
  have hr1 : ReachableBy HonestManager w1 := by
    obtain ⟨w0, hi, h0⟩ := hf.hr
    refine ⟨w0, hi, trace_then h0 (trace_mono (fun _ _ _ h => ?_) ht)⟩
    rcases h with h | ⟨o, rfl⟩
    · exact honest_of h
    · trivial
  refine ⟨hr1, ?_, ?_, ?_, ?_, ?_, ?_⟩
  · unfold Manager; rw [i1, i2, i3]; exact hf.hm
  · unfold Running; rw [i4, i5]; exact hf.hrun
  · intro p hp
    rw [i6] at hp
    obtain ⟨d, hd, hle⟩ := hf.hno p hp
    have l1 : (provider w1 p).isSome = (provider w p).isSome := hs (.listed p) (fun h => h)
    have l2 : figure (·.staked) w1 p = figure (·.staked) w p := hs (.staked p) (fun h => h)
    have l3 : figure (·.pUnstake) w1 p = figure (·.pUnstake) w p := hs (.inFlightUnstake p) (fun h => h)
    have l4 := hn p
    unfold figure at l2 l3 l4
    rw [hd] at l1 l2 l3 l4
    cases hd1 : provider w1 p with
    | none => rw [hd1] at l1; cases l1
    | some d1 =>
      rw [hd1] at l2 l3 l4
      simp only at l2 l3 l4
      exact ⟨d1, hd1, by omega⟩
  · rw [lengths (reachableBy_reachable hr1), i6]; exact hf.h2
  · rw [i6]; exact hf.h2
  · rw [i7]; exact hf.h3

private theorem net_of {w w1 : World} {p : Addr} (h1 : figure (·.staked) w1 p = figure (·.staked) w p)
    (h2 : figure (·.pUnstake) w1 p = figure (·.pUnstake) w p) {a : Nat}
    (h3 : figure (·.pStake) w1 p = figure (·.pStake) w p + a) (h4 : NotOverdrawn w p ∨ a = 0) : netStake w1 p = netStake w p + a := by
  unfold netStake
  rw [h1, h2, h3]
  rcases h4 with ⟨d, hd, hle⟩ | rfl
  · unfold figure; rw [hd]; simp only; omega
  · rfl

/-- One batch to a provider with a remnant. -/
private theorem lift_one {m p : Addr} {w : World} (hf : Fine m w) (hp : p ∈ w.st.undelegList) {o : Option Nat}
    (hv : ValidBatch (pendingEgld w) o) : ∃ w1, Trace (Rescues m) w w1 ∧ (∀ x, ¬ Rescued w x → Same w w1 x) ∧ Fine m w1 ∧
      netStake w1 p = netStake w p + batchAsked (pendingEgld w) o ∧ (∀ q, q ≠ p → netStake w1 q = netStake w q) ∧
      pendingEgld w1 + batchAsked (pendingEgld w) o = pendingEgld w := by
  have hR := reachableBy_reachable hf.hr
  have hreg : RegOk w.st.lsToken w.st.unstakeToken w.st.delegList w.st.undelegList w.st.data w.flights w.dead :=
    reachable_regInv hR
  obtain ⟨w1, ht, hs, hb⟩ := C87_steer hf.hr hf.hm hf.hrun ((hreg.same p).2 hp) (hf.hno p hp) hf.h1 hf.h2 hf.h3
  obtain ⟨w2, hst, hfl⟩ := hb o hv
  have hR1 := reachable_trace hR ht
  have hs1 : ∀ x, ¬ Rescued w x → Same w w1 x := fun x hx => hs x (fun q => ⟨by rintro rfl; exact hx trivial, by rintro rfl; exact hx trivial⟩)
    (by rintro rfl; exact hx trivial)
  have hs2 : ∀ x, ¬ Rescued w1 x → Same w1 w2 x := by
    intro x hx
    refine parts_step hR1 hst x fun hm => hx ?_
    simp only [touched, List.cons_append, List.nil_append, List.mem_cons, List.mem_map] at hm
    rcases hm with rfl | rfl | rfl | rfl | rfl | ⟨q, _, rfl⟩ <;> trivial
  have hst12 := rescued_trans hs1 hs2
  have htr : Trace (Rescues m) w w2 := .snoc _ (trace_mono (fun _ _ _ h => .inl h) ht) hst (.inr ⟨o, rfl⟩)
  have e1 : pendingEgld w1 = pendingEgld w := hs .pending (fun q => ⟨by simp, by simp⟩) (by simp)
  have e2 : w1.flights = w.flights := hs .calls (fun q => ⟨by simp, by simp⟩) (by simp)
  obtain ⟨b, hb1, _, hb2, _, _, _, _, hb3, _⟩ := C17_delegatePending_exact hst
  have hbb : b = [(p, batchAsked (pendingEgld w) o)] := by
    rw [hfl, e2] at hb1
    exact (delegations_inj (b := [(p, batchAsked (pendingEgld w) o)]) (List.append_cancel_left hb1)).symm
  have hfig : ∀ q, figure (·.pStake) w2 q = figure (·.pStake) w q + if p = q ∧ provider w q ≠ none then batchAsked (pendingEgld w) o else 0 := by
    intro q
    have k1 : figure (·.pStake) w1 q = figure (·.pStake) w q := hs (.inFlightStake q) (fun q => ⟨by simp, by simp⟩) (by simp)
    have k2 : (provider w1 q).isSome = (provider w q).isSome := hs (.listed q) (fun q => ⟨by simp, by simp⟩) (by simp)
    rw [← k1]
    unfold figure
    rw [hb3 q]
    cases h : provider w1 q with
    | none =>
      rw [h] at k2
      have : provider w q = none := by
        cases h' : provider w q with
        | none => rfl
        | some d => rw [h'] at k2; cases k2
      rw [if_neg (fun hh => hh.2 this)]; rfl
    | some d =>
      rw [h] at k2
      have : provider w q ≠ none := by
        intro h'; rw [h'] at k2; cases k2
      rw [hbb]
      simp [batchFor, this]
  refine ⟨w2, htr, hst12, fine_of hf htr hst12 (fun q => by rw [hfig q]; omega), ?_, ?_, ?_⟩
  · refine net_of (hst12 (.staked p) (fun h => h)) (hst12 (.inFlightUnstake p) (fun h => h)) ?_ (.inl (hf.hno p hp))
    rw [hfig p, if_pos ⟨rfl, hreg.recd p ((hreg.same p).2 hp)⟩]
  · intro q hq
    refine net_of (a := 0) (hst12 (.staked q) (fun h => h)) (hst12 (.inFlightUnstake q) (fun h => h)) ?_ (.inr rfl)
    rw [hfig q, if_neg (fun h => hq h.1.symm)]
  · rw [hbb, e1] at hb2; simpa [batchTotal] using hb2

private theorem lift_all {m : Addr} (k : Nat) {w : World} (hf : Fine m w)
    (hk : (w.st.undelegList.filter fun p => decide (Remnant w p)).length = k) (hp : k * oneEgld ≤ pendingEgld w) :
    ∃ w1, Trace (Rescues m) w w1 ∧ (∀ x, ¬ Rescued w x → Same w w1 x) ∧ Fine m w1 ∧
      (∀ p ∈ w.st.undelegList, ¬ Remnant w1 p) ∧ (∀ p, netStake w p ≤ netStake w1 p) := by
  induction k generalizing w with
  | zero =>
    refine ⟨w, .nil, fun x _ => Spec.Same.refl w x, hf, fun p hp' hr => ?_, fun _ => Nat.le_refl _⟩
    have : p ∈ w.st.undelegList.filter fun p => decide (Remnant w p) := List.mem_filter.2 ⟨hp', decide_eq_true hr⟩
    rw [List.length_eq_zero_iff.1 hk] at this
    cases this
  | succ k ih =>
    obtain ⟨p, hmem⟩ : ∃ p, p ∈ w.st.undelegList.filter fun p => decide (Remnant w p) := by
      cases h : w.st.undelegList.filter fun p => decide (Remnant w p) with
      | nil => rw [h] at hk; cases hk
      | cons p l => exact ⟨p, List.mem_cons_self⟩
    obtain ⟨hpl, hrem⟩ := List.mem_filter.1 hmem
    have hrem := of_decide_eq_true hrem
    have h1 : 0 < oneEgld := by decide
    rw [Nat.succ_mul] at hp
    obtain ⟨o, hv, hle⟩ : ∃ o, ValidBatch (pendingEgld w) o ∧ k * oneEgld + batchAsked (pendingEgld w) o ≤ pendingEgld w := by
      by_cases h2 : 2 * oneEgld ≤ pendingEgld w
      · refine ⟨some oneEgld, ⟨Nat.le_refl _, ?_, .inr ?_⟩, ?_⟩ <;> simp only [batchAsked, Option.getD_some] <;> omega
      · refine ⟨none, ⟨?_, Nat.le_refl _, .inl (Nat.sub_self _)⟩, ?_⟩
        · show oneEgld ≤ pendingEgld w; omega
        · show k * oneEgld + pendingEgld w ≤ pendingEgld w
          have : k = 0 := by
            rcases Nat.eq_zero_or_pos k with h | h
            · exact h
            · have := Nat.mul_le_mul_right oneEgld h
              omega
          subst this; omega
    obtain ⟨w1, ht, hs, hf1, hn1, hn2, hpe⟩ := lift_one hf hpl hv
    have hul : w1.st.undelegList = w.st.undelegList := hs .undelegOrder (fun h => h)
    have hnd : w.st.undelegList.Nodup :=
      (show RegOk w.st.lsToken w.st.unstakeToken w.st.delegList w.st.undelegList w.st.data w.flights w.dead from
        reachable_regInv (reachableBy_reachable hf.hr)).nd2
    have hk1 : (w1.st.undelegList.filter fun p => decide (Remnant w1 p)).length = k := by
      have he : w1.st.undelegList.filter (fun p => decide (Remnant w1 p)) =
          (w.st.undelegList.filter fun p => decide (Remnant w p)).erase p := by
        rw [hul, (hnd.filter _).erase_eq_filter, List.filter_filter]
        apply List.filter_congr
        intro q _
        by_cases hq : q = p
        · subst hq
          have : ¬ Remnant w1 q := by
            rintro ⟨_, h⟩
            have := hv.1
            rw [hn1] at h; omega
          simp [this]
        · have : Remnant w1 q ↔ Remnant w q := by unfold Remnant; rw [hn2 q hq]
          simp [this, hq]
      rw [he, List.length_erase_of_mem hmem, hk]; rfl
    obtain ⟨w2, ht2, hs2, hf2, hr2, hle2⟩ := ih hf1 hk1 (by omega)
    refine ⟨w2, trace_then ht ht2, rescued_trans hs hs2, hf2, by rw [hul] at hr2; exact hr2, fun q => ?_⟩
    refine Nat.le_trans ?_ (hle2 q)
    by_cases hq : q = p
    · subst hq; omega
    · rw [hn2 q hq]

private theorem first_with {P : Addr → Prop} [DecidablePred P] : ∀ {l : List Addr}, (∃ p ∈ l, P p) →
    ∃ l1 p l2, l = l1 ++ p :: l2 ∧ P p ∧ l1.filter (fun q => decide (P q)) = []
  | [], h => by obtain ⟨p, hp, _⟩ := h; cases hp
  | x :: l, h => by
    by_cases hx : P x
    · exact ⟨[], x, l, rfl, hx, rfl⟩
    · obtain ⟨l1, p, l2, rfl, h2, h3⟩ := first_with (P := P) (l := l) (by
        obtain ⟨p, hp, hP⟩ := h
        rcases List.mem_cons.1 hp with rfl | hp
        · exact absurd hP hx
        · exact ⟨p, hp, hP⟩)
      exact ⟨x :: l1, p, l2, rfl, h2, by rw [List.filter_cons_of_neg (by simp [hx]), h3]⟩

/-- **C88.** Remnants of less than one EGLD at providers, which make every `unDelegatePending` fail (`C37_false`), can always be
repaired: if one EGLD for each of them waits to be delegated, any manager can, by setting terms and sending delegations, reach a
state in which every valid `unDelegatePending` succeeds.  Queue, rate, balances and what is asked back stay as they are. -/
theorem C88_restore {w : World} {m : Addr} (hr : ReachableBy HonestManager w) (hm : Manager w m) (hrun : Running w)
    (hno : ∀ p ∈ w.st.undelegList, NotOverdrawn w p) (h1 : w.st.delegList.length < 2 ^ 32)
    (h2 : w.st.undelegList.length < 2 ^ 32) (h3 : w.st.maxSelectedProviders < 2 ^ 32)
    (hk : (w.st.undelegList.filter fun p => decide (Remnant w p)).length * oneEgld ≤ pendingEgld w)
    (hst : ∃ p ∈ w.st.undelegList, 0 < netStake w p) :
    ∃ w1, Trace (Rescues m) w w1 ∧ (∀ x, ¬ Rescued w x → Same w w1 x) ∧
      ∀ o, ValidBatch (toUndelegate w) o → ∃ w2, step w1 (.unDelegatePending m o) = .ok w2 := by
  obtain ⟨w1, ht, hs, hf, hrem, hle⟩ := lift_all _ ⟨hr, hm, hrun, hno, h1, h2, h3⟩ rfl hk
  have hmm : isManager w1 m = true := by unfold isManager; simpa using hf.hm.2
  have h0 : step w1 (.setScoringConfig m .default) = .ok { w1 with st := { w1.st with scoring := some .default } } := by
    show setScoringConfig w1 m .default = _
    unfold setScoringConfig requireUser requireManager req
    rw [if_pos hf.hm.1, hmm]
    rfl
  have hs' : ∀ x, ¬ Rescued w1 x → Same w1 { w1 with st := { w1.st with scoring := some .default } } x := by
    intro x hx
    refine parts_step (reachableBy_reachable hf.hr) h0 x fun hh => hx ?_
    simp only [touched, List.mem_singleton] at hh
    subst hh; trivial
  have ht2 : Trace (Rescues m) w { w1 with st := { w1.st with scoring := some .default } } :=
    .snoc _ ht h0 (.inl (.inl ⟨_, rfl⟩))
  have hs2 := rescued_trans hs hs'
  refine ⟨_, ht2, hs2, fun o hv => ?_⟩
  have hf2 : Fine m { w1 with st := { w1.st with scoring := some .default } } :=
    ⟨(fine_of hf (.snoc _ .nil h0 (.inl (.inl ⟨_, rfl⟩))) hs' (fun p => Nat.le_refl _)).hr, hf.hm, hf.hrun, hf.hno, hf.h1, hf.h2, hf.h3⟩
  have hul : w1.st.undelegList = w.st.undelegList := hs .undelegOrder (fun h => h)
  have hq : toUndelegate w1 = toUndelegate w := hs .queue (fun h => h)
  rw [C69_accepted_iff hf2.hr hf2.h1 hf2.h2 hf2.h3]
  refine ⟨hf2.hm, hf2.hrun, by show ValidBatch (toUndelegate w1) o; rw [hq]; exact hv, .default, rfl, ?_, ?_, ?_⟩
  · rintro p ⟨l1, l2, hl, _⟩
    exact hf2.hno p (by rw [hl]; simp)
  · obtain ⟨p, hp, hpos⟩ := hst
    obtain ⟨l1, q, l2, hl, hq2, hq3⟩ := first_with (P := fun q => 0 < netStake w1 q) (l := w1.st.undelegList)
      ⟨p, by rw [hul]; exact hp, Nat.lt_of_lt_of_le hpos (hle p)⟩
    have hq3' : (l1.filter fun q => decide (0 < netStake { w1 with st := { w1.st with scoring := some .default } } q)) = [] := hq3
    have hlim := (reachable_limits (reachableBy_reachable hf2.hr)).1
    refine ⟨q, ⟨l1, l2, hl, ?_, .inl ?_⟩, hq2⟩
    · rw [hq3']; exact hlim
    · rw [hq3']
      have hlen : 0 < w1.st.undelegList.length := by rw [hl]; simp
      have h5 : 0 < batchAsked (toUndelegate w1) o / oneEgld := Nat.div_pos (by rw [hq]; exact hv.1) (by decide)
      show 0 < min (min (batchAsked (toUndelegate w1) o / oneEgld) w1.st.maxSelectedProviders) w1.st.undelegList.length
      have hlim' : 1 ≤ w1.st.maxSelectedProviders := hlim
      omega
  · rintro p ⟨l1, l2, hl, _⟩ hpos
    have hp : p ∈ w.st.undelegList := by
      rw [← hul]; show p ∈ ({ w1 with st := { w1.st with scoring := some .default } } : World).st.undelegList
      rw [hl]; simp
    have hn : netStake { w1 with st := { w1.st with scoring := some .default } } p = netStake w1 p := rfl
    refine ⟨?_, fun d' _ => ?_⟩
    · rw [hn] at hpos ⊢
      have := hrem p hp
      unfold Remnant at this
      omega
    · have a1 : (1 : UInt64) ≠ 100 := by decide
      have a2 : (500 : UInt64) ≠ 1000 := by decide
      exact ⟨fun h => a1 (h.1.symm.trans h.2), fun h => a2 (h.1.symm.trans h.2)⟩

private theorem given {w w0 : World} {u : Addr} {K : Nat} (h : addRewards w u K = .ok w0) : pendingEgld w0 = pendingEgld w + K ∧ w0.self = w.self ∧ w0.owner = w.owner ∧
      w0.st = { w.st with r := w0.st.r } ∧ toUndelegate w0 = toUndelegate w := by
  obtain ⟨_, t, mm, ht, _, rfl⟩ := addRewards_ok.1 h
  refine ⟨rfl, rfl, rfl, ?_, rfl⟩
  unfold commit emit
  simp only [ht]

/-- **C88**, who pays: anybody who gives the EGLD (as rewards for all holders) puts the managers in the position to do so. -/
theorem C88_fund {w : World} {m u : Addr} (hr : ReachableBy HonestManager w) (hm : Manager w m) (hrun : Running w)
    (hno : ∀ p ∈ w.st.undelegList, NotOverdrawn w p) (h1 : w.st.delegList.length < 2 ^ 32)
    (h2 : w.st.undelegList.length < 2 ^ 32) (h3 : w.st.maxSelectedProviders < 2 ^ 32) (hu : u ≠ w.self)
    (hk : (w.st.undelegList.filter fun p => decide (Remnant w p)).length * oneEgld ≤ egldOf w u)
    (hst : ∃ p ∈ w.st.undelegList, 0 < netStake w p) :
    ∃ w0 w1, step w (.addRewards u ((w.st.undelegList.filter fun p => decide (Remnant w p)).length * oneEgld)) = .ok w0 ∧
      Trace (Rescues m) w0 w1 ∧ toUndelegate w1 = toUndelegate w ∧
      ∀ o, ValidBatch (toUndelegate w) o → ∃ w2, step w1 (.unDelegatePending m o) = .ok w2 := by
  generalize hK : (w.st.undelegList.filter fun p => decide (Remnant w p)).length * oneEgld = K at hk ⊢
  obtain ⟨w0, h0⟩ := (C69_accepted_iff hr h1 h2 h3 (op := .addRewards u K)).2 ⟨hu, hrun.2, hk⟩
  have hr0 : ReachableBy HonestManager w0 := by
    obtain ⟨wi, hi, ht⟩ := hr
    exact ⟨wi, hi, .snoc _ ht h0 trivial⟩
  have hp := given h0
  obtain ⟨p1, p2, p3, p4, p5⟩ := hp
  have q1 : ∀ p, provider w0 p = provider w p := by intro p; unfold provider; rw [p4]
  have q2 : ∀ p, netStake w0 p = netStake w p := by intro p; unfold netStake figure; rw [q1]
  have q3 : w0.st.undelegList = w.st.undelegList := by rw [p4]
  have q4 : (fun p => decide (Remnant w0 p)) = fun p => decide (Remnant w p) :=
    funext fun p => decide_eq_decide.2 (by unfold Remnant; rw [q2])
  obtain ⟨w1, ht, hs, hb⟩ := C88_restore (m := m) hr0 (by unfold Manager; rw [p2, p3, p4]; exact hm) (by unfold Running; rw [p4]; exact hrun)
    (by intro p hp; rw [q3] at hp; unfold NotOverdrawn; rw [q1]; exact hno p hp) (by rw [p4]; exact h1) (by rw [p4]; exact h2) (by rw [p4]; exact h3)
    (by rw [q3, q4, p1, hK]; exact Nat.le_add_left _ _) (by rw [q3]; simp only [q2]; exact hst)
  refine ⟨w0, w1, h0, ht, ?_, ?_⟩
  · rw [← p5]; exact hs .queue (fun h => h)
  · rw [← p5]; exact hb

/-- The history of `C37_false`: 0.3 EGLD are left at provider 22, and no batch is possible. -/
def remnants : List Op := [
  .registerLsToken 1 0, .issued 0 (some 500), .registerUnstakeToken 1 0, .issued 0 (some 501), .owner 1 .stateActive,
  .setScoringConfig 1 ScoringConfig.default,
  .whitelist 1 (E 1) 22 42 (E 1000) 0 20 900, .deliver 0 (.ok 0 0), .delegate 11 1500000000000000000,
  .delegatePending 1 none, .deliver 0 (.ok 0 0), .delegate 11 (E 1), .delegatePending 1 none,
  .unDelegate 11 0 [⟨500, 0, 2200000000000000000⟩], .unDelegatePending 1 none, .deliver 0 .err, .transferLs 1 11 (E 1),
  .unDelegate 11 0 [⟨500, 0, 1300000000000000000⟩]]

example : let w := run fresh remnants
    ReachableBy HonestManager w ∧ Manager w 1 ∧ Running w ∧ (∀ p ∈ w.st.undelegList, NotOverdrawn w p) ∧ 12 ≠ w.self ∧
    (w.st.undelegList.filter fun p => decide (Remnant w p)).length * oneEgld = E 1 ∧ E 1 ≤ egldOf w 12 ∧
    (∃ p ∈ w.st.undelegList, 0 < netStake w p) ∧ ValidBatch (toUndelegate w) none ∧
    works w (.unDelegatePending 1 none) = false := by
  have hl : (run fresh remnants).st.undelegList = [22] := by decide +kernel
  refine ⟨reachableBy_honest (by decide +kernel), ⟨by decide +kernel, .inr (by decide +kernel)⟩,
    ⟨by decide +kernel, by decide +kernel⟩, ?_, by decide +kernel, by decide +kernel, by decide +kernel,
    ⟨22, by decide +kernel, by decide +kernel⟩, ⟨by decide +kernel, by decide +kernel, .inl (by decide +kernel)⟩, by decide +kernel⟩
  intro p hp
  rw [hl, List.mem_singleton] at hp
  subst hp
  exact notOver_of (by decide +kernel)

/-- With the EGLD already waiting, as after `addRewards`, `C88_restore` applies. -/
example : let w := run fresh (remnants ++ [.addRewards 12 (E 1)])
    (w.st.undelegList.filter fun p => decide (Remnant w p)).length * oneEgld ≤ pendingEgld w ∧
    works w (.unDelegatePending 1 none) = false ∧
    works (run w [.changeParams 1 22 0 0 20 900 true, .delegatePending 1 none]) (.unDelegatePending 1 none) = true :=
  ⟨by decide +kernel, by decide +kernel, by decide +kernel⟩

end LS
