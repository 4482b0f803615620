import Verif.Proofs.LossLemmas
import Verif.Props.Queue

/-! How EGLD is asked back from the providers: C54. -/

namespace LS
open Spec Demo

private theorem givers_of {w w' : World} {b : List (Addr × Nat)} {sels : List Selection}
    (hf : w'.flights = w.flights ++ sels.map (fun s => Flight.undelegate s.address s.amount))
    (hb : w'.flights = w.flights ++ undelegations b) : b = batchOf sels := by
  rw [hf, undelegations_eq] at hb
  exact (undelegations_inj (List.append_cancel_left hb)).symm

private theorem res_loss {w : World} {cfg : ScoringConfig} {l l0 : List Addr} {A T rem left : Nat} {res : List Selection}
    (hp : ∀ p ∈ l, provider w p ≠ none)
    (hd : distributeLoop A T false MIN_EGLD (l.map (lossFor w cfg l0)) rem = .ok (res, left)) :
    (res.map Selection.address).Sublist l ∧
    ∀ s ∈ res, s.address ∈ l ∧ s.amount ≤ netStake w s.address ∧ s.spaceLeft = some (netStake w s.address - s.amount) := by
  obtain ⟨hsum0, infos, hsub, hfit⟩ := distributeLoop_ok MIN_EGLD_pos hd
  clear hsum0
  have haddr : res.map Selection.address = infos.map SelInfo.address :=
    forall2_addr (hfit.imp fun _ _ => Fits.final)
  refine ⟨?_, ?_⟩
  · rw [haddr]
    have := hsub.map SelInfo.address
    rw [List.map_map] at this
    have hid : (SelInfo.address ∘ lossFor w cfg l0) = id := by
      funext p; exact lossFor_address w cfg l0 p
    rw [hid, List.map_id] at this
    exact this
  · clear hd haddr
    have hin : ∀ i ∈ infos, ∃ p ∈ l, i = lossFor w cfg l0 p := by
      intro i hi
      obtain ⟨p, hp, rfl⟩ := List.mem_map.1 (hsub.subset hi)
      exact ⟨p, hp, rfl⟩
    clear hsub
    induction hfit with
    | nil => simp
    | @cons i0 _ is0 _ hx _ ih =>
      intro s hs
      rcases List.mem_cons.1 hs with rfl | hs
      · obtain ⟨p, hpl, rfl⟩ := hin i0 (by simp)
        obtain ⟨f1, _, _, f4⟩ := hx
        obtain ⟨g1, g2, _⟩ := f4 rfl
        rw [lossFor_stake (hp p hpl)] at g1 g2
        rw [f1, lossFor_address]
        exact ⟨hpl, g1, g2⟩
      · exact ih (fun i hi => hin i (by simp [hi])) s hs

private theorem mem_batchOf {sels : List Selection} {p : Addr} {a : Nat} (h : (p, a) ∈ batchOf sels) :
    ∃ s ∈ sels, s.address = p ∧ s.amount = a := by
  obtain ⟨s, hs, hpa⟩ := List.mem_map.1 h
  simp only [Prod.mk.injEq] at hpa
  exact ⟨s, hs, hpa⟩

private theorem split_batchOf {sels : List Selection} {b1 b2 : List (Addr × Nat)} {p : Addr} {a : Nat}
    (h : batchOf sels = b1 ++ (p, a) :: b2) :
    ∃ l1 s l2, sels = l1 ++ s :: l2 ∧ batchOf l1 = b1 ∧ s.address = p ∧ s.amount = a ∧ batchOf l2 = b2 := by
  obtain ⟨l1, l2', he1, he2, he3⟩ := List.map_eq_append_iff.1 h
  obtain ⟨s, l2, rfl, hs2, he4⟩ := List.map_eq_cons_iff.1 he3
  simp only [Prod.mk.injEq] at hs2
  exact ⟨l1, s, l2, he1, he2, hs2.1, hs2.2, he4⟩

/-- **C54**, who is asked: exactly one list of providers shares in giving the amount, and only members of it are addressed, in
the order of the rotation. -/
theorem C54_givers {w w' : World} {c : Addr} {o : Option Nat} {b : List (Addr × Nat)} (hr : Reachable w)
    (h : step w (.unDelegatePending c o) = .ok w') (hb : w'.flights = w.flights ++ undelegations b)
    (hm : w.st.maxSelectedProviders < 2 ^ 32) {A : Nat} (hA : A = batchAsked (toUndelegate w) o) :
    ∃ l, IsGivers w A l ∧ (∀ l', IsGivers w A l' → l' = l) ∧ l ≠ [] ∧ (b.map Prod.fst).Sublist l := by
  subst hA
  obtain ⟨l, cfg, sels, res, rem, left, hf, _, _, hg, hne, hp, hd, htop, hsum⟩ :=
    unDelegatePending_shares h (reachable_limits hr).1 hm
  have hbs := givers_of hf hb
  obtain ⟨h1, h2⟩ := res_loss hp hd
  have hfst : b.map Prod.fst = sels.map Selection.address := by rw [hbs]; simp [batchOf]
  exact ⟨l, hg, fun l' h' => h'.unique hg, hne, by rw [hfst, drain_address htop]; exact h1⟩

/-- **C54**, completeness: when somebody who is asked holds the whole amount and one EGLD more, the whole amount is asked back. -/
theorem C54_complete {w w' : World} {c : Addr} {o : Option Nat} {b : List (Addr × Nat)} (hr : Reachable w)
    (h : step w (.unDelegatePending c o) = .ok w') (hb : w'.flights = w.flights ++ undelegations b)
    (hm : w.st.maxSelectedProviders < 2 ^ 32) {A : Nat} (hA : A = batchAsked (toUndelegate w) o) {p : Addr} {a : Nat}
    (hp : (p, a) ∈ b) (hpl : A + oneEgld ≤ netStake w p) : batchTotal b = A := by
  subst hA
  obtain ⟨l, cfg, sels, res, rem, left, hf, _, _, hg, hne, hpr, hd, htop, hsum⟩ :=
    unDelegatePending_shares h (reachable_limits hr).1 hm
  have hone : MIN_EGLD = oneEgld := rfl
  have hbs := givers_of hf hb
  obtain ⟨_, h2⟩ := res_loss hpr hd
  rw [hbs] at hp
  obtain ⟨s', hs', rfl, _⟩ := mem_batchOf hp
  have : s'.address ∈ sels.map Selection.address := List.mem_map.2 ⟨s', hs', rfl⟩
  rw [drain_address htop] at this
  obtain ⟨s, hs, hsa⟩ := List.mem_map.1 this
  obtain ⟨_, g1, g2⟩ := h2 s hs
  have hds := (distributeLoop_ok MIN_EGLD_pos hd).1
  have hle : s.amount ≤ selSum res := by
    obtain ⟨r1, r2, rfl⟩ := List.append_of_mem hs
    simp only [selSum, List.map_append, List.map_cons, List.sum_append, List.sum_cons]; omega
  have := drain_plenty htop hs g2 (by rw [hsa, hone]; omega)
  rw [hbs, batchTotal_eq]; omega

/-- **C54**, completeness: when the provider whose turn it is holds the whole amount and one EGLD more, the whole amount is asked
back. -/
theorem C54_first {w w' : World} {c : Addr} {o : Option Nat} {b : List (Addr × Nat)} (hr : Reachable w)
    (h : step w (.unDelegatePending c o) = .ok w') (hb : w'.flights = w.flights ++ undelegations b)
    (hm : w.st.maxSelectedProviders < 2 ^ 32) {A : Nat} (hA : A = batchAsked (toUndelegate w) o) {p : Addr}
    (hp : (withStake w).head? = some p) (hpl : A + oneEgld ≤ netStake w p) :
    batchTotal b = A ∧ (b.map Prod.fst).head? = some p := by
  have hone : MIN_EGLD = oneEgld := rfl
  have hk : (b.map Prod.fst).head? = some p := by
    subst hA
    obtain ⟨l, cfg, sels, res, rem, left, hf, _, hA1, hg, hne, hpr, hd, htop, hsum⟩ :=
      unDelegatePending_shares h (reachable_limits hr).1 hm
    have hbs := givers_of hf hb
    have hfst : b.map Prod.fst = sels.map Selection.address := by rw [hbs]; simp [batchOf]
    rw [hfst, drain_address htop]
    cases hl : l with
    | nil => exact absurd hl hne
    | cons q ls =>
      have hq : q = p := by
        obtain ⟨t, ht⟩ := hg.front
        rw [hl] at ht
        rw [← ht] at hp
        simpa using hp
      subst hq
      rw [hl, List.map_cons] at hd
      have hst : (lossFor w cfg (q :: ls) q).stakedLs = netStake w q := lossFor_stake (hpr q (by rw [hl]; simp))
      obtain ⟨s, ss, rfl, hsa⟩ := distributeLoop_first hd hA1 (by rw [hst]; exact hpl)
      simp only [List.map_cons, List.head?_cons]
      rw [hsa, lossFor_address]
  refine ⟨?_, hk⟩
  obtain ⟨x, hx⟩ : ∃ x, (p, x) ∈ b := by
    cases hbb : b with
    | nil => rw [hbb] at hk; simp at hk
    | cons y ys =>
      rw [hbb] at hk
      simp only [List.map_cons, List.head?_cons, Option.some.injEq] at hk
      exact ⟨y.2, by rw [← hk]; simp⟩
  exact C54_complete hr h hb hm hA hx hpl

/-- **C54**, at least the fair share: nobody addressed gives less than the proportional part of the amount, unless that exceeds
its stake or what remains after those before it. -/
theorem C54_at_least {w w' : World} {c : Addr} {o : Option Nat} {b : List (Addr × Nat)} {cfg : ScoringConfig} (hr : Reachable w)
    (h : step w (.unDelegatePending c o) = .ok w') (hb : w'.flights = w.flights ++ undelegations b)
    (hm : w.st.maxSelectedProviders < 2 ^ 32) (hcfg : w.st.scoring = some cfg) {A : Nat} (hA : A = batchAsked (toUndelegate w) o)
    {l : List Addr} (hl : IsGivers w A l) (hT : 0 < lossScores w cfg l) {b1 b2 : List (Addr × Nat)} {p : Addr} {a : Nat}
    (hs : b = b1 ++ (p, a) :: b2) :
    min (lossShare w cfg l A p) (min (netStake w p) (A - batchTotal b1)) ≤ a := by
  subst hA
  obtain ⟨l', cfg', sels, res, rem, left, hf, hcfg', _, hg, hne, hpr, hd, htop, hsum⟩ :=
    unDelegatePending_shares h (reachable_limits hr).1 hm
  rw [hcfg] at hcfg'
  cases hcfg'
  have := hg.unique hl
  subst this
  have hbs := givers_of hf hb
  rw [hs] at hbs
  obtain ⟨l1', s', l2', rfl, rfl, rfl, rfl, rfl⟩ := split_batchOf hbs.symm
  obtain ⟨l1, s, l2, e1, e2, e3, e4, _⟩ := drain_split htop rfl
  obtain ⟨_, _, d3, _⟩ := distributeLoop_loss hT MIN_EGLD_pos hd
  obtain ⟨i, hi, hia, him⟩ := d3 l1 s l2 e1
  obtain ⟨p, hp, rfl⟩ := List.mem_map.1 hi
  rw [lossFor_address] at hia
  rw [lossFor_stake (hpr p hp)] at him
  rw [e2, ← hia, batchTotal_eq]
  have : (lossFor w cfg l' p).score * batchAsked (toUndelegate w) o / lossScores w cfg l' =
      lossShare w cfg l' (batchAsked (toUndelegate w) o) p := rfl
  rw [this] at him
  omega

/-- **C54**, at most the fair share: a provider gives more than its proportional part (or one EGLD, if that is more) only if it
gives all it has, or else the whole amount is asked back and everybody before it either gives all it has or would have been left
with less than one EGLD by giving what was still missing. -/
theorem C54_at_most {w w' : World} {c : Addr} {o : Option Nat} {b : List (Addr × Nat)} {cfg : ScoringConfig} (hr : Reachable w)
    (h : step w (.unDelegatePending c o) = .ok w') (hb : w'.flights = w.flights ++ undelegations b)
    (hm : w.st.maxSelectedProviders < 2 ^ 32) (hcfg : w.st.scoring = some cfg) {A : Nat} (hA : A = batchAsked (toUndelegate w) o)
    {l : List Addr} (hl : IsGivers w A l) (hT : 0 < lossScores w cfg l) {b1 b2 : List (Addr × Nat)} {p : Addr} {a : Nat}
    (hs : b = b1 ++ (p, a) :: b2) :
    a ≤ max (lossShare w cfg l A p) oneEgld ∨ a = netStake w p ∨
    (batchTotal b = A ∧ ∀ k1 q x k2, b1 = k1 ++ (q, x) :: k2 →
      x = netStake w q ∨ netStake w q < x + batchTotal (k2 ++ (p, a) :: b2) + oneEgld) := by
  subst hA
  have hone : MIN_EGLD = oneEgld := rfl
  obtain ⟨l', cfg', sels, res, rem, left, hf, hcfg', _, hg, hne, hpr, hd, htop, hsum⟩ :=
    unDelegatePending_shares h (reachable_limits hr).1 hm
  rw [hcfg] at hcfg'
  cases hcfg'
  have := hg.unique hl
  subst this
  have hbs := givers_of hf hb
  have hbt : batchTotal b = selSum sels := by rw [hbs, batchTotal_eq]
  rw [hs] at hbs
  obtain ⟨l1', s', l2', rfl, rfl, rfl, rfl, rfl⟩ := split_batchOf hbs.symm
  obtain ⟨l1, s, l2, e1, e2, e3, e4, e7, _, e6⟩ := drain_split htop rfl
  obtain ⟨_, d2, _, _⟩ := distributeLoop_loss hT MIN_EGLD_pos hd
  obtain ⟨_, hsp⟩ := res_loss hpr hd
  have hs0 : s ∈ res := by rw [e1]; simp
  obtain ⟨i, hi, hfi⟩ := d2 s hs0
  obtain ⟨p, hp, rfl⟩ := List.mem_map.1 hi
  have f1 := hfi.addr
  rw [lossFor_address] at f1
  have f2 := hfi.top
  rw [lossFor_stake (hpr p hp)] at f2
  have : (lossFor w cfg l' p).score * batchAsked (toUndelegate w) o / lossScores w cfg l' =
      lossShare w cfg l' (batchAsked (toUndelegate w) o) p := rfl
  rw [this, hone, ← f1] at f2
  obtain ⟨_, g1, g2⟩ := hsp s hs0
  rw [e2]
  rcases e6 with e6 | ⟨x, hx, e6⟩ | e6
  · rw [e6]
    rcases f2 with f2 | f2
    · exact .inl f2
    · exact .inr (.inl f2)
  · rw [hx] at g2
    cases g2
    exact .inr (.inl (by omega))
  · by_cases hlt : s.amount < s'.amount
    · refine .inr (.inr ⟨by omega, ?_⟩)
      intro k1 q x k2 hk
      obtain ⟨m1, t, m2, rfl, rfl, rfl, rfl, rfl⟩ := split_batchOf hk
      have := drain_before (w := w) htop (fun u hu y hy => by
        obtain ⟨_, g1, g2⟩ := hsp u hu
        rw [hy] at g2
        cases g2
        omega) rfl e1 e7 hlt m1 t m2 rfl
      have hc : batchTotal (batchOf m2 ++ (s.address, s'.amount) :: batchOf l2') = selSum (m2 ++ s' :: l2') := by
        rw [← batchTotal_eq]; simp [batchOf, e2]
      rw [hc, ← hone]
      omega
    · have : s'.amount = s.amount := by omega
      rw [this]
      rcases f2 with f2 | f2
      · exact .inl f2
      · exact .inr (.inl f2)

/-- **C54**, plenty of stake: when every giver holds the whole amount and one EGLD more, the whole amount is asked back and nobody
gives more than one EGLD above its proportional part (or above one EGLD, if that is more). -/
theorem C54_plenty {w w' : World} {c : Addr} {o : Option Nat} {b : List (Addr × Nat)} {cfg : ScoringConfig} (hr : Reachable w)
    (h : step w (.unDelegatePending c o) = .ok w') (hb : w'.flights = w.flights ++ undelegations b)
    (hm : w.st.maxSelectedProviders < 2 ^ 32) (hcfg : w.st.scoring = some cfg) {A : Nat} (hA : A = batchAsked (toUndelegate w) o)
    {l : List Addr} (hl : IsGivers w A l) (hT : 0 < lossScores w cfg l) (hpl : ∀ p ∈ l, A + oneEgld ≤ netStake w p) :
    batchTotal b = A ∧ ∀ p a, (p, a) ∈ b → a ≤ max (lossShare w cfg l A p) oneEgld + oneEgld := by
  have hone : MIN_EGLD = oneEgld := rfl
  subst hA
  obtain ⟨l', cfg', sels, res, rem, left, hf, hcfg', _, hg, hne, hpr, hd, htop, hsum⟩ :=
    unDelegatePending_shares h (reachable_limits hr).1 hm
  rw [hcfg] at hcfg'
  cases hcfg'
  have := hg.unique hl
  subst this
  have hbs := givers_of hf hb
  refine ⟨?_, ?_⟩
  · cases hll : l' with
    | nil => exact absurd hll hne
    | cons q ls =>
      refine (C54_first hr h hb hm rfl (p := q) ?_ (hpl q (by rw [hll]; simp))).1
      obtain ⟨t, ht⟩ := hg.front
      rw [hll] at ht
      rw [← ht]; rfl
  · intro p a hpa
    rw [hbs] at hpa
    obtain ⟨s', hs', rfl, rfl⟩ := mem_batchOf hpa
    obtain ⟨l1', l2', hspl⟩ := List.append_of_mem hs'
    obtain ⟨l1, s, l2, e1, e2, e3, e4, e7, e5, e6⟩ := drain_split htop hspl
    obtain ⟨d1, d2, _, d4⟩ := distributeLoop_loss hT MIN_EGLD_pos hd
    have hs0 : s ∈ res := by rw [e1]; simp
    obtain ⟨i, hi, hfi⟩ := d2 s hs0
    obtain ⟨p, hp, rfl⟩ := List.mem_map.1 hi
    have f1 := hfi.addr
    rw [lossFor_address] at f1
    have f2 := hfi.top
    rw [lossFor_stake (hpr p hp)] at f2
    have : (lossFor w cfg l' p).score * batchAsked (toUndelegate w) o / lossScores w cfg l' =
        lossShare w cfg l' (batchAsked (toUndelegate w) o) p := rfl
    rw [this, hone, ← f1] at f2
    have hle : s.amount ≤ selSum res := by
      rw [e1]
      simp only [selSum, List.map_append, List.map_cons, List.sum_append, List.sum_cons]; omega
    have hps := hpl p hp
    have h1e : 2 ^ 32 ≤ oneEgld := by decide
    have hrem : rem ≤ oneEgld := by
      have := d4 (by
        intro i hi
        obtain ⟨q, hq, rfl⟩ := List.mem_map.1 hi
        rw [lossFor_stake (hpr q hq)]
        exact hpl q hq)
      rcases this with h1 | h1
      · rw [hone] at h1; omega
      · have hge := parts_ge (A := batchAsked (toUndelegate w) o) hT (l'.map (lossFor w cfg l'))
        have hsc : ((l'.map (lossFor w cfg l')).map SelInfo.score).sum = lossScores w cfg l' := by
          rw [List.map_map]; rfl
        rw [hsc, Nat.mul_comm (lossScores w cfg l'), List.length_map] at hge
        have hge := Nat.le_of_mul_le_mul_right hge hT
        have := hg.few
        omega
    rw [e2]
    rw [← f1] at hps
    clear e6
    have h0 : 0 < oneEgld := by omega
    rcases f2 with f2 | f2
    · omega
    · omega

/-- 40 EGLD worth of redemptions asked back from the two providers of `redeemed`. -/
example : Reachable redeemed ∧ works redeemed (.unDelegatePending 1 none) = true ∧ redeemed.st.maxSelectedProviders < 2 ^ 32 ∧
    redeemed.st.scoring = some .default ∧ withStake redeemed = [21, 22] ∧ 0 < lossScores redeemed .default [21, 22] ∧
    IsGivers redeemed (toUndelegate redeemed) [21, 22] := by
  refine ⟨redeemed_reachable, by decide +kernel, by decide +kernel, by decide +kernel, by decide +kernel, by decide +kernel, ?_⟩
  have hw : withStake redeemed = [21, 22] := by decide +kernel
  refine ⟨by rw [hw], by decide +kernel, .inl hw.symm, ?_⟩
  intro k hk hne
  rw [List.prefix_cons_iff] at hk
  rcases hk with rfl | ⟨k, rfl, hk⟩
  · left; decide +kernel
  · rw [List.prefix_cons_iff] at hk
    rcases hk with rfl | ⟨k, rfl, hk⟩
    · left; decide +kernel
    · rw [List.prefix_nil] at hk
      subst hk; exact absurd rfl hne

/-- Nobody has a score: the providers are asked in turn, each for all it has if that is not more than what is missing, and otherwise
for all that is missing, unless less than one EGLD would be left with it; nobody is asked for less than one EGLD. -/
def Spec.firstGives (w : World) : List Addr → Nat → List (Addr × Nat)
  | [], _ => []
  | p :: l, x =>
    let a := if netStake w p ≤ x then netStake w p else if x + oneEgld ≤ netStake w p then x else 0
    if oneEgld ≤ a then (p, a) :: firstGives w l (x - a) else firstGives w l x

private theorem amount_noScore {i : SelInfo} {A x amt : Nat} (h : providerAmount i A x 0 false MIN_EGLD = .ok amt) :
    (if MIN_EGLD ≤ amt then amt else 0) = (if i.stakedLs ≤ x then i.stakedLs else if x + MIN_EGLD ≤ i.stakedLs then
      (if MIN_EGLD ≤ x then x else 0) else 0) ∧ MIN_EGLD ≤ i.stakedLs := by
  have hpos := MIN_EGLD_pos
  unfold providerAmount proportionOf at h
  rw [if_neg (Nat.lt_irrefl 0)] at h
  simp only [bind_ok, Bool.false_eq_true, if_false, csub_ok, Except.ok.injEq] at h
  obtain ⟨p, rfl, left, ⟨h3, rfl⟩, h⟩ := h
  rw [ite_ok] at h
  generalize MIN_EGLD = mn at *
  refine ⟨?_, by omega⟩
  rcases h with ⟨h4, h⟩ | ⟨h4, h⟩
  · rw [ite_ok] at h
    rcases h with ⟨h5, h⟩ | ⟨h5, h⟩
    · simp only [Except.ok.injEq] at h
      subst h
      split_ifs <;> omega
    · simp only [bind_ok, csub_ok] at h
      obtain ⟨y, ⟨h6, rfl⟩, h⟩ := h
      rw [ite_ok] at h
      rcases h with ⟨h7, h⟩ | ⟨h7, h⟩ <;> simp only [Except.ok.injEq] at h <;> subst h <;> split_ifs <;> omega
  · simp only [Except.ok.injEq] at h
    subst h
    split_ifs <;> omega

private theorem loop_firstGives {w : World} {cfg : ScoringConfig} {l0 : List Addr} {A : Nat} :
    ∀ {l : List Addr} {x rem : Nat} {res : List Selection}, (∀ p ∈ l, provider w p ≠ none) →
    distributeLoop A 0 false MIN_EGLD (l.map (lossFor w cfg l0)) x = .ok (res, rem) →
    batchOf res = firstGives w l x ∧ (0 < rem → ∀ s ∈ res, s.spaceLeft = some 0) ∧ rem ≤ x := by
  intro l
  have hone : MIN_EGLD = oneEgld := rfl
  have hpos := MIN_EGLD_pos
  induction l with
  | nil =>
    intro x rem res _ h
    simp only [List.map_nil, distributeLoop, Except.ok.injEq, Prod.mk.injEq] at h
    obtain ⟨rfl, rfl⟩ := h
    exact ⟨rfl, by simp, Nat.le_refl _⟩
  | cons p ps ih =>
    intro x rem res hp h
    have hpp := hp p (by simp)
    have hps : ∀ q ∈ ps, provider w q ≠ none := fun q hq => hp q (by simp [hq])
    simp only [List.map_cons, distributeLoop, bind_ok] at h
    obtain ⟨amt, ha, h⟩ := h
    obtain ⟨hamt, hst⟩ := amount_noScore ha
    rw [lossFor_stake hpp] at hamt hst
    rw [firstGives]
    rw [← hone]
    rw [ite_ok] at h
    rcases h with ⟨h1, h⟩ | ⟨h1, h⟩
    · rw [if_pos h1] at hamt
      have hval : (if netStake w p ≤ x then netStake w p else if x + MIN_EGLD ≤ netStake w p then x else 0) = amt := by
        split at hamt
        · rw [if_pos ‹_›]; exact hamt.symm
        · rw [if_neg ‹_›]
          split at hamt
          · rw [if_pos ‹_›]
            split at hamt <;> omega
          · omega
      rw [hval, if_pos h1]
      simp only [bind_ok, csub_ok, Prod.exists, Except.ok.injEq, Prod.mk.injEq] at h
      obtain ⟨x', ⟨hle, rfl⟩, sp, hsp, ss, left, hl, rfl, rfl⟩ := h
      obtain ⟨i1, i2, i3⟩ := ih hps hl
      refine ⟨?_, ?_, by omega⟩
      · rw [← i1]
        simp [batchOf, lossFor_address]
      · intro hr s hs
        rcases List.mem_cons.1 hs with rfl | hs
        · unfold spaceAfter at hsp
          rw [lossFor_stake hpp] at hsp
          simp only [Bool.false_eq_true, if_false, bind_ok, csub_ok, Except.ok.injEq] at hsp
          obtain ⟨y, ⟨_, rfl⟩, rfl⟩ := hsp
          show some _ = some 0
          congr 1
          split at hval
          · omega
          · split at hval <;> omega
        · exact i2 hr s hs
    · obtain ⟨i1, i2, i3⟩ := ih hps h
      refine ⟨?_, i2, i3⟩
      rw [if_neg h1] at hamt
      have hval : ¬ MIN_EGLD ≤ (if netStake w p ≤ x then netStake w p else if x + MIN_EGLD ≤ netStake w p then x else 0) := by
        split at hamt
        · omega
        · rw [if_neg ‹_›]
          split at hamt
          · rw [if_pos ‹_›]
            split at hamt <;> omega
          · rw [if_neg ‹_›]; omega
      rw [if_neg hval, i1]

private theorem drain_none {ps ps' : List Selection} {rem left : Nat} (h : Drain ps ps' rem left) (h0 : rem = 0) :
    batchOf ps' = batchOf ps := by
  induction h with
  | done => rfl
  | nil => rfl
  | fill p p' ps ps' rem left x ha hx hle hp _ ih =>
    have e := ih (by omega)
    simp only [batchOf] at e
    simp only [batchOf, List.map_cons, ha, e, (by omega : p'.amount = p.amount)]
  | last p p' ps rem x ha hx hle hp => simp only [batchOf, List.map_cons, ha, (by omega : p'.amount = p.amount)]
  | skip p ps ps' rem left x _ _ _ _ ih =>
    have e := ih h0
    simp only [batchOf] at e
    simp only [batchOf, List.map_cons, e]

private theorem drain_empty {ps ps' : List Selection} {rem left : Nat} (h : Drain ps ps' rem left)
    (hz : ∀ s ∈ ps, s.spaceLeft = some 0) : batchOf ps' = batchOf ps := by
  induction h with
  | done => rfl
  | nil => rfl
  | fill p p' ps ps' rem left x ha hx hle hp _ ih =>
    have h0 := hz p (by simp)
    rw [hx, Option.some.injEq] at h0
    have e := ih fun s hs => hz s (by simp [hs])
    simp only [batchOf] at e
    simp only [batchOf, List.map_cons, ha, e, (by omega : p'.amount = p.amount)]
  | last p p' ps rem x ha hx hle hp =>
    have h0 := hz p (by simp)
    rw [hx, Option.some.injEq] at h0
    simp only [batchOf, List.map_cons, ha, (by omega : p'.amount = p.amount)]
  | skip p ps ps' rem left x hx hgt _ _ _ =>
    have h0 := hz p (by simp)
    rw [hx, Option.some.injEq] at h0
    omega

/-- **C54**, when no giver has a score: exactly what is asked from whom. -/
theorem C54_no_scores {w w' : World} {c : Addr} {o : Option Nat} {b : List (Addr × Nat)} {cfg : ScoringConfig} (hr : Reachable w)
    (h : step w (.unDelegatePending c o) = .ok w') (hb : w'.flights = w.flights ++ undelegations b)
    (hm : w.st.maxSelectedProviders < 2 ^ 32) (hcfg : w.st.scoring = some cfg) {A : Nat} (hA : A = batchAsked (toUndelegate w) o)
    {l : List Addr} (hl : IsGivers w A l) (hT : lossScores w cfg l = 0) : b = firstGives w l A := by
  subst hA
  obtain ⟨l', cfg', sels, res, rem, left, hf, hcfg', _, hg, hne, hpr, hd, htop, hsum⟩ :=
    unDelegatePending_shares h (reachable_limits hr).1 hm
  rw [hcfg] at hcfg'
  cases hcfg'
  have := hg.unique hl
  subst this
  rw [hT] at hd
  obtain ⟨h1, h2, _⟩ := loop_firstGives hpr hd
  rw [givers_of hf hb, ← h1]
  rcases Nat.eq_zero_or_pos rem with h0 | h0
  · exact drain_none htop h0
  · exact drain_empty htop (h2 h0)

/-- A redemption of 2 LS tokens, with both providers of `settled` holding plenty. -/
def modest : World := run settled [.unDelegate 11 0 [⟨500, 0, E 2⟩]]

theorem modest_givers : IsGivers modest (toUndelegate modest) [21, 22] := by
  have hw : withStake modest = [21, 22] := by decide +kernel
  refine ⟨by rw [hw], by decide +kernel, .inl hw.symm, ?_⟩
  intro k hk hne
  rw [List.prefix_cons_iff] at hk
  rcases hk with rfl | ⟨k, rfl, hk⟩
  · left; decide +kernel
  · rw [List.prefix_cons_iff] at hk
    rcases hk with rfl | ⟨k, rfl, hk⟩
    · left; decide +kernel
    · rw [List.prefix_nil] at hk
      subst hk; exact absurd rfl hne

example : Reachable modest ∧ works modest (.unDelegatePending 1 none) = true ∧ modest.st.maxSelectedProviders < 2 ^ 32 ∧
    modest.st.scoring = some .default ∧ 0 < lossScores modest .default [21, 22] ∧
    IsGivers modest (toUndelegate modest) [21, 22] ∧ (withStake modest).head? = some 21 ∧
    ∀ p ∈ [21, 22], toUndelegate modest + oneEgld ≤ netStake modest p :=
  ⟨reachable_run settled_reachable _, by decide +kernel, by decide +kernel, by decide +kernel, by decide +kernel,
    modest_givers, by decide +kernel, by decide +kernel⟩

/-- With no points to win, the first provider in turn is asked for everything. -/
example :
    let w := run modest [.setScoringConfig 1 { ScoringConfig.default with maxScorePerCategory := 0 }]
    works w (.unDelegatePending 1 none) = true ∧ withStake w = [21, 22] ∧
    lossScores w { ScoringConfig.default with maxScorePerCategory := 0 } [21, 22] = 0 ∧
    firstGives w [21, 22] (toUndelegate w) = [(21, toUndelegate w)] ∧ 0 < netStake w 22 := by
  decide +kernel

/-- Un-delegation batches in this transaction ask for at least one EGLD less than the provider whose turn it is holds. -/
def ModestBatch (w : World) (op : Op) (_ : World) : Prop :=
  ∀ c o, op = .unDelegatePending c o → w.st.maxSelectedProviders < 2 ^ 32 ∧
    ∃ p, (withStake w).head? = some p ∧ batchAsked (toUndelegate w) o + oneEgld ≤ netStake w p

/-- **C53**, a rule the managers can follow: as long as nobody asks back more than one EGLD less than the provider whose turn it
is holds, the queue never holds dust.  (Whatever users, providers and callbacks do.) -/
theorem C53_modest_partial {w : World} (hr : ReachableBy ModestBatch w) : Whole (toUndelegate w) := by
  obtain ⟨w0, hi, ht⟩ := hr
  refine C53_partial ⟨w0, hi, ?_⟩
  induction ht with
  | nil => exact .nil
  | @snoc w1 w2 op ht hs hp ih =>
    refine .snoc op ih hs ?_
    rintro c o rfl
    have hr1 := reachable_trace (.init hi) ht
    obtain ⟨hm, p, h1, h2⟩ := hp c o rfl
    obtain ⟨b, hb, _, hq, _⟩ := C20_unDelegatePending_exact hr1 hs
    rw [← (C54_first hr1 hs hb hm rfl h1 h2).1]; exact hq

/-- A check of `ModestBatch` along a run. -/
def modestOps (w : World) : List Op → Bool
  | [] => true
  | op :: ops =>
    (match op with
      | .unDelegatePending _ o =>
        decide (w.st.maxSelectedProviders < 2 ^ 32) && (match (withStake w).head? with
          | some p => decide (batchAsked (toUndelegate w) o + oneEgld ≤ netStake w p)
          | none => false)
      | _ => true) && modestOps (exec w op) ops

/-- In `busy` a batch was asked back; 5 more EGLD were redeemed since. -/
example : ReachableBy ModestBatch (run fresh (busy ++ [.unDelegate 11 0 [⟨500, 0, E 15⟩]])) ∧
    oneEgld < toUndelegate (run fresh (busy ++ [.unDelegate 11 0 [⟨500, 0, E 15⟩]])) ∧
    0 < unbonding (run fresh (busy ++ [.unDelegate 11 0 [⟨500, 0, E 15⟩]])) := by
  refine ⟨⟨fresh, fresh_isInit, trace_of_run modestOps (fun w op ops h => ?_) _ fresh (by decide +kernel)⟩,
    by decide +kernel, by decide +kernel⟩
  simp only [modestOps, Bool.and_eq_true] at h
  refine ⟨h.2, fun w' hw c o hop => ?_⟩
  subst hop
  have h1 := h.1
  simp only [Bool.and_eq_true, decide_eq_true_eq] at h1
  refine ⟨h1.1, ?_⟩
  have h2 := h1.2
  revert h2
  cases (withStake w).head? with
  | none => intro h2; cases h2
  | some p => intro h2; exact ⟨p, rfl, of_decide_eq_true h2⟩

end LS
