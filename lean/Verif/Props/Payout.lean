import Verif.Props.Shares

/-! When withdrawals are accepted: C50. -/

namespace LS
open Spec Demo

private theorem ne_payEsdts {e : Err} {caller : Addr} {uid : TokenId} : ∀ {ps : List Payment} {w : World},
    caller ≠ w.self → w.st.unstakeToken = some uid → w.st.lsToken ≠ some uid → (∀ p ∈ ps, p.token = uid) →
    (∀ n, amtAt n ps ≤ w.nft.get 0 (n, caller)) → NoErr e (payEsdts w caller ps) := by
  intro ps
  induction ps with
  | nil => intro w _ _ _ _ _; exact .ok _
  | cons p ps ih =>
    intro w hc hu hl hp hn
    unfold payEsdts
    have hpt : p.token = uid := hp p (by simp)
    have hle : p.amount ≤ w.nft.get 0 (p.nonce, caller) := by
      have := hn p.nonce
      simp only [amtAt, if_true] at this
      omega
    refine .bind ?_ fun w1 h1 => ?_
    · unfold payEsdt1
      rw [hpt, if_neg hl, if_pos hu]
      exact .bind (.debit (.inl hle)) fun _ _ => .ok _
    · unfold payEsdt1 at h1
      rw [hpt, if_neg hl, if_pos hu] at h1
      simp only [bind_ok, Except.ok.injEq] at h1
      obtain ⟨m, hm, rfl⟩ := h1
      refine ih hc hu hl (fun q hq => hp q (by simp [hq])) fun n => ?_
      have := hn n
      dsimp only
      rw [get_credit, get_debit hm]
      simp only [amtAt] at this
      by_cases hk : p.nonce = n
      · subst hk; simp [hc.symm] at this ⊢; omega
      · simp [hk] at this ⊢; omega

private theorem ne_withdrawLoop {e : Err} {caller : Addr} {uid : TokenId} : ∀ {ps : List Payment} {w : World} {c : Cache} {t : Nat},
    caller ≠ w.self →
    (∀ p ∈ ps, p.token = uid ∧ 0 < p.amount ∧ ∃ a, w.attrs.get none p.nonce = some a ∧ a.unbondEpoch ≤ w.epoch) →
    (∀ n, amtAt n ps ≤ w.nft.get 0 (n, w.self)) → (∀ ps1 p ps2, ps = ps1 ++ p :: ps2 → amtSum ps1 < c.r.withdrawn) →
    NoErr e (withdrawLoop caller uid ps w c t) := by
  intro ps
  induction ps with
  | nil => intro w c t _ _ _ _; exact .ok _
  | cons p ps ih =>
    intro w c t hc hp hn hpre
    obtain ⟨hp1, hp2, a, ha, he⟩ := hp p (by simp)
    have hle : p.amount ≤ w.nft.get 0 (p.nonce, w.self) := by
      have := hn p.nonce
      simp only [amtAt, if_true] at this
      omega
    have hpos : 0 < c.r.withdrawn := by
      have := hpre [] p ps rfl
      simpa [amtSum] using this
    unfold withdrawLoop
    refine .bind ?_ fun r hr => ?_
    · unfold withdrawOne
      have hattrs : nftAttrs w p.nonce = .ok a := by
        unfold nftAttrs; rw [if_neg (by omega), ha]
      rw [hattrs]
      refine .bind (.req (.inl hp1)) fun _ _ => .bind (.req (.inl hp2)) fun _ _ => .bind (.ok a) fun a' ha' => ?_
      simp only [Except.ok.injEq] at ha'
      subst ha'
      refine .bind (.req (.inl he)) fun _ _ => .ite (fun h1 => ?_) fun h1 => .ite (fun h2 => ?_) fun h2 => absurd hpos h2
      · exact .bind (.bind (.debit (.inl hle)) fun _ _ => .ok _) fun _ _ => .bind (.csub (.inl h1)) fun _ _ => .ok _
      · refine .bind (.bind (.debit (.inl (by omega))) fun _ _ => .ok _) fun w1 hw1 =>
          .bind (.csub (.inl (by omega))) fun x hx => ?_
        obtain ⟨m, hm, rfl⟩ := nftBurn_ok.1 hw1
        obtain ⟨_, rfl⟩ := csub_ok.1 hx
        refine .bind (.bind (.debit (.inl ?_)) fun _ _ => .ok _) fun _ _ => .ok _
        dsimp only
        rw [get_debit hm, if_pos rfl]
        omega
    · obtain ⟨w1, c1, t1⟩ := r
      obtain ⟨_, _, _, _, _, rfl, m, hm, hcase⟩ := withdrawOne_ok hr
      have hw1 : ∃ N, w1 = { w with nft := N } ∧
          ∀ n, N.get 0 (n, w.self) + (if p.nonce = n then p.amount else 0) = w.nft.get 0 (n, w.self) := by
        rcases hcase with ⟨h6, rfl⟩ | ⟨h6, m', hm', rfl⟩
        · refine ⟨_, rfl, fun n => ?_⟩
          rw [get_debit hm]
          by_cases hn : p.nonce = n
          · subst hn; simp; omega
          · simp [hn]
        · refine ⟨_, rfl, fun n => ?_⟩
          have hle' := debit_le hm'
          rw [get_debit hm] at hle'
          rw [get_credit, get_debit hm', get_debit hm]
          by_cases hn : p.nonce = n
          · subst hn; simp [hc] at hle' ⊢; omega
          · simp [hn]
      obtain ⟨N, rfl, hN⟩ := hw1
      refine ih (w := { w with nft := N }) hc (fun q hq => hp q (by simp [hq])) (fun n => ?_) fun ps1 q ps2 hq => ?_
      · have h1 := hn n
        have h2 := hN n
        simp only [amtAt] at h1
        dsimp only
        omega
      · have := hpre (p :: ps1) q ps2 (by rw [hq]; rfl)
        simp only [amtSum, List.map_cons, List.sum_cons] at this ⊢
        omega

private theorem withdrawLoop_prefix {caller : Addr} {uid : TokenId} : ∀ {ps : List Payment} {w w' : World} {c c' : Cache} {t t' : Nat},
    withdrawLoop caller uid ps w c t = .ok (w', c', t') → ∀ ps1 p ps2, ps = ps1 ++ p :: ps2 → amtSum ps1 < c.r.withdrawn := by
  intro ps
  induction ps with
  | nil => intro w w' c c' t t' _ ps1 p ps2 h; simp at h
  | cons p ps ih =>
    intro w w' c c' t t' h ps1 q ps2 hq
    simp only [withdrawLoop, bind_ok, Prod.exists] at h
    obtain ⟨w1, c1, t1, h1, h2⟩ := h
    obtain ⟨_, _, hpos, _, _, rfl, _⟩ := withdrawOne_ok h1
    cases ps1 with
    | nil => simpa [amtSum] using hpos
    | cons y ys =>
      simp only [List.cons_append, List.cons.injEq] at hq
      obtain ⟨rfl, rfl⟩ := hq
      have := ih h2 ys q ps2 rfl
      simp only [amtSum, List.map_cons, List.sum_cons] at this ⊢
      omega

/-- **C50.** A withdrawal is accepted if and only if the contract is active with both tokens issued, every payment is a positive
amount of matured unstake tokens, the sender holds them, and the withdrawable pool is not yet used up when the last payment is
reached. -/
theorem C50_withdraw_iff {w : World} {c : Addr} {ps : List Payment} (hr : ReachableBy HonestManager w) :
    (∃ w', step w (.withdraw c 0 ps) = .ok w') ↔
      w.st.state = .active ∧ w.st.lsToken ≠ none ∧ w.st.unstakeToken ≠ none ∧ c ≠ w.self ∧
      (∀ p ∈ ps, w.st.unstakeToken = some p.token ∧ 0 < p.amount ∧ ∃ e, maturityOf w p.nonce = some e ∧ e ≤ w.epoch) ∧
      (∀ n, paidWith n ps ≤ unstakeOf w n c) ∧
      (∀ ps1 p ps2, ps = ps1 ++ p :: ps2 → totalPaid ps1 < withdrawable w) := by
  have hR := reachableBy_reachable hr
  have htok := (reachable_regInv hR).tok
  constructor
  · rintro ⟨w', h⟩
    obtain ⟨h1, _, h3, uid, t, m0, m, E, N, hu, ht, hp, _, _, _, _, hN, _⟩ := withdraw_ok htok h
    refine ⟨h3, by rw [ht]; simp, by rw [hu]; simp, h1, ?_, ?_, ?_⟩
    · intro p hm
      obtain ⟨g1, g2, a, g3, g4⟩ := hp p hm
      exact ⟨by rw [hu, g1], g2, a.unbondEpoch, by unfold maturityOf; rw [g3]; rfl, g4⟩
    · have h' : withdraw w c 0 ps = .ok w' := h
      unfold withdraw payAny at h'
      simp only [bind_ok, requireUser_ok, requireActive_ok, payEgld_ok, req_ok, exists_const] at h'
      obtain ⟨_, w0, ⟨_, w00, ⟨m0, _, rfl⟩, hpay⟩, _⟩ := h'
      obtain ⟨N0, _, e1, _⟩ := payEsdts_ok (w := { w with egld := credit m0 w.self 0 }) h1 hu (fun hx => htok uid hx hu)
        (fun p hm => (hp p hm).1) hpay
      intro n
      have := e1 n
      rw [paidWith_eq]
      unfold unstakeOf
      dsimp only at this
      omega
    · have h' : withdraw w c 0 ps = .ok w' := h
      unfold withdraw payAny at h'
      simp only [bind_ok, requireUser_ok, requireActive_ok, payEgld_ok, req_ok, exists_const] at h'
      obtain ⟨_, w0, ⟨_, w00, ⟨m0, _, rfl⟩, hpay⟩, cc, hcc, _, h'⟩ := h'
      have hst : w0.st = w.st := by
        have := payEsdts_st hpay
        exact this
      rw [hst] at hcc h'
      rw [hu] at h'
      obtain ⟨t', _, rfl⟩ := cacheNew_ok.1 hcc
      simp only [bind_ok, Prod.exists] at h'
      obtain ⟨w1, c1, ts, hloop, _⟩ := h'
      intro ps1 p ps2 hps
      have := withdrawLoop_prefix hloop ps1 p ps2 hps
      rw [totalPaid_eq]
      exact this
  · rintro ⟨h1, h2, h3, h4, h5, h6, h7⟩
    obtain ⟨t, ht⟩ := Option.ne_none_iff_exists'.1 h2
    obtain ⟨uid, hu⟩ := Option.ne_none_iff_exists'.1 h3
    have hls : w.st.lsToken ≠ some uid := fun hx => htok uid hx hu
    have htk : ∀ p ∈ ps, p.token = uid := by
      intro p hp
      have := (h5 p hp).1
      rw [hu] at this
      exact (Option.some.inj this).symm
    have hn : ∀ n, amtAt n ps ≤ w.nft.get 0 (n, c) := by
      intro n; have := h6 n; rw [paidWith_eq] at this; exact this
    have hsol := C09_solvent hr
    unfold pendingEgld withdrawable feesReserve egldOf at hsol
    apply NoErr.all
    intro e
    show NoErr e (withdraw w c 0 ps)
    unfold withdraw payAny
    refine .bind (.req (.inl h4)) fun _ _ => ?_
    obtain ⟨m0, hm0, hm0a, _⟩ := payEgld_zero w c
    rw [hm0]
    refine .bind ?_ fun w0 hw0 => ?_
    · refine .bind (.req (.inl (.inl rfl))) fun _ _ => .bind (.ok _) fun w1 hw1 => ?_
      simp only [Except.ok.injEq] at hw1
      subst hw1
      exact ne_payEsdts h4 hu hls htk hn
    · simp only [bind_ok, Except.ok.injEq] at hw0
      obtain ⟨_, _, w1, rfl, hw0⟩ := hw0
      obtain ⟨N0, rfl, _, e2, _⟩ := payEsdts_ok (w := { w with egld := m0 }) h4 hu hls htk hw0
      refine .bind (cacheNew_noErr ht) fun cc hcc => ?_
      obtain ⟨t', _, rfl⟩ := cacheNew_ok.1 hcc
      dsimp only
      refine .bind (.req (.inl h1)) fun _ _ => ?_
      rw [hu]
      dsimp only
      have hp' : ∀ p ∈ ps, p.token = uid ∧ 0 < p.amount ∧ ∃ a, w.attrs.get none p.nonce = some a ∧ a.unbondEpoch ≤ w.epoch := by
        intro p hp
        obtain ⟨_, g2, e', g3, g4⟩ := h5 p hp
        refine ⟨htk p hp, g2, ?_⟩
        unfold maturityOf at g3
        cases hg : w.attrs.get none p.nonce with
        | none => rw [hg] at g3; cases g3
        | some a => rw [hg] at g3; cases g3; exact ⟨a, rfl, g4⟩
      have hpre : ∀ ps1 p ps2, ps = ps1 ++ p :: ps2 → amtSum ps1 < w.st.r.withdrawn := by
        intro ps1 p ps2 hps
        have := h7 ps1 p ps2 hps
        rw [totalPaid_eq] at this
        exact this
      refine .bind ?_ fun r hr' => ?_
      · refine ne_withdrawLoop (w := { w with egld := m0, nft := N0 }) h4 hp' (fun n => ?_) hpre
        have := e2 n
        dsimp only at this ⊢
        omega
      · obtain ⟨w2, c2, ts⟩ := r
        obtain ⟨_, _, hts, _, N, rfl, _⟩ := withdrawLoop_ok (w := { w with egld := m0, nft := N0 }) h4 hr'
        refine .bind (.bind (.debit (.inl ?_)) fun _ _ => .ok _) fun _ _ => .ok _
        dsimp only at hts ⊢
        rw [hm0a]
        omega

/-- User 11 withdraws in two payments; the second exhausts the pool, so a third would make the call fail. -/
example : ReachableBy HonestManager (run fresh busy) ∧ withdrawable (run fresh busy) = E 20 ∧
    works (run fresh busy) (.withdraw 11 0 [⟨501, 1, E 15⟩, ⟨501, 1, E 6⟩]) = true ∧
    works (run fresh busy) (.withdraw 11 0 [⟨501, 1, E 15⟩, ⟨501, 1, E 6⟩, ⟨501, 1, E 1⟩]) = false ∧
    paidWith 1 [⟨501, 1, E 15⟩, ⟨501, 1, E 6⟩, ⟨501, 1, E 1⟩] ≤ unstakeOf (run fresh busy) 1 11 :=
  ⟨reachableBy_honest (by decide +kernel), by decide +kernel, by decide +kernel, by decide +kernel, by decide +kernel⟩

end LS
