import Verif.Proofs.Invert

/-! What `withdraw` does to the ledger of unstake tokens. -/

namespace LS

/-- Total of a list of payments. -/
def amtSum (ps : List Payment) : Nat := (ps.map Payment.amount).sum

/-- Total paid with nonce `n`. -/
def amtAt (n : Nat) : List Payment → Nat
  | [] => 0
  | p :: ps => (if p.nonce = n then p.amount else 0) + amtAt n ps

/-- Total redeemed for nonce `n` when `tw` is available: payments are served in order. -/
def burnedAt (n : Nat) : Nat → List Payment → Nat
  | _, [] => 0
  | tw, p :: ps => (if p.nonce = n then min p.amount tw else 0) + burnedAt n (tw - min p.amount tw) ps

theorem burnedAt_le (n : Nat) (ps : List Payment) : ∀ tw, burnedAt n tw ps ≤ amtAt n ps := by
  induction ps with
  | nil => intro tw; simp [burnedAt, amtAt]
  | cons p ps ih =>
    intro tw
    have := ih (tw - min p.amount tw)
    simp only [burnedAt, amtAt]
    split <;> omega

/-- Selects the entries of users (everyone but the contract). -/
def notSelf (self : Addr) (k : Nat × Addr) : Bool := decide (k.2 ≠ self)

theorem payEsdts_st {caller : Addr} : ∀ {ps : List Payment} {w1 w2 : World},
    payEsdts w1 caller ps = .ok w2 → w2.st = w1.st := by
  intro ps
  induction ps with
  | nil => intro w1 w2 h; simp only [payEsdts, Except.ok.injEq] at h; rw [h]
  | cons p ps ih =>
    intro w1 w2 h
    simp only [payEsdts, bind_ok] at h
    obtain ⟨w3, h3, h4⟩ := h
    rw [ih h4]
    unfold payEsdt1 at h3
    split at h3
    · split at h3
      · simp only [bind_ok, Except.ok.injEq] at h3; obtain ⟨_, _, rfl⟩ := h3; rfl
      · simp at h3
    · split at h3
      · simp only [bind_ok, Except.ok.injEq] at h3; obtain ⟨_, _, rfl⟩ := h3; rfl
      · simp only [Except.ok.injEq] at h3; rw [h3]

/-- The VM's booking of unstake-token payments. -/
theorem payEsdts_ok {caller : Addr} {uid : TokenId} : ∀ {ps : List Payment} {w w' : World},
    caller ≠ w.self → w.st.unstakeToken = some uid → w.st.lsToken ≠ some uid → (∀ p ∈ ps, p.token = uid) →
    payEsdts w caller ps = .ok w' →
    ∃ N, w' = { w with nft := N } ∧
      (∀ n, N.get 0 (n, caller) + amtAt n ps = w.nft.get 0 (n, caller)) ∧
      (∀ n, N.get 0 (n, w.self) = w.nft.get 0 (n, w.self) + amtAt n ps) ∧
      (∀ n a, a ≠ caller → a ≠ w.self → N.get 0 (n, a) = w.nft.get 0 (n, a)) ∧
      N.total (notSelf w.self) + amtSum ps = w.nft.total (notSelf w.self) := by
  intro ps
  induction ps with
  | nil =>
    intro w w' _ _ _ _ h
    simp only [payEsdts, Except.ok.injEq] at h
    subst h
    exact ⟨w.nft, rfl, by simp [amtAt], by simp [amtAt], by simp, by simp [amtSum]⟩
  | cons p ps ih =>
    intro w w' hc hu hl hp h
    simp only [payEsdts, bind_ok] at h
    obtain ⟨w1, h1, h2⟩ := h
    have hpt : p.token = uid := hp p (by simp)
    unfold payEsdt1 at h1
    rw [hpt, if_neg hl, if_pos hu] at h1
    simp only [bind_ok, Except.ok.injEq] at h1
    obtain ⟨m, hm, rfl⟩ := h1
    obtain ⟨N, hN, e1, e2, e3, e4⟩ := ih (w := { w with nft := credit m (p.nonce, w.self) p.amount }) hc hu hl
      (fun q hq => hp q (List.mem_cons_of_mem _ hq)) h2
    refine ⟨N, hN, ?_, ?_, ?_, ?_⟩
    · intro n
      have := e1 n
      simp only [get_credit, get_debit hm, amtAt] at this ⊢
      have hle := debit_le hm
      by_cases hn : p.nonce = n
      · subst hn; simp [hc.symm] at this ⊢; omega
      · simp [hn] at this ⊢; omega
    · intro n
      have := e2 n
      simp only [get_credit, get_debit hm, amtAt] at this ⊢
      by_cases hn : p.nonce = n
      · subst hn; simp [hc] at this ⊢; omega
      · simp [hn] at this ⊢; omega
    · intro n a h1 h2
      have := e3 n a h1 h2
      simp only [get_credit, get_debit hm] at this ⊢
      rw [this]; simp [Ne.symm h1, Ne.symm h2]
    · have hd := total_debit (notSelf w.self) hm
      simp only [total_credit] at e4
      simp only [notSelf, hc, ne_eq, not_true, decide_false, not_false_eq_true, decide_true, if_true] at e4 hd ⊢
      simp only [amtSum, List.map_cons, List.sum_cons] at e4 ⊢
      simp only [Bool.false_eq_true, if_false, Nat.add_zero] at e4
      omega

/-- One payment of `withdraw`. -/
theorem withdrawOne_ok {caller : Addr} {uid : TokenId} {w w' : World} {c c' : Cache} {t t' : Nat} {p : Payment}
    (h : withdrawOne caller uid w c t p = .ok (w', c', t')) :
    p.token = uid ∧ 0 < p.amount ∧ 0 < c.r.withdrawn ∧
    (∃ a, w.attrs.get none p.nonce = some a ∧ a.unbondEpoch ≤ w.epoch) ∧
    t' = t + min p.amount c.r.withdrawn ∧
    c' = { c with r := { c.r with withdrawn := c.r.withdrawn - min p.amount c.r.withdrawn } } ∧
    ∃ m, debit w.nft (p.nonce, w.self) (min p.amount c.r.withdrawn) = .ok m ∧
      ((p.amount ≤ c.r.withdrawn ∧ w' = { w with nft := m }) ∨
       (c.r.withdrawn < p.amount ∧ ∃ m', debit m (p.nonce, w.self) (p.amount - c.r.withdrawn) = .ok m' ∧
          w' = { w with nft := credit m' (p.nonce, caller) (p.amount - c.r.withdrawn) })) := by
  unfold withdrawOne at h
  simp only [bind_ok, req_ok, exists_const, nftAttrs_ok] at h
  obtain ⟨h1, h2, a, ⟨h3, h4⟩, h5, h⟩ := h
  refine ⟨h1, h2, ?_⟩
  rw [ite_ok, ite_ok] at h
  rcases h with ⟨h6, h⟩ | ⟨h6, h⟩
  · simp only [bind_ok, nftBurn_ok, csub_ok, Except.ok.injEq, Prod.mk.injEq] at h
    obtain ⟨w1, ⟨m, hm, rfl⟩, x, ⟨_, rfl⟩, rfl, rfl, rfl⟩ := h
    rw [Nat.min_eq_left h6]
    exact ⟨by omega, ⟨a, h4, h5⟩, rfl, rfl, m, hm, .inl ⟨h6, rfl⟩⟩
  · rcases h with ⟨h7, h⟩ | ⟨_, h⟩
    · simp only [bind_ok, nftBurn_ok, csub_ok, sendNft_ok, Except.ok.injEq, Prod.mk.injEq] at h
      obtain ⟨w1, ⟨m, hm, rfl⟩, x, ⟨_, rfl⟩, w2, ⟨m', hm', rfl⟩, rfl, rfl, rfl⟩ := h
      rw [Nat.min_eq_right (by omega), Nat.sub_self]
      exact ⟨h7, ⟨a, h4, h5⟩, rfl, rfl, m, hm, .inr ⟨by omega, m', hm', rfl⟩⟩
    · simp at h

/-- The payment loop of `withdraw`. -/
theorem withdrawLoop_ok {caller : Addr} {uid : TokenId} : ∀ {ps : List Payment} {w w' : World} {c c' : Cache} {t t' : Nat},
    caller ≠ w.self → withdrawLoop caller uid ps w c t = .ok (w', c', t') →
    (∀ p ∈ ps, p.token = uid ∧ 0 < p.amount ∧ ∃ a, w.attrs.get none p.nonce = some a ∧ a.unbondEpoch ≤ w.epoch) ∧
    (ps ≠ [] → 0 < c.r.withdrawn) ∧
    t' = t + min (amtSum ps) c.r.withdrawn ∧
    c' = { c with r := { c.r with withdrawn := c.r.withdrawn - min (amtSum ps) c.r.withdrawn } } ∧
    ∃ N, w' = { w with nft := N } ∧
      (∀ n, N.get 0 (n, caller) + burnedAt n c.r.withdrawn ps = w.nft.get 0 (n, caller) + amtAt n ps) ∧
      (∀ n, N.get 0 (n, w.self) + amtAt n ps = w.nft.get 0 (n, w.self)) ∧
      (∀ n a, a ≠ caller → a ≠ w.self → N.get 0 (n, a) = w.nft.get 0 (n, a)) ∧
      N.total (notSelf w.self) + min (amtSum ps) c.r.withdrawn = w.nft.total (notSelf w.self) + amtSum ps := by
  intro ps
  induction ps with
  | nil =>
    intro w w' c c' t t' _ h
    simp only [withdrawLoop, Except.ok.injEq, Prod.mk.injEq] at h
    obtain ⟨rfl, rfl, rfl⟩ := h
    exact ⟨by simp, by simp, by simp [amtSum], by simp [amtSum], w.nft, rfl, by simp [burnedAt, amtAt],
      by simp [amtAt], by simp, by simp [amtSum]⟩
  | cons p ps ih =>
    intro w w' c c' t t' hc h
    simp only [withdrawLoop, bind_ok, Prod.exists] at h
    obtain ⟨w1, c1, t1, h1, h2⟩ := h
    obtain ⟨ha, hb, hw, hat, rfl, rfl, m, hm, hcase⟩ := withdrawOne_ok h1
    have hw1 : ∃ N, w1 = { w with nft := N } := by
      rcases hcase with ⟨_, rfl⟩ | ⟨_, m', _, rfl⟩ <;> exact ⟨_, rfl⟩
    obtain ⟨N1, hN1⟩ := hw1
    have f1 : ∀ n, N1.get 0 (n, caller) + (if p.nonce = n then min p.amount c.r.withdrawn else 0) =
        w.nft.get 0 (n, caller) + (if p.nonce = n then p.amount else 0) := by
      intro n
      rcases hcase with ⟨h6, rfl⟩ | ⟨h6, m', hm', rfl⟩
      · simp only [World.mk.injEq, true_and, and_true] at hN1
        subst hN1
        rw [get_debit hm]
        by_cases hn : p.nonce = n <;> simp [hn, hc.symm]; omega
      · simp only [World.mk.injEq, true_and, and_true] at hN1
        subst hN1
        rw [get_credit, get_debit hm', get_debit hm]
        by_cases hn : p.nonce = n <;> simp [hn, hc.symm]; omega
    have f2 : ∀ n, N1.get 0 (n, w.self) + (if p.nonce = n then p.amount else 0) = w.nft.get 0 (n, w.self) := by
      intro n
      have hle := debit_le hm
      rcases hcase with ⟨h6, rfl⟩ | ⟨h6, m', hm', rfl⟩
      · simp only [World.mk.injEq, true_and, and_true] at hN1
        subst hN1
        rw [get_debit hm]
        by_cases hn : p.nonce = n
        · subst hn; simp; omega
        · simp [hn]
      · simp only [World.mk.injEq, true_and, and_true] at hN1
        subst hN1
        have hle' := debit_le hm'
        rw [get_debit hm] at hle'
        rw [get_credit, get_debit hm', get_debit hm]
        by_cases hn : p.nonce = n
        · subst hn; simp [hc] at hle' ⊢; omega
        · simp [hn]
    have f3 : ∀ n a, a ≠ caller → a ≠ w.self → N1.get 0 (n, a) = w.nft.get 0 (n, a) := by
      intro n a ha1 ha2
      rcases hcase with ⟨h6, rfl⟩ | ⟨h6, m', hm', rfl⟩
      · simp only [World.mk.injEq, true_and, and_true] at hN1
        subst hN1
        rw [get_debit hm]; simp [ha2.symm]
      · simp only [World.mk.injEq, true_and, and_true] at hN1
        subst hN1
        rw [get_credit, get_debit hm', get_debit hm]; simp [ha1.symm, ha2.symm]
    have f4 : N1.total (notSelf w.self) + min p.amount c.r.withdrawn = w.nft.total (notSelf w.self) + p.amount := by
      have hd := total_debit (notSelf w.self) hm
      simp only [notSelf, ne_eq, not_true, decide_false, Bool.false_eq_true, if_false, Nat.add_zero] at hd
      rcases hcase with ⟨h6, rfl⟩ | ⟨h6, m', hm', rfl⟩
      · simp only [World.mk.injEq, true_and, and_true] at hN1
        subst hN1
        rw [hd]; omega
      · simp only [World.mk.injEq, true_and, and_true] at hN1
        subst hN1
        have hd' := total_debit (notSelf w.self) hm'
        simp only [notSelf, ne_eq, not_true, decide_false, Bool.false_eq_true, if_false, Nat.add_zero] at hd'
        rw [total_credit]
        simp only [notSelf, ne_eq, hc, not_false_eq_true, decide_true, if_true]
        rw [hd', hd]; omega
    subst hN1
    obtain ⟨g1, g2, g3, g4, N, hN, e1, e2, e3, e4⟩ := ih (w := { w with nft := N1 }) hc h2
    simp only at g1 g2 g3 g4 e1 e2 e3 e4
    have hsum : amtSum (p :: ps) = p.amount + amtSum ps := by simp [amtSum]
    refine ⟨?_, fun _ => hw, ?_, ?_, N, hN, ?_, ?_, ?_, ?_⟩
    · intro q hq
      rcases List.mem_cons.1 hq with rfl | hq
      · exact ⟨ha, hb, hat⟩
      · exact g1 q hq
    · rw [g3, hsum]; omega
    · rw [g4, hsum]
      have : c.r.withdrawn - min p.amount c.r.withdrawn - min (amtSum ps) (c.r.withdrawn - min p.amount c.r.withdrawn) =
        c.r.withdrawn - min (p.amount + amtSum ps) c.r.withdrawn := by omega
      rw [this]
    · intro n
      have := e1 n; have := f1 n
      simp only [burnedAt, amtAt]; omega
    · intro n
      have := e2 n; have := f2 n
      simp only [amtAt]; omega
    · intro n a ha1 ha2
      rw [e3 n a ha1 ha2, f3 n a ha1 ha2]
    · rw [hsum]; omega

/-- `withdraw`, completely. -/
theorem withdraw_ok {w w' : World} {caller : Addr} {v : Nat} {ps : List Payment}
    (htok : ∀ t, w.st.lsToken = some t → w.st.unstakeToken ≠ some t)
    (h : withdraw w caller v ps = .ok w') :
    caller ≠ w.self ∧ (v = 0 ∨ ps = []) ∧ w.st.state = .active ∧ ∃ uid t m0 m E N,
      w.st.unstakeToken = some uid ∧ w.st.lsToken = some t ∧
      (∀ p ∈ ps, p.token = uid ∧ 0 < p.amount ∧ ∃ a, w.attrs.get none p.nonce = some a ∧ a.unbondEpoch ≤ w.epoch) ∧
      (ps ≠ [] → 0 < w.st.r.withdrawn) ∧
      debit w.egld caller v = .ok m0 ∧
      debit (credit m0 w.self v) w.self (min (amtSum ps) w.st.r.withdrawn) = .ok m ∧
      E = credit m caller (min (amtSum ps) w.st.r.withdrawn) ∧
      (∀ n, N.get 0 (n, caller) + burnedAt n w.st.r.withdrawn ps = w.nft.get 0 (n, caller)) ∧
      (∀ n, N.get 0 (n, w.self) = w.nft.get 0 (n, w.self)) ∧
      (∀ n a, a ≠ caller → a ≠ w.self → N.get 0 (n, a) = w.nft.get 0 (n, a)) ∧
      N.total (notSelf w.self) + min (amtSum ps) w.st.r.withdrawn = w.nft.total (notSelf w.self) ∧
      w' = commit (emit { w with egld := E, nft := N }
          ⟨w.st.state, t, { w.st.r with withdrawn := w.st.r.withdrawn - min (amtSum ps) w.st.r.withdrawn }⟩ .general caller)
          ⟨w.st.state, t, { w.st.r with withdrawn := w.st.r.withdrawn - min (amtSum ps) w.st.r.withdrawn }⟩ := by
  unfold withdraw payAny at h
  simp only [bind_ok, requireUser_ok, requireActive_ok, req_ok, exists_const, payEgld_ok] at h
  obtain ⟨h1, w0, ⟨hv, w00, ⟨m0, hm0, rfl⟩, hpay⟩, c, hc, hact, h⟩ := h
  have hst : w0.st = w.st := by
    have := payEsdts_st hpay
    exact this
  rw [hst] at h hc
  rw [cacheNew_ok] at hc
  obtain ⟨t, ht, rfl⟩ := hc
  cases hu : w.st.unstakeToken with
  | none => rw [hu] at h; simp at h
  | some uid =>
    rw [hu] at h
    simp only [bind_ok, Prod.exists, sendEgld_ok, Except.ok.injEq] at h
    obtain ⟨w1, c1, ts, hloop, w2, ⟨m, hm, rfl⟩, rfl⟩ := h
    have hls : w.st.lsToken ≠ some uid := fun hx => htok uid hx hu
    -- every payment is an unstake token
    have htk : ∀ p ∈ ps, p.token = uid := by
      clear hm
      suffices H : ∀ (ps : List Payment) (wa wb : World) (ca cb : Cache) (ta tb : Nat),
          withdrawLoop caller uid ps wa ca ta = .ok (wb, cb, tb) → ∀ p ∈ ps, p.token = uid by
        exact H _ _ _ _ _ _ _ hloop
      intro ps
      induction ps with
      | nil => simp
      | cons p ps ih =>
        intro wa wb ca cb ta tb h
        simp only [withdrawLoop, bind_ok, Prod.exists] at h
        obtain ⟨w3, c3, t3, h3, h4⟩ := h
        intro q hq
        rcases List.mem_cons.1 hq with rfl | hq
        · exact (withdrawOne_ok h3).1
        · exact ih _ _ _ _ _ _ h4 q hq
    obtain ⟨N0, rfl, p1, p2, p3, p4⟩ :=
      payEsdts_ok (w := { w with egld := credit m0 w.self v }) h1 hu hls htk hpay
    obtain ⟨g1, g2, g3, g4, N, rfl, e1, e2, e3, e4⟩ := withdrawLoop_ok (w := { w with egld := credit m0 w.self v, nft := N0 })
      h1 hloop
    simp only [Nat.zero_add] at g1 g2 g3 g4 e1 e2 e3 e4 p1 p2 p3 p4 hm
    subst g3 g4
    refine ⟨h1, hv, hact, uid, t, m0, m, _, N, rfl, ht, g1, g2, hm0, hm, rfl, ?_, ?_, ?_, ?_, rfl⟩
    · intro n; have := e1 n; have := p1 n; omega
    · intro n; have := e2 n; have := p2 n; omega
    · intro n a h1 h2; rw [e3 n a h1 h2, p3 n a h1 h2]
    · omega

end LS
