import Verif.Proofs.PoolLemmas

/-! Inversion lemmas: what a successful endpoint or helper did, with every record written out. -/

namespace LS

theorem requireUser_ok {w : World} {a : Addr} {u : Unit} : requireUser w a = .ok u ↔ a ≠ w.self := by
  unfold requireUser; exact req_ok

theorem requireActive_ok {c : Cache} {u : Unit} : requireActive c = .ok u ↔ c.state = .active := by
  unfold requireActive; exact req_ok

theorem requireManager_ok {w : World} {a : Addr} {u : Unit} : requireManager w a = .ok u ↔ isManager w a = true := by
  unfold requireManager; exact req_ok

theorem requireOwner_ok {w : World} {a : Addr} {u : Unit} : requireOwner w a = .ok u ↔ a = w.owner := by
  unfold requireOwner; exact req_ok

theorem sendLs_ok {w w' : World} {c : Addr} {v : Nat} :
    sendLs w c v = .ok w' ↔ ∃ m, debit w.ls w.self v = .ok m ∧ w' = { w with ls := credit m c v } := by
  unfold sendLs
  simp only [bind_ok, Except.ok.injEq]
  constructor <;> rintro ⟨m, h, rfl⟩ <;> exact ⟨m, h, rfl⟩

theorem burnLs_ok {w w' : World} {v : Nat} :
    burnLs w v = .ok w' ↔ ∃ m, debit w.ls w.self v = .ok m ∧ w' = { w with ls := m } := by
  unfold burnLs
  simp only [bind_ok, Except.ok.injEq]
  constructor <;> rintro ⟨m, h, rfl⟩ <;> exact ⟨m, h, rfl⟩

theorem nftBurn_ok {w w' : World} {n v : Nat} :
    nftBurn w n v = .ok w' ↔ ∃ m, debit w.nft (n, w.self) v = .ok m ∧ w' = { w with nft := m } := by
  unfold nftBurn
  simp only [bind_ok, Except.ok.injEq]
  constructor <;> rintro ⟨m, h, rfl⟩ <;> exact ⟨m, h, rfl⟩

theorem sendNft_ok {w w' : World} {dst : Addr} {n v : Nat} :
    sendNft w dst n v = .ok w' ↔
      ∃ m, debit w.nft (n, w.self) v = .ok m ∧ w' = { w with nft := credit m (n, dst) v } := by
  unfold sendNft
  simp only [bind_ok, Except.ok.injEq]
  constructor <;> rintro ⟨m, h, rfl⟩ <;> exact ⟨m, h, rfl⟩

theorem nftAddQuantity_ok {w w' : World} {n v : Nat} :
    nftAddQuantity w n v = .ok w' ↔
      w.nft.get 0 (n, w.self) ≠ 0 ∧ w' = { w with nft := credit w.nft (n, w.self) v } := by
  unfold nftAddQuantity; split
  · next h => simp [h]
  · next h => simp [h]; exact eq_comm

theorem nftAttrs_ok {w : World} {n : Nat} {a : Attrs} :
    nftAttrs w n = .ok a ↔ w.nft.get 0 (n, w.self) ≠ 0 ∧ w.attrs.get none n = some a := by
  unfold nftAttrs; split
  · next h => simp [h]
  · next h => cases h2 : w.attrs.get none n <;> simp [h]

theorem registerPromise_ok {w w' : World} {f : Flight} {v : Nat} :
    registerPromise w f v = .ok w' ↔
      ∃ m, debit w.egld w.self v = .ok m ∧ w' = { w with egld := m, flights := w.flights ++ [f] } := by
  unfold registerPromise
  simp only [bind_ok, Except.ok.injEq]
  constructor <;> rintro ⟨m, h, rfl⟩ <;> exact ⟨m, h, rfl⟩

theorem getData_ok {st : Store} {a : Addr} {d : ProviderData} :
    getData st a = .ok d ↔ st.data.get none a = some d := by
  unfold getData; cases h : st.data.get none a <;> simp

theorem updateData_ok {w w' : World} {a : Addr} {f : ProviderData → Res ProviderData} :
    updateData w a f = .ok w' ↔ ∃ d d', w.st.data.get none a = some d ∧ f d = .ok d' ∧
      w' = { w with st := { w.st with data := w.st.data.set a (some d') } } := by
  unfold updateData
  simp only [bind_ok, getData_ok, Except.ok.injEq]
  constructor
  · rintro ⟨d, h1, d', h2, rfl⟩; exact ⟨d, d', h1, h2, rfl⟩
  · rintro ⟨d, d', h1, h2, rfl⟩; exact ⟨d, h1, d', h2, rfl⟩

/-- The three ways `mint_unstake_tokens` can succeed. -/
inductive MintedUnstake (w : World) (a : Attrs) (v : Nat) (u cur : UInt64) : World → Nat → Prop
  | topUp (n : Nat) (hn : w.st.unstakeNonce.get 0 u = n) (h0 : n ≠ 0) (hb : w.nft.get 0 (n, w.self) ≠ 0) :
      MintedUnstake w a v u cur { w with nft := credit w.nft (n, w.self) v } n
  | fresh (h0 : w.st.unstakeNonce.get 0 u = 0)
      (hc : w.lastNonce = 0 ∨ ∃ a', w.attrs.get none w.lastNonce = some a' ∧ ¬ a'.unstakeEpoch < cur) :
      MintedUnstake w a v u cur
        { w with nft := credit w.nft (w.lastNonce + 1, w.self) (v + 1),
                 attrs := w.attrs.set (w.lastNonce + 1) (some a), lastNonce := w.lastNonce + 1,
                 st := { w.st with unstakeNonce := w.st.unstakeNonce.set u (w.lastNonce + 1) } } (w.lastNonce + 1)
  | freshClean (a' : Attrs) (h0 : w.st.unstakeNonce.get 0 u = 0) (hl : w.lastNonce ≠ 0)
      (ha : w.attrs.get none w.lastNonce = some a') (hlt : a'.unstakeEpoch < cur)
      (hb : w.nft.get 0 (w.lastNonce, w.self) ≠ 0) :
      MintedUnstake w a v u cur
        { w with nft := (credit w.nft (w.lastNonce + 1, w.self) (v + 1)).set (w.lastNonce, w.self) 0,
                 attrs := w.attrs.set (w.lastNonce + 1) (some a), lastNonce := w.lastNonce + 1,
                 st := { w.st with
                   unstakeNonce := (w.st.unstakeNonce.set u (w.lastNonce + 1)).set a'.unbondEpoch 0 } }
        (w.lastNonce + 1)

theorem mintUnstakeTokens_ok {w w' : World} {a : Attrs} {v n : Nat} {u cur : UInt64}
    (h : mintUnstakeTokens w a v u cur = .ok (w', n)) :
    w.st.unstakeToken ≠ none ∧ MintedUnstake w a v u cur w' n := by
  unfold mintUnstakeTokens at h
  simp only at h
  split at h
  · next h0 =>
    simp only [bind_ok, req_ok, exists_const] at h
    obtain ⟨ht, h⟩ := h
    refine ⟨ht, ?_⟩
    rw [ite_ok] at h
    simp only [nftCreate] at h
    rcases h with ⟨h1, h⟩ | ⟨h1, h⟩
    · simp only [bind_ok, cleanOldUnbondEpochs, nftAttrs_ok, Nat.add_sub_cancel] at h
      obtain ⟨w3, ⟨a', ⟨hb, ha⟩, hw3⟩, h⟩ := h
      simp only [Except.ok.injEq, Prod.mk.injEq] at h
      obtain ⟨rfl, rfl⟩ := h
      have hl : w.lastNonce ≠ 0 := by omega
      rw [Map.get_set_other _ _ _ (by omega)] at ha
      rw [get_credit, if_neg (by simp)] at hb
      split at hw3
      · next hlt =>
        rw [nftBurn_ok] at hw3
        obtain ⟨m, hm, rfl⟩ := hw3
        obtain ⟨_, rfl⟩ := debit_ok.1 hm
        simp only [Nat.sub_self]
        exact .freshClean a' h0 hl ha hlt hb
      · next hlt =>
        simp only [Except.ok.injEq] at hw3
        subst hw3
        exact .fresh h0 (.inr ⟨a', ha, hlt⟩)
    · simp only [Except.ok.injEq, Prod.mk.injEq] at h
      obtain ⟨rfl, rfl⟩ := h
      exact .fresh h0 (.inl (by omega))
  · next h0 =>
    simp only [bind_ok, req_ok, nftAddQuantity_ok, exists_const, Except.ok.injEq, Prod.mk.injEq] at h
    obtain ⟨ht, _, ⟨hb, rfl⟩, rfl, rfl⟩ := h
    exact ⟨ht, .topUp _ rfl h0 hb⟩

theorem undelegateAmount_ok {w w' : World} {caller : Addr} {c c' : Cache} {v : Nat}
    (h : undelegateAmount w caller c v = .ok (w', c')) :
    c' = { c with r := { c.r with toUnstake := c.r.toUnstake + v } } ∧
    ((v = 0 ∧ w' = w) ∨
     (0 < v ∧ MIN_EGLD ≤ c.r.toUnstake + v ∧ w.st.unstakeToken ≠ none ∧ ∃ w1 n m,
       MintedUnstake w ⟨w.epoch, w.epoch + w.st.unbondPeriod⟩ v (w.epoch + w.st.unbondPeriod) w.epoch w1 n ∧
       debit w1.nft (n, w1.self) v = .ok m ∧ w' = { w1 with nft := credit m (n, caller) v })) := by
  unfold undelegateAmount at h
  split at h
  · next hv =>
    simp only [bind_ok, req_ok, exists_const, Prod.exists, sendNft_ok, Except.ok.injEq, Prod.mk.injEq] at h
    obtain ⟨h1, w1, n, hm, w2, ⟨m, hd, rfl⟩, rfl, rfl⟩ := h
    obtain ⟨ht, hM⟩ := mintUnstakeTokens_ok hm
    exact ⟨rfl, .inr ⟨hv, by omega, ht, w1, n, m, hM, hd, rfl⟩⟩
  · next hv =>
    simp only [Except.ok.injEq, Prod.mk.injEq] at h
    obtain ⟨rfl, rfl⟩ := h
    have : v = 0 := by omega
    subst this
    exact ⟨rfl, .inl ⟨rfl, rfl⟩⟩

theorem instantRedemption_ok {w w' : World} {caller : Addr} {c c' : Cache} {v : Nat}
    (h : instantRedemption w caller c v = .ok (w', c')) :
    v ≤ c.r.pending ∧ (0 < v → MIN_EGLD ≤ c.r.pending - v ∨ c.r.pending - v = 0) ∧
    c' = { c with r := { c.r with pending := c.r.pending - v } } ∧
    ((v = 0 ∧ w' = w) ∨ (0 < v ∧ ∃ m, debit w.egld w.self v = .ok m ∧ w' = { w with egld := credit m caller v })) := by
  unfold instantRedemption at h
  split at h
  · next hv =>
    simp only [bind_ok, req_ok, csub_ok, exists_const, sendEgld_ok, Except.ok.injEq, Prod.mk.injEq] at h
    obtain ⟨_, ⟨h1, rfl⟩, h2, w2, ⟨m, hd, rfl⟩, rfl, rfl⟩ := h
    exact ⟨h1, fun _ => h2, rfl, .inr ⟨hv, m, hd, rfl⟩⟩
  · next hv =>
    simp only [Except.ok.injEq, Prod.mk.injEq] at h
    obtain ⟨rfl, rfl⟩ := h
    have : v = 0 := by omega
    subst this
    exact ⟨by omega, by simp, rfl, .inl ⟨rfl, rfl⟩⟩

/-- A payment of nothing, as the VM books it. -/
theorem payEgld_zero (w : World) (c : Addr) : ∃ m, payEgld w c 0 = .ok { w with egld := m } ∧
    (∀ a, m.get 0 a = w.egld.get 0 a) ∧ ∀ p, m.total p = w.egld.total p := by
  refine ⟨credit (w.egld.set c (w.egld.get 0 c - 0)) w.self 0, ?_, ?_, ?_⟩
  · simp [payEgld, debit, bind, Except.bind]
  · intro a; rw [get_credit, Map.get_set]; by_cases h : c = a <;> simp [h]
  · intro p; rw [total_credit]
    have := total_set w.egld p c (w.egld.get 0 c - 0)
    by_cases h : p c = true <;> simp [h] at this ⊢ <;> omega

/-- `unDelegate`, completely, up to the helper worlds of the two payouts. -/
theorem unDelegate_ok {w w' : World} {caller : Addr} {v : Nat} {ps : List Payment}
    (h : unDelegate w caller v ps = .ok w') :
    caller ≠ w.self ∧ v = 0 ∧ w.st.state = .active ∧ ∃ amount t m0 m1 m2 e i u w1 w2,
      ps = [⟨t, 0, amount⟩] ∧ w.st.lsToken = some t ∧ 0 < amount ∧
      (∀ a, m0.get 0 a = w.egld.get 0 a) ∧ (∀ p, m0.total p = w.egld.total p) ∧
      debit w.ls caller amount = .ok m1 ∧ debit (credit m1 w.self amount) w.self amount = .ok m2 ∧
      EgldQuote w.st.r amount e ∧ getActionAmount w.st.r.pending e = .ok (i, u) ∧
      i ≤ w.st.r.pending ∧ (0 < i → MIN_EGLD ≤ w.st.r.pending - i ∨ w.st.r.pending - i = 0) ∧
      ((i = 0 ∧ w1 = { w with egld := m0, ls := m2 }) ∨
        (0 < i ∧ ∃ m, debit m0 w.self i = .ok m ∧ w1 = { w with egld := credit m caller i, ls := m2 })) ∧
      ((u = 0 ∧ w2 = w1) ∨
       (0 < u ∧ MIN_EGLD ≤ w.st.r.toUnstake + u ∧ w.st.unstakeToken ≠ none ∧ ∃ w3 n m,
         MintedUnstake w1 ⟨w.epoch, w.epoch + w.st.unbondPeriod⟩ u (w.epoch + w.st.unbondPeriod) w.epoch w3 n ∧
         debit w3.nft (n, w3.self) u = .ok m ∧ w2 = { w3 with nft := credit m (n, caller) u })) ∧
      w' = commit
        (emit w2 ⟨w.st.state, t, { w.st.r with
            lsSupply := w.st.r.lsSupply - amount, reserve := w.st.r.reserve - e,
            pending := w.st.r.pending - i, toUnstake := w.st.r.toUnstake + u }⟩ (.removeLiquidity e) caller)
        ⟨w.st.state, t, { w.st.r with
            lsSupply := w.st.r.lsSupply - amount, reserve := w.st.r.reserve - e,
            pending := w.st.r.pending - i, toUnstake := w.st.r.toUnstake + u }⟩ := by
  unfold unDelegate payAny at h
  simp only [bind_ok, requireUser_ok, req_ok, exists_const] at h
  obtain ⟨h1, w0, ⟨hv, wa, hwa, hwb⟩, c, hc, h⟩ := h
  cases ps with
  | nil => simp at h
  | cons p ps =>
    cases ps with
    | cons _ _ => simp at h
    | nil =>
      have hv0 : v = 0 := by simpa using hv
      subst hv0
      obtain ⟨m0, hm0, hm0a, hm0b⟩ := payEgld_zero w caller
      rw [hm0] at hwa
      simp only [Except.ok.injEq] at hwa
      subst hwa
      simp only [bind_ok, requireActive_ok, req_ok, exists_const, Prod.exists, poolRemove_ok, burnLs_ok] at h
      obtain ⟨hact, htok, hamt, e, c1, ⟨hq, rfl⟩, wb, ⟨m2, hm2, rfl⟩, i, u, hiu, w2, c2, hpu, h⟩ := h
      simp only [payEsdts, bind_ok, Except.ok.injEq] at hwb
      obtain ⟨wc, hwc, rfl⟩ := hwb
      rw [cacheNew_ok] at hc
      obtain ⟨t, ht, rfl⟩ := hc
      simp only at htok
      obtain ⟨ptok, pn, pa⟩ := p
      simp only at htok hamt hm2 hq
      subst htok
      -- the payment is in LS tokens
      have hwcst : wc.st = w.st := by
        unfold payEsdt1 at hwc
        simp only at hwc
        split at hwc
        · split at hwc
          · simp only [bind_ok, Except.ok.injEq] at hwc; obtain ⟨_, _, rfl⟩ := hwc; rfl
          · simp at hwc
        · split at hwc
          · simp only [bind_ok, Except.ok.injEq] at hwc; obtain ⟨_, _, rfl⟩ := hwc; rfl
          · simp only [Except.ok.injEq] at hwc; rw [← hwc]
      rw [hwcst] at ht hact hq hiu
      unfold payEsdt1 at hwc
      simp only [ht, if_true] at hwc
      split at hwc
      case isFalse => simp at hwc
      next hn =>
      subst hn
      simp only [bind_ok, Except.ok.injEq] at hwc
      obtain ⟨m1, hm1, rfl⟩ := hwc
      simp only at hm2 hpu h
      unfold processUnDelegation at hpu
      simp only [bind_ok, Prod.exists, Except.ok.injEq, Prod.mk.injEq] at hpu
      obtain ⟨w1, c1', hinst, w2', c2', hund, rfl, rfl⟩ := hpu
      obtain ⟨hi1, hi2, rfl, hi4⟩ := instantRedemption_ok hinst
      obtain ⟨rfl, hu⟩ := undelegateAmount_ok hund
      simp only at hi1 hi2 hi4 hu
      have hsum := getActionAmount_sum hiu
      have hui : u + i = e := by omega
      rw [hui] at h
      refine ⟨h1, rfl, hact, pa, _, m0, m1, m2, e, i, u, w1, w2', rfl, ht, hamt, hm0a, hm0b, hm1, hm2, hq, hiu, hi1,
        hi2, ?_, ?_, ?_⟩
      · exact hi4
      · have hw1 : w1.epoch = w.epoch ∧ w1.st = w.st := by
          rcases hi4 with ⟨_, rfl⟩ | ⟨_, m, _, rfl⟩ <;> exact ⟨rfl, rfl⟩
        rw [hw1.1, hw1.2] at hu
        exact hu
      · simp only [Except.ok.injEq] at h
        rw [← h]

end LS
