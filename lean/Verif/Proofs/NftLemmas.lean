import Verif.Proofs.Registry
import Verif.Proofs.WithdrawLemmas

/-! The unstake token: which transactions touch it, and the invariant of its bookkeeping. -/

namespace LS

/-- Nothing about the unstake token changed. -/
structure SameNft (w w' : World) : Prop where
  self : w'.self = w.self
  nft : w'.nft = w.nft
  attrs : w'.attrs = w.attrs
  last : w'.lastNonce = w.lastNonce
  map : w'.st.unstakeNonce = w.st.unstakeNonce
  burnt : w'.burntUnstake = w.burntUnstake

theorem SameNft.refl (w : World) : SameNft w w := ⟨rfl, rfl, rfl, rfl, rfl, rfl⟩

theorem sameNft_deliver {w w' : World} {i : Nat} {o : Outcome} (hs : deliver w i o = .ok w') :
    SameNft w w' ∧ w'.epoch = w.epoch := by
  obtain ⟨f, hf, hcb⟩ := deliver_ok hs
  rcases hcb with hcb | ⟨_, rfl⟩
  swap
  · exact ⟨⟨rfl, rfl, rfl, rfl, rfl, rfl⟩, rfl⟩
  cases f with
  | delegate p a =>
    cases o with
    | ok g r => obtain ⟨_, d, _, _, rfl⟩ := addLiquidityCb_true_ok.1 hcb; exact ⟨⟨rfl, rfl, rfl, rfl, rfl, rfl⟩, rfl⟩
    | err => obtain ⟨t, d, _, _, _, rfl⟩ := addLiquidityCb_false_ok.1 hcb; exact ⟨⟨rfl, rfl, rfl, rfl, rfl, rfl⟩, rfl⟩
  | undelegate p a =>
    cases o with
    | ok g r => obtain ⟨t, d, _, _, _, _, rfl⟩ := removeLiquidityCb_true_ok.1 hcb; exact ⟨⟨rfl, rfl, rfl, rfl, rfl, rfl⟩, rfl⟩
    | err => obtain ⟨t, d, _, _, _, rfl⟩ := removeLiquidityCb_false_ok.1 hcb; exact ⟨⟨rfl, rfl, rfl, rfl, rfl, rfl⟩, rfl⟩
  | withdraw p =>
    have h' : ∃ v, withdrawTokensCb (arrive w i (.withdraw p) o) p v = .ok w' := by
      cases o with
      | ok g r => exact ⟨g, hcb⟩
      | err => exact ⟨0, hcb⟩
    obtain ⟨v, h'⟩ := h'
    rcases withdrawTokensCb_ok.1 h' with ⟨_, rfl⟩ | ⟨_, t, d, _, _, _, _, rfl⟩ <;> exact ⟨⟨rfl, rfl, rfl, rfl, rfl, rfl⟩, rfl⟩
  | claim ps =>
    cases o with
    | ok g r => rcases claimRewardsCb_ok.1 hcb with ⟨_, rfl⟩ | ⟨_, t, fee, _, _, _, rfl⟩ <;> exact ⟨⟨rfl, rfl, rfl, rfl, rfl, rfl⟩, rfl⟩
    | err =>
      simp only [runCallback, claimRewardsCb, Except.ok.injEq] at hcb
      subst hcb; exact ⟨⟨rfl, rfl, rfl, rfl, rfl, rfl⟩, rfl⟩
  | whitelist p a u =>
    cases o with
    | ok g r => obtain ⟨t, d, l, _, _, _, rfl⟩ := whitelistCb_true_ok.1 hcb; exact ⟨⟨rfl, rfl, rfl, rfl, rfl, rfl⟩, rfl⟩
    | err => obtain ⟨_, m, _, rfl⟩ := whitelistCb_false_ok.1 hcb; exact ⟨⟨rfl, rfl, rfl, rfl, rfl, rfl⟩, rfl⟩

/-- The transactions that may move unstake tokens. -/
def movesNft : Op → Bool
  | .unDelegate .. => true
  | .withdraw .. => true
  | .transferNft .. => true
  | .burnUnstake .. => true
  | .giveUnstake .. => true
  | _ => false

/-- Every other transaction leaves the unstake token alone; epochs move only forward. -/
theorem sameNft_step {w w' : World} {op : Op} (hs : step w op = .ok w') (hop : movesNft op = false) :
    SameNft w w' ∧ w.epoch ≤ w'.epoch := by
  have le_refl : w.epoch ≤ w.epoch := by simp
  cases op with
  | delegate c v =>
    obtain ⟨_, _, _, m, t, p, e, l, _, _, _, _, _, _, rfl⟩ := delegate_ok.1 hs
    exact ⟨⟨rfl, rfl, rfl, rfl, rfl, rfl⟩, le_refl⟩
  | unDelegate c v ps => simp [movesNft] at hop
  | withdraw c v ps => simp [movesNft] at hop
  | upgrade => simp only [step, Except.ok.injEq] at hs; subst hs; exact ⟨.refl _, le_refl⟩
  | delegatePending c a =>
    obtain ⟨_, _, _, t, amt, sels, left, E, D, _, _, _, _, _, _, _, _, _, _, rfl⟩ := delegatePending_ok hs
    exact ⟨⟨rfl, rfl, rfl, rfl, rfl, rfl⟩, le_refl⟩
  | unDelegatePending c a =>
    obtain ⟨_, _, _, t, amt, sels, left, E, D, _, _, _, _, _, _, _, _, _, rfl⟩ := unDelegatePending_ok hs
    exact ⟨⟨rfl, rfl, rfl, rfl, rfl, rfl⟩, le_refl⟩
  | withdrawPending c p =>
    obtain ⟨_, _, _, _, _, E, _, rfl⟩ := withdrawPending_ok hs
    exact ⟨⟨rfl, rfl, rfl, rfl, rfl, rfl⟩, le_refl⟩
  | claimRewards c =>
    obtain ⟨_, _, _, _, _, E, _, rfl⟩ := claimRewards_ok hs
    exact ⟨⟨rfl, rfl, rfl, rfl, rfl, rfl⟩, le_refl⟩
  | claimFees c a =>
    obtain ⟨_, _, _, _, _, m, _, rfl⟩ := claimFees_ok hs
    exact ⟨⟨rfl, rfl, rfl, rfl, rfl, rfl⟩, le_refl⟩
  | whitelist c v p ad ts cap n apy =>
    obtain ⟨_, _, _, _, _, _, _, _, E, _, _, _, rfl⟩ := whitelist_ok hs
    exact ⟨⟨rfl, rfl, rfl, rfl, rfl, rfl⟩, le_refl⟩
  | changeAdmin c p a =>
    obtain ⟨_, _, d, hd, rfl⟩ := changeAdmin_ok.1 hs
    exact ⟨⟨rfl, rfl, rfl, rfl, rfl, rfl⟩, le_refl⟩
  | changeParams c p ts cap n apy e =>
    obtain ⟨_, _, d, hd, _, rfl⟩ := changeParams_ok.1 hs
    exact ⟨⟨rfl, rfl, rfl, rfl, rfl, rfl⟩, le_refl⟩
  | migrate c v o =>
    obtain ⟨_, _, _, _, t, l, _, _, rfl⟩ := migrate_ok.1 hs
    exact ⟨⟨rfl, rfl, rfl, rfl, rfl, rfl⟩, le_refl⟩
  | migratePending c v =>
    obtain ⟨_, _, _, _, t, m, _, _, rfl⟩ := migratePending_ok.1 hs
    exact ⟨⟨rfl, rfl, rfl, rfl, rfl, rfl⟩, le_refl⟩
  | addRewards c v =>
    obtain ⟨_, t, m, _, _, rfl⟩ := addRewards_ok.1 hs
    exact ⟨⟨rfl, rfl, rfl, rfl, rfl, rfl⟩, le_refl⟩
  | setMigrationSc c a =>
    obtain ⟨_, _, _, rfl⟩ := setMigrationSc_ok.1 hs
    exact ⟨⟨rfl, rfl, rfl, rfl, rfl, rfl⟩, le_refl⟩
  | registerLsToken c v =>
    obtain ⟨_, _, _, _, m, _, rfl⟩ := registerLsToken_ok.1 hs
    exact ⟨⟨rfl, rfl, rfl, rfl, rfl, rfl⟩, le_refl⟩
  | registerUnstakeToken c v =>
    obtain ⟨_, _, _, _, m, _, rfl⟩ := registerUnstakeToken_ok.1 hs
    exact ⟨⟨rfl, rfl, rfl, rfl, rfl, rfl⟩, le_refl⟩
  | issued i o =>
    obtain ⟨⟨k, u, v⟩, E, _, _, _, rfl⟩ := issued_ok.1 hs
    cases k <;> exact ⟨⟨rfl, rfl, rfl, rfl, rfl, rfl⟩, le_refl⟩
  | owner c cmd =>
    obtain ⟨_, _, st, h1, rfl⟩ := ownerCmd_ok.1 hs
    obtain ⟨s, fr, acc, mr, ma, ms, ub, mg, rfl⟩ := applyOwnerCmd_ok h1
    exact ⟨⟨rfl, rfl, rfl, rfl, rfl, rfl⟩, le_refl⟩
  | setScoringConfig c cfg =>
    obtain ⟨_, _, _, rfl⟩ := setScoringConfig_ok.1 hs
    exact ⟨⟨rfl, rfl, rfl, rfl, rfl, rfl⟩, le_refl⟩
  | viewLsValue l =>
    simp only [step, bind_ok, Prod.exists, Except.ok.injEq] at hs
    obtain ⟨e, w1, h1, rfl⟩ := hs
    obtain ⟨_, _, rfl⟩ := viewLsValue_ok.1 h1
    exact ⟨.refl _, le_refl⟩
  | viewEgldPosition l =>
    simp only [step, bind_ok, Prod.exists, Except.ok.injEq] at hs
    obtain ⟨e, w1, h1, rfl⟩ := hs
    obtain ⟨_, _, rfl⟩ := viewEgldPosition_ok.1 h1
    exact ⟨.refl _, le_refl⟩
  | deliver i o =>
    obtain ⟨h1, h2⟩ := sameNft_deliver hs
    exact ⟨h1, by rw [h2]; exact le_refl⟩
  | transferLs s d v =>
    obtain ⟨_, _, m, _, rfl⟩ := transferLs_ok.1 hs
    exact ⟨⟨rfl, rfl, rfl, rfl, rfl, rfl⟩, le_refl⟩
  | transferNft s d n v => simp [movesNft] at hop
  | fund a v => obtain ⟨_, rfl⟩ := fund_ok.1 hs; exact ⟨⟨rfl, rfl, rfl, rfl, rfl, rfl⟩, le_refl⟩
  | advance e => obtain ⟨h1, rfl⟩ := advance_ok.1 hs; exact ⟨⟨rfl, rfl, rfl, rfl, rfl, rfl⟩, h1⟩
  | changeOwner c d => obtain ⟨_, _, rfl⟩ := changeOwner_ok.1 hs; exact ⟨⟨rfl, rfl, rfl, rfl, rfl, rfl⟩, Nat.le_refl _⟩
  | transferEgld s d v => obtain ⟨_, _, m, hm, rfl⟩ := transferEgld_ok.1 hs; exact ⟨⟨rfl, rfl, rfl, rfl, rfl, rfl⟩, Nat.le_refl _⟩
  | giveEgld s v => obtain ⟨_, _, m, hm, rfl⟩ := giveEgld_ok.1 hs; exact ⟨⟨rfl, rfl, rfl, rfl, rfl, rfl⟩, Nat.le_refl _⟩
  | giveLs s v => obtain ⟨_, _, m, hm, rfl⟩ := giveLs_ok.1 hs; exact ⟨⟨rfl, rfl, rfl, rfl, rfl, rfl⟩, Nat.le_refl _⟩
  | giveUnstake s n v => simp [movesNft] at hop
  | burnLs a v => obtain ⟨_, m, hm, rfl⟩ := holderBurnLs_ok.1 hs; exact ⟨⟨rfl, rfl, rfl, rfl, rfl, rfl⟩, Nat.le_refl _⟩
  | burnUnstake a n v => simp [movesNft] at hop
  | starve i o => obtain ⟨f, hf, rfl⟩ := starve_ok hs; exact ⟨⟨rfl, rfl, rfl, rfl, rfl, rfl⟩, Nat.le_refl _⟩

/-- Redeeming is not burning. -/
theorem unDelegate_burnt {w w' : World} {c : Addr} {v : Nat} {ps : List Payment} (hs : unDelegate w c v ps = .ok w') :
    w'.burntUnstake = w.burntUnstake := by
  obtain ⟨_, _, _, amount, t, m0, m1, m2, e, i, u, w1, w2, _, _, _, _, _, _, _, _, _, _, _, h1, h2, rfl⟩ := unDelegate_ok hs
  have e1 : w1.burntUnstake = w.burntUnstake := by
    rcases h1 with ⟨_, rfl⟩ | ⟨_, m, _, rfl⟩ <;> rfl
  rw [← e1]
  rcases h2 with ⟨_, rfl⟩ | ⟨_, _, _, w3, n, m, hu, _, rfl⟩
  · rfl
  · cases hu <;> rfl

/-- Nonce `n` is the one registered for its own maturity. -/
def Live (attrs : Map Nat (Option Attrs)) (map : Map UInt64 Nat) (n : Nat) : Prop :=
  n ≠ 0 ∧ ∃ a, attrs.get none n = some a ∧ map.get 0 a.unbondEpoch = n

/-- The bookkeeping of the unstake token. -/
structure NftOk (me : Addr) (epoch : UInt64) (nft : Map (Nat × Addr) Nat) (attrs : Map Nat (Option Attrs)) (last : Nat)
    (map : Map UInt64 Nat) : Prop where
  attr : ∀ n, 1 ≤ n → n ≤ last → ∃ a, attrs.get none n = some a
  bal0 : ∀ n x, (n = 0 ∨ last < n) → nft.get 0 (n, x) = 0
  attr0 : ∀ n, (n = 0 ∨ last < n) → attrs.get none n = none
  reg : ∀ u, map.get 0 u ≠ 0 → ∃ a, attrs.get none (map.get 0 u) = some a ∧ a.unbondEpoch = u
  live : ∀ n, Live attrs map n → nft.get 0 (n, me) ≠ 0
  lastLive : last ≠ 0 → Live attrs map last
  past : ∀ n a, attrs.get none n = some a → a.unstakeEpoch ≤ epoch

def NftInv (w : World) : Prop := NftOk w.self w.epoch w.nft w.attrs w.lastNonce w.st.unstakeNonce

/-- Only balances of users changed, and none that was zero everywhere. -/
theorem NftOk.users {self e nft nft' attrs last map} (h : NftOk self e nft attrs last map)
    (h1 : ∀ n, nft'.get 0 (n, self) = nft.get 0 (n, self)) (h2 : ∀ n x, (n = 0 ∨ last < n) → nft'.get 0 (n, x) = 0) :
    NftOk self e nft' attrs last map :=
  ⟨h.attr, h2, h.attr0, h.reg, fun n hn => by rw [h1]; exact h.live n hn, h.lastLive, h.past⟩

theorem NftOk.later {self e e' nft attrs last map} (h : NftOk self e nft attrs last map) (he : e ≤ e') :
    NftOk self e' nft attrs last map :=
  ⟨h.attr, h.bal0, h.attr0, h.reg, h.live, h.lastLive, fun n a ha => by
    have := h.past n a ha; exact UInt64.le_trans this he⟩

/-- Minting keeps the bookkeeping; `m` is the ledger after sending the minted tokens to a user. -/
theorem NftOk.mint {w w3 : World} {a : Attrs} {v n : Nat} {cur : UInt64} {m : Map (Nat × Addr) Nat} {c : Addr}
    (h : NftInv w) (hc : c ≠ w.self) (ha : a.unstakeEpoch = w.epoch)
    (hM : MintedUnstake w a v a.unbondEpoch cur w3 n) (hm : debit w3.nft (n, w3.self) v = .ok m) :
    NftOk w.self w.epoch (credit m (n, c) v) w3.attrs w3.lastNonce w3.st.unstakeNonce ∧ 1 ≤ n ∧
      (∃ a', w3.attrs.get none n = some a' ∧ a'.unbondEpoch = a.unbondEpoch) ∧
      ∀ k a', w.attrs.get none k = some a' → w3.attrs.get none k = some a' := by
  have h0 : NftOk w.self w.epoch w.nft w.attrs w.lastNonce w.st.unstakeNonce := h
  cases hM with
  | topUp n hn hn0 hb =>
    dsimp only at hm ⊢
    have hle : n ≤ w.lastNonce ∧ ∃ a', w.attrs.get none n = some a' ∧ a'.unbondEpoch = a.unbondEpoch := by
      have := h0.reg a.unbondEpoch (by rw [hn]; exact hn0)
      rw [hn] at this
      obtain ⟨a', h1, h2⟩ := this
      refine ⟨?_, a', h1, h2⟩
      by_contra hgt
      rw [h0.attr0 n (.inr (by omega))] at h1; cases h1
    refine ⟨?_, by omega, hle.2, fun _ _ hk => hk⟩
    refine h0.users ?_ ?_
    · intro k
      rw [get_credit, if_neg (by simp [hc]), get_debit hm]
      split
      · next he => simp only [Prod.mk.injEq, and_true] at he; subst he; rw [get_credit, if_pos rfl]; omega
      · next he => rw [get_credit, if_neg he]
    · intro k x hk
      have hz := h0.bal0 k x hk
      have hkn : n ≠ k := by omega
      rw [get_credit, if_neg (by simp [hkn]), get_debit hm, if_neg (by simp [hkn]), get_credit, if_neg (by simp [hkn]), hz]
  | fresh hz hcl =>
    dsimp only at hm ⊢
    refine ⟨?_, by omega, ⟨a, by rw [Map.get_set_same], rfl⟩, ?_⟩
    swap
    · intro k a' hk
      rw [Map.get_set_other _ _ _ (by rintro rfl; rw [h0.attr0 _ (.inr (by omega))] at hk; cases hk)]; exact hk
    have hLive : ∀ k, Live (w.attrs.set (w.lastNonce + 1) (some a)) (w.st.unstakeNonce.set a.unbondEpoch (w.lastNonce + 1)) k ↔
        (k = w.lastNonce + 1 ∨ Live w.attrs w.st.unstakeNonce k) := by
      intro k
      by_cases hk : w.lastNonce + 1 = k
      · subst hk
        refine ⟨fun _ => .inl rfl, fun _ => ⟨by omega, a, by rw [Map.get_set_same], by rw [Map.get_set_same]⟩⟩
      · unfold Live
        rw [Map.get_set_other _ _ _ hk]
        constructor
        · rintro ⟨h1, a', h2, h3⟩
          right
          refine ⟨h1, a', h2, ?_⟩
          rw [Map.get_set] at h3
          split at h3
          · exact absurd h3 hk
          · exact h3
        · rintro (h1 | ⟨h1, a', h2, h3⟩)
          · exact absurd h1.symm hk
          · refine ⟨h1, a', h2, ?_⟩
            rw [Map.get_set_other _ _ _ ?_]
            · exact h3
            · intro he; rw [← he] at h3; omega
    have hbal : ∀ k x, (credit m (w.lastNonce + 1, c) v).get 0 (k, x) =
        (if k = w.lastNonce + 1 ∧ x = c then v else 0) + (if k = w.lastNonce + 1 ∧ x = w.self then 1 else 0) +
        w.nft.get 0 (k, x) := by
      intro k x
      have hz1 := h0.bal0 (w.lastNonce + 1) x (.inr (by omega))
      rw [get_credit, get_debit hm, get_credit]
      simp only [Prod.mk.injEq]
      by_cases hk : w.lastNonce + 1 = k
      · subst hk
        by_cases h1 : c = x
        · subst h1; simp [hc, Ne.symm hc]; omega
        · by_cases h2 : w.self = x
          · subst h2; simp [h1, Ne.symm h1]; omega
          · simp [h1, h2, Ne.symm h1, Ne.symm h2]
      · simp [hk, Ne.symm hk]
    refine ⟨?_, ?_, ?_, ?_, ?_, ?_, ?_⟩
    · intro k hk1 hk2
      rw [Map.get_set]
      split
      · exact ⟨_, rfl⟩
      · exact h0.attr k hk1 (by omega)
    · intro k x hk
      rw [hbal, h0.bal0 k x (by omega), if_neg (by omega), if_neg (by omega)]
    · intro k hk
      rw [Map.get_set_other _ _ _ (by omega)]; exact h0.attr0 k (by omega)
    · intro u hu
      have hmap : (w.st.unstakeNonce.set a.unbondEpoch (w.lastNonce + 1)).get 0 u =
          if a.unbondEpoch = u then w.lastNonce + 1 else w.st.unstakeNonce.get 0 u := Map.get_set _ _ _ _ _
      rw [hmap] at hu ⊢
      split at hu
      · next he => subst he; rw [if_pos rfl]; exact ⟨a, by rw [Map.get_set_same], rfl⟩
      · next he =>
        rw [if_neg he]
        obtain ⟨a', h1, h2⟩ := h0.reg u hu
        refine ⟨a', ?_, h2⟩
        rw [Map.get_set_other _ _ _ ?_]
        · exact h1
        · intro hx; rw [← hx, h0.attr0 _ (.inr (by omega))] at h1; cases h1
    · intro k hk
      rw [hbal]
      rcases (hLive k).1 hk with rfl | hk'
      · rw [h0.bal0 _ _ (.inr (by omega))]; simp [Ne.symm hc]
      · have h1 := h0.live k hk'
        have : k ≠ w.lastNonce + 1 := by
          rintro rfl
          obtain ⟨_, a', h1, _⟩ := hk'
          rw [h0.attr0 _ (.inr (by omega))] at h1; cases h1
        simpa [this] using h1
    · intro _; exact (hLive _).2 (.inl rfl)
    · intro k a' hk
      rw [Map.get_set] at hk
      split at hk
      · simp only [Option.some.injEq] at hk; subst hk; rw [ha]; exact UInt64.le_refl _
      · exact h0.past k a' hk
  | freshClean a0 hz hl ha0 hlt hb =>
    dsimp only at hm ⊢
    refine ⟨?_, by omega, ⟨a, by rw [Map.get_set_same], rfl⟩, ?_⟩
    swap
    · intro k a' hk
      rw [Map.get_set_other _ _ _ (by rintro rfl; rw [h0.attr0 _ (.inr (by omega))] at hk; cases hk)]; exact hk
    -- the cleaned nonce was live, so its maturity is not the new one
    have hlast : w.st.unstakeNonce.get 0 a0.unbondEpoch = w.lastNonce := by
      obtain ⟨_, a1, h1, h2⟩ := h0.lastLive hl
      rw [ha0] at h1; cases h1; exact h2
    have hne : a0.unbondEpoch ≠ a.unbondEpoch := by intro he; rw [he, hz] at hlast; omega
    have hmap : ∀ u, ((w.st.unstakeNonce.set a.unbondEpoch (w.lastNonce + 1)).set a0.unbondEpoch 0).get 0 u =
        if u = a0.unbondEpoch then 0 else if u = a.unbondEpoch then w.lastNonce + 1 else w.st.unstakeNonce.get 0 u := by
      intro u
      rw [Map.get_set, Map.get_set]
      by_cases h1 : a0.unbondEpoch = u
      · simp [h1]
      · by_cases h2 : a.unbondEpoch = u
        · simp [h1, h2, Ne.symm h1]
        · simp [h1, h2, Ne.symm h1, Ne.symm h2]
    have hLive : ∀ k, Live (w.attrs.set (w.lastNonce + 1) (some a))
        ((w.st.unstakeNonce.set a.unbondEpoch (w.lastNonce + 1)).set a0.unbondEpoch 0) k ↔
        (k = w.lastNonce + 1 ∨ (k ≠ w.lastNonce ∧ Live w.attrs w.st.unstakeNonce k)) := by
      intro k
      unfold Live
      by_cases hk : w.lastNonce + 1 = k
      · subst hk
        refine ⟨fun _ => .inl rfl, fun _ => ⟨by omega, a, by rw [Map.get_set_same], ?_⟩⟩
        rw [hmap, if_neg (Ne.symm hne), if_pos rfl]
      · rw [Map.get_set_other _ _ _ hk]
        constructor
        · rintro ⟨h1, a', h2, h3⟩
          right
          rw [hmap] at h3
          split at h3
          · exact absurd h3.symm h1
          · next hu0 =>
            split at h3
            · exact absurd h3 hk
            · refine ⟨?_, h1, a', h2, h3⟩
              rintro rfl
              rw [ha0] at h2; cases h2; exact hu0 rfl
        · rintro (h1 | ⟨hkl, h1, a', h2, h3⟩)
          · exact absurd h1.symm hk
          · refine ⟨h1, a', h2, ?_⟩
            rw [hmap, if_neg, if_neg]
            · exact h3
            · intro he; rw [he, hz] at h3; exact h1 h3.symm
            · intro he; rw [he, hlast] at h3; exact hkl h3.symm
    have hbal : ∀ k x, (credit m (w.lastNonce + 1, c) v).get 0 (k, x) =
        if k = w.lastNonce ∧ x = w.self then 0 else
        (if k = w.lastNonce + 1 ∧ x = c then v else 0) + (if k = w.lastNonce + 1 ∧ x = w.self then 1 else 0) +
        w.nft.get 0 (k, x) := by
      intro k x
      have hz1 := h0.bal0 (w.lastNonce + 1) x (.inr (by omega))
      rw [get_credit, get_debit hm, Map.get_set, get_credit]
      simp only [Prod.mk.injEq]
      by_cases hk : w.lastNonce + 1 = k
      · subst hk
        by_cases h1 : c = x
        · subst h1; simp [hc, Ne.symm hc]; omega
        · by_cases h2 : w.self = x
          · subst h2; simp [h1, Ne.symm h1]; omega
          · simp [h1, h2, Ne.symm h1, Ne.symm h2]
      · by_cases hk2 : w.lastNonce = k
        · subst hk2
          by_cases h2 : w.self = x
          · subst h2; simp
          · simp [h2, Ne.symm h2]
        · simp [hk, Ne.symm hk, hk2, Ne.symm hk2]
    refine ⟨?_, ?_, ?_, ?_, ?_, ?_, ?_⟩
    · intro k hk1 hk2
      rw [Map.get_set]
      split
      · exact ⟨_, rfl⟩
      · exact h0.attr k hk1 (by omega)
    · intro k x hk
      rw [hbal, h0.bal0 k x (by omega), if_neg (by omega), if_neg (by omega), if_neg (by omega)]
    · intro k hk
      rw [Map.get_set_other _ _ _ (by omega)]; exact h0.attr0 k (by omega)
    · intro u hu
      rw [hmap] at hu ⊢
      split at hu
      · exact absurd rfl hu
      · next hu0 =>
        rw [if_neg hu0]
        split at hu
        · next he => subst he; rw [if_pos rfl]; exact ⟨a, by rw [Map.get_set_same], rfl⟩
        · next he =>
          rw [if_neg he]
          obtain ⟨a', h1, h2⟩ := h0.reg u hu
          refine ⟨a', ?_, h2⟩
          rw [Map.get_set_other _ _ _ ?_]
          · exact h1
          · intro hx; rw [← hx, h0.attr0 _ (.inr (by omega))] at h1; cases h1
    · intro k hk
      rw [hbal]
      rcases (hLive k).1 hk with rfl | ⟨hkl, hk'⟩
      · rw [h0.bal0 _ _ (.inr (by omega))]; simp [Ne.symm hc]
      · have h1 := h0.live k hk'
        have : k ≠ w.lastNonce + 1 := by
          rintro rfl
          obtain ⟨_, a', h1, _⟩ := hk'
          rw [h0.attr0 _ (.inr (by omega))] at h1; cases h1
        simpa [this, hkl] using h1
    · intro _; exact (hLive _).2 (.inl rfl)
    · intro k a' hk
      rw [Map.get_set] at hk
      split at hk
      · simp only [Option.some.injEq] at hk; subst hk; rw [ha]; exact UInt64.le_refl _
      · exact h0.past k a' hk

/-- What `unDelegate` does to the unstake token. -/
theorem unDelegate_nft {w w' : World} {c : Addr} {v : Nat} {ps : List Payment} (h : NftInv w)
    (hs : unDelegate w c v ps = .ok w') :
    NftInv w' ∧ w'.self = w.self ∧ w'.epoch = w.epoch ∧
      (∀ k a', w.attrs.get none k = some a' → w'.attrs.get none k = some a') ∧
      ∀ k, w.nft.get 0 (k, c) < w'.nft.get 0 (k, c) →
        ∃ a', w'.attrs.get none k = some a' ∧ a'.unbondEpoch = w.epoch + w.st.unbondPeriod := by
  obtain ⟨hc, hv, _, l, t, m0, m1, m2, e, i, u, w1, w2, hps, ht, hl, hm0, _, hm1, hm2, hq, hiu, hi, _, hw1, hw2, rfl⟩ :=
    unDelegate_ok hs
  have h1 : NftInv w1 ∧ w1.self = w.self ∧ w1.epoch = w.epoch ∧ w1.attrs = w.attrs ∧ w1.nft = w.nft := by
    rcases hw1 with ⟨rfl, rfl⟩ | ⟨_, m, hm, rfl⟩ <;> exact ⟨h, rfl, rfl, rfl, rfl⟩
  obtain ⟨g1, g2, g3, g4, g5⟩ := h1
  rcases hw2 with ⟨rfl, rfl⟩ | ⟨_, _, _, w3, n, m, hM, hm, rfl⟩
  · exact ⟨g1, g2, g3, fun k a' hk => by rw [← g4] at hk; exact hk, fun k hk => by
      have hx : w2.nft.get 0 (k, c) = w.nft.get 0 (k, c) := by rw [g5]
      have hk' : w.nft.get 0 (k, c) < w2.nft.get 0 (k, c) := hk
      omega⟩
  · have hs3 : w3.self = w1.self ∧ w3.epoch = w1.epoch := by cases hM <;> exact ⟨rfl, rfl⟩
    have hc1 : c ≠ w1.self := by rw [g2]; exact hc
    obtain ⟨a1, a2, a3, a4⟩ := NftOk.mint (a := ⟨w.epoch, w.epoch + w.st.unbondPeriod⟩) g1 hc1 g3.symm hM hm
    have hother : ∀ k x, x ≠ w1.self → w3.nft.get 0 (k, x) = w1.nft.get 0 (k, x) := by
      intro k x hx
      cases hM with
      | topUp n hn h0 hb => dsimp only; rw [get_credit, if_neg (by simp [Ne.symm hx])]
      | fresh h0 hcl => dsimp only; rw [get_credit, if_neg (by simp [Ne.symm hx])]
      | freshClean a' h0 hl ha hlt hb =>
        dsimp only
        rw [Map.get_set, if_neg (by simp [Ne.symm hx]), get_credit, if_neg (by simp [Ne.symm hx])]
    refine ⟨?_, by rw [← g2]; exact hs3.1, by rw [← g3]; exact hs3.2, fun k a' hk => a4 k a' (by rw [g4]; exact hk), ?_⟩
    · show NftOk w3.self w3.epoch _ _ _ _
      rw [hs3.1, hs3.2]; exact a1
    · intro k hk
      have hk' : w.nft.get 0 (k, c) < (credit m (n, c) u).get 0 (k, c) := hk
      by_cases hkn : n = k
      · subst hkn; exact a3
      · rw [get_credit, if_neg (by simp [hkn]), get_debit hm, if_neg (by simp [hkn]), hother _ _ hc1, g5] at hk'
        omega

/-- What `withdraw` does to the unstake token. -/
theorem withdraw_nft {w w' : World} {c : Addr} {v : Nat} {ps : List Payment} (h : NftInv w) (hr : RegInv w)
    (hs : withdraw w c v ps = .ok w') : NftInv w' ∧ w'.self = w.self ∧ w'.epoch = w.epoch ∧ w'.attrs = w.attrs := by
  have hr0 : RegOk w.st.lsToken w.st.unstakeToken w.st.delegList w.st.undelegList w.st.data w.flights w.dead := hr
  have h0 : NftOk w.self w.epoch w.nft w.attrs w.lastNonce w.st.unstakeNonce := h
  obtain ⟨hc, _, _, uid, t, m0, m, E, N, _, _, _, _, _, _, _, n1, n2, n3, _, rfl⟩ := withdraw_ok hr0.tok hs
  refine ⟨?_, rfl, rfl, rfl⟩
  refine NftOk.users h0 n2 ?_
  intro n x hn
  show N.get 0 (n, x) = 0
  have hz := h0.bal0 n x hn
  by_cases hx : x = c
  · subst hx; have := n1 n; omega
  · by_cases hx2 : x = w.self
    · subst hx2; rw [n2, hz]
    · rw [n3 n x hx hx2, hz]

theorem transferNft_nft {w w' : World} {s d : Addr} {n v : Nat} (h : NftInv w) (hs : transferNft w s d n v = .ok w') :
    NftInv w' ∧ w'.self = w.self ∧ w'.epoch = w.epoch ∧ w'.attrs = w.attrs := by
  have h0 : NftOk w.self w.epoch w.nft w.attrs w.lastNonce w.st.unstakeNonce := h
  obtain ⟨h1, h2, m, hm, rfl⟩ := transferNft_ok.1 hs
  refine ⟨?_, rfl, rfl, rfl⟩
  refine NftOk.users h0 ?_ ?_
  · intro k; rw [get_credit, if_neg (by simp [h2]), get_debit hm, if_neg (by simp [h1])]
  · intro k x hk
    have hz := h0.bal0 k x hk
    have hle := debit_le hm
    rw [get_credit, get_debit hm]
    by_cases hkn : n = k
    · subst hkn
      rw [h0.bal0 n s hk] at hle
      have : v = 0 := by omega
      subst this; simp [hz]
    · rw [if_neg (by simp [hkn]), if_neg (by simp [hkn])]; exact hz

theorem giveUnstake_nft {w w' : World} {s : Addr} {n v : Nat} (h : NftInv w) (hs : giveUnstake w s n v = .ok w') :
    NftInv w' ∧ w'.self = w.self ∧ w'.epoch = w.epoch ∧ w'.attrs = w.attrs := by
  have h0 : NftOk w.self w.epoch w.nft w.attrs w.lastNonce w.st.unstakeNonce := h
  obtain ⟨h1, _, m, hm, rfl⟩ := giveUnstake_ok.1 hs
  refine ⟨⟨h0.attr, fun k x hk => ?_, h0.attr0, h0.reg, fun k hk => ?_, h0.lastLive, h0.past⟩, rfl, rfl, rfl⟩
  · have hz := h0.bal0 k x hk
    have hle := debit_le hm
    show (credit m (n, w.self) v).get 0 (k, x) = 0
    rw [get_credit, get_debit hm]
    by_cases hkn : n = k
    · subst hkn
      rw [h0.bal0 n s hk] at hle
      have : v = 0 := by omega
      subst this; simp [hz]
    · rw [if_neg (by simp [hkn]), if_neg (by simp [hkn])]; exact hz
  · have h2 := h0.live k hk
    show (credit m (n, w.self) v).get 0 (k, w.self) ≠ 0
    have h3 : m.get 0 (k, w.self) = w.nft.get 0 (k, w.self) := by rw [get_debit hm, if_neg (by simp [h1])]
    rw [get_credit]
    split
    · rw [h3]; omega
    · rw [h3]; exact h2

theorem burnNft_nft {w w' : World} {a : Addr} {n v : Nat} (h : NftInv w) (hs : holderBurnNft w a n v = .ok w') :
    NftInv w' ∧ w'.self = w.self ∧ w'.epoch = w.epoch ∧ w'.attrs = w.attrs := by
  have h0 : NftOk w.self w.epoch w.nft w.attrs w.lastNonce w.st.unstakeNonce := h
  obtain ⟨h1, m, hm, rfl⟩ := holderBurnNft_ok.1 hs
  refine ⟨?_, rfl, rfl, rfl⟩
  refine NftOk.users h0 ?_ ?_
  · intro k; rw [get_debit hm, if_neg (by simp [h1])]
  · intro k x hk
    have hz := h0.bal0 k x hk
    rw [get_debit hm, hz]
    split <;> simp_all

theorem nftInv_step {w w' : World} (op : Op) (h : NftInv w) (hr : RegInv w) (hs : step w op = .ok w') :
    NftInv w' ∧ w'.self = w.self ∧ w.epoch ≤ w'.epoch ∧
      ∀ k a', w.attrs.get none k = some a' → w'.attrs.get none k = some a' := by
  by_cases hop : movesNft op = false
  · obtain ⟨⟨h1, h2, h3, h4, h5, _⟩, h6⟩ := sameNft_step hs hop
    refine ⟨?_, h1, h6, fun k a' hk => by rw [h3]; exact hk⟩
    unfold NftInv; rw [h1, h2, h3, h4, h5]
    exact NftOk.later h h6
  · cases op with
    | unDelegate c v ps =>
      obtain ⟨a1, a2, a3, a4, _⟩ := unDelegate_nft h hs
      exact ⟨a1, a2, by rw [a3]; exact UInt64.le_refl _, a4⟩
    | withdraw c v ps =>
      obtain ⟨a1, a2, a3, a4⟩ := withdraw_nft h hr hs
      exact ⟨a1, a2, by rw [a3]; exact UInt64.le_refl _, fun k a' hk => by rw [a4]; exact hk⟩
    | transferNft s d n v =>
      obtain ⟨a1, a2, a3, a4⟩ := transferNft_nft h hs
      exact ⟨a1, a2, by rw [a3]; exact UInt64.le_refl _, fun k a' hk => by rw [a4]; exact hk⟩
    | giveUnstake s n v =>
      obtain ⟨a1, a2, a3, a4⟩ := giveUnstake_nft h hs
      exact ⟨a1, a2, by rw [a3]; exact UInt64.le_refl _, fun k a' hk => by rw [a4]; exact hk⟩
    | burnUnstake a n v =>
      obtain ⟨a1, a2, a3, a4⟩ := burnNft_nft h hs
      exact ⟨a1, a2, by rw [a3]; exact UInt64.le_refl _, fun k a' hk => by rw [a4]; exact hk⟩
    | _ => simp [movesNft] at hop

theorem nftInv_init {w : World} (h : IsInit w) : NftInv w := by
  obtain ⟨self, owner, contracts, epoch, funds, acc, fees, rpe, mr, ms, ma, ub, _, _, rfl⟩ := isInit_eq h
  show NftOk self epoch [] [] 0 []
  refine ⟨?_, ?_, ?_, ?_, ?_, ?_, ?_⟩ <;> simp [Map.get, Live]
  omega

theorem reachable_nftInv {w : World} (h : Reachable w) : NftInv w := by
  induction h with
  | init h => exact nftInv_init h
  | step op hr hs ih => exact (nftInv_step op ih (reachable_regInv hr) hs).1

end LS
