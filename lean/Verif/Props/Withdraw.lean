import Verif.Props.Pool
import Verif.Props.Accounting

/-! Unstake tokens and withdrawal: C10, C11, C12, C13, C42. -/

namespace LS
open Spec Demo

theorem totalPaid_eq : ∀ ps, totalPaid ps = amtSum ps
  | [] => rfl
  | p :: ps => by simp only [totalPaid, amtSum, List.map_cons, List.sum_cons, totalPaid_eq ps]

theorem isSum_burnedAt : ∀ (ps : List Payment) (tw : Nat), IsSum (fun n => burnedAt n tw ps) (min (amtSum ps) tw)
  | [], tw => by
    have : min (amtSum []) tw = 0 := by simp [amtSum]
    rw [this]; exact isSum_zero
  | p :: ps, tw => by
    have ih := isSum_burnedAt ps (tw - min p.amount tw)
    have h1 := (isSum_single p.nonce (min p.amount tw)).add ih
    have : min (amtSum (p :: ps)) tw = min p.amount tw + min (amtSum ps) (tw - min p.amount tw) := by
      simp only [amtSum, List.map_cons, List.sum_cons]; omega
    rw [this]; exact h1

/-- **C10.** Every unstake token paid into a successful `withdraw` has matured. -/
theorem C10_only_matured {w w' : World} {c : Addr} {v : Nat} {ps : List Payment} (hr : Reachable w)
    (h : step w (.withdraw c v ps) = .ok w') :
    ∀ p ∈ ps, w.st.unstakeToken = some p.token ∧ ∃ e, maturityOf w p.nonce = some e ∧ e ≤ w.epoch := by
  obtain ⟨_, _, _, uid, t, m0, m, E, N, hu, _, hp, _⟩ := withdraw_ok (reachable_regInv hr).tok h
  intro p hmem
  obtain ⟨h1, _, a, h2, h3⟩ := hp p hmem
  exact ⟨by rw [hu, h1], a.unbondEpoch, by unfold maturityOf; rw [h2]; rfl, h3⟩

/-- **C10**, as a refusal: one immature token makes the whole call fail. -/
theorem C10_immature_fails {w : World} {c : Addr} {v : Nat} {ps : List Payment} {p : Payment} {e : UInt64} (hr : Reachable w)
    (hp : p ∈ ps) (hm : maturityOf w p.nonce = some e) (he : w.epoch < e) : ¬ ∃ w', step w (.withdraw c v ps) = .ok w' := by
  rintro ⟨w', h⟩
  obtain ⟨_, e', h1, h2⟩ := C10_only_matured hr h p hp
  rw [hm] at h1
  cases h1
  exact absurd h2 (UInt64.not_le.2 he)

/-- A second position opened later is immature: mixing it in makes the call fail. -/
example : let w := run ready [.unDelegate 11 0 [⟨500, 0, E 10⟩]]
    Reachable w ∧ maturityOf w 2 = some 70 ∧ w.epoch < 70 ∧ works w (.withdraw 11 0 [⟨501, 1, E 5⟩]) = true ∧
    works w (.withdraw 11 0 [⟨501, 1, E 5⟩, ⟨501, 2, E 1⟩]) = false :=
  ⟨reachable_run ready_reachable _, by decide +kernel, by decide +kernel, by decide +kernel, by decide +kernel⟩

/-- **C11.** `withdraw` pays one EGLD per burned unstake token, as much as the withdrawable pool allows, returns the rest, and
touches nobody else and no other figure. -/
theorem C11_withdraw_one_to_one {w w' : World} {c : Addr} {v : Nat} {ps : List Payment} (hr : Reachable w)
    (h : step w (.withdraw c v ps) = .ok w') :
    ∃ burned : Nat → Nat, ∃ x, x = min (totalPaid ps) (withdrawable w) ∧
      IsSum burned x ∧ (∀ n, burned n ≤ paidWith n ps) ∧
      (∀ n, unstakeOf w' n c + burned n = unstakeOf w n c) ∧
      egldOf w' c + v = egldOf w c + x ∧
      egldOf w' w.self + x = egldOf w w.self + v ∧
      withdrawable w' + x = withdrawable w ∧
      w'.st = { w.st with r := { w.st.r with withdrawn := withdrawable w' } } ∧
      (∀ a, a ≠ c → a ≠ w.self → egldOf w' a = egldOf w a) ∧
      (∀ n a, a ≠ c → unstakeOf w' n a = unstakeOf w n a) ∧
      (∀ a, lsOf w' a = lsOf w a) := by
  obtain ⟨hc, _, _, uid, t, m0, m, E, N, _, _, _, _, hm0, hm, rfl, n1, n2, n3, _, rfl⟩ :=
    withdraw_ok (reachable_regInv hr).tok h
  have hle0 := debit_le hm0
  have hle := debit_le hm
  refine ⟨fun n => burnedAt n w.st.r.withdrawn ps, min (amtSum ps) w.st.r.withdrawn, by rw [totalPaid_eq]; rfl,
    isSum_burnedAt _ _, fun n => by rw [paidWith_eq]; exact burnedAt_le _ _ _, n1, ?_, ?_, ?_, rfl, ?_, ?_, fun _ => rfl⟩
  · show (credit m c _).get 0 c + v = w.egld.get 0 c + _
    rw [get_credit, if_pos rfl, get_debit hm, if_neg (Ne.symm hc), get_credit, if_neg (Ne.symm hc), get_debit hm0, if_pos rfl]
    omega
  · show (credit m c _).get 0 w.self + _ = w.egld.get 0 w.self + v
    rw [get_credit, if_pos rfl, get_debit hm0, if_neg hc] at hle
    rw [get_credit, if_neg hc, get_debit hm, if_pos rfl, get_credit, if_pos rfl, get_debit hm0, if_neg hc]
    omega
  · show w.st.r.withdrawn - min (amtSum ps) w.st.r.withdrawn + _ = w.st.r.withdrawn
    omega
  · intro a h1 h2
    show (credit m c _).get 0 a = _
    rw [get_credit, if_neg (Ne.symm h1), get_debit hm, if_neg (Ne.symm h2), get_credit, if_neg (Ne.symm h2), get_debit hm0,
      if_neg (Ne.symm h1)]; rfl
  · intro n a h1
    by_cases h2 : a = w.self
    · subst h2; exact n2 n
    · exact n3 n a h1 h2

/-- Two partial payments of one nonce, more than the pool holds: part is paid, the rest returned. -/
example : Reachable halfReady ∧ withdrawable halfReady < totalPaid [⟨501, 1, E 20⟩, ⟨501, 1, E 21⟩] ∧
    works halfReady (.withdraw 11 0 [⟨501, 1, E 20⟩, ⟨501, 1, E 21⟩]) = true ∧
    0 < unstakeOf (exec halfReady (.withdraw 11 0 [⟨501, 1, E 20⟩, ⟨501, 1, E 21⟩])) 1 11 :=
  ⟨halfReady_reachable, by decide +kernel, by decide +kernel, by decide +kernel⟩

theorem maturity_kept {w w' : World} (hr : Reachable w) (h : Later w w') {n : Nat} {e : UInt64} (hm : maturityOf w n = some e) :
    maturityOf w' n = some e := by
  induction h with
  | nil => exact hm
  | @snoc w1 w2 op ht hs _ ih =>
    have hr1 : Reachable w1 := reachable_trace hr ht
    obtain ⟨_, _, _, ha⟩ := nftInv_step op (reachable_nftInv hr1) (reachable_regInv hr1) hs
    unfold maturityOf at ih ⊢
    cases hg : w1.attrs.get none n with
    | none => rw [hg] at ih; cases ih
    | some a => rw [hg] at ih; rw [ha n a hg]; exact ih

/-- **C12**, matured tokens stay matured: epochs only go forward and the maturity is never rewritten. -/
theorem C12_stays_matured {w w' : World} (hr : Reachable w) (h : Later w w') {n : Nat} {e : UInt64}
    (hm : maturityOf w n = some e) (he : e ≤ w.epoch) : maturityOf w' n = some e ∧ e ≤ w'.epoch := by
  refine ⟨maturity_kept hr h hm, ?_⟩
  induction h with
  | nil => exact he
  | @snoc w1 w2 op ht hs _ ih =>
    have hr1 : Reachable w1 := reachable_trace hr ht
    obtain ⟨_, _, hle, _⟩ := nftInv_step op (reachable_nftInv hr1) (reachable_regInv hr1) hs
    exact UInt64.le_trans ih hle

/-- **C12.** Unstake tokens received from `unDelegate` carry the maturity epoch + unbond period, now and in every later
history (64-bit addition). -/
theorem C12_maturity_fixed {w w' w'' : World} {c : Addr} {v : Nat} {ps : List Payment} {n : Nat} (hr : Reachable w)
    (h : step w (.unDelegate c v ps) = .ok w') (hn : unstakeOf w n c < unstakeOf w' n c) (hl : Later w' w'') :
    ∃ e, maturityOf w'' n = some e ∧ e = w.epoch + w.st.unbondPeriod ∧
      (w.epoch.toNat + w.st.unbondPeriod.toNat < 2 ^ 64 → e.toNat = w.epoch.toNat + w.st.unbondPeriod.toNat) := by
  obtain ⟨_, _, _, _, hk⟩ := unDelegate_nft (reachable_nftInv hr) h
  obtain ⟨a, ha, hu⟩ := hk n hn
  have hm : maturityOf w' n = some (w.epoch + w.st.unbondPeriod) := by unfold maturityOf; rw [ha, ← hu]; rfl
  refine ⟨_, maturity_kept (.step _ hr h) hl hm, rfl, fun hlt => ?_⟩
  rw [UInt64.toNat_add, Nat.mod_eq_of_lt hlt]

/-- Nonce 1 opened at epoch 50 matures at 60, also after the unbond period is changed. -/
example : Reachable settled ∧ works settled (.unDelegate 11 0 [⟨500, 0, E 40⟩]) = true ∧
    unstakeOf settled 1 11 < unstakeOf redeemed 1 11 ∧ Later redeemed (run redeemed [.owner 1 (.unbondPeriod 3), .advance 100]) ∧
    maturityOf (run redeemed [.owner 1 (.unbondPeriod 3), .advance 100]) 1 = some 60 :=
  ⟨settled_reachable, by decide +kernel, by decide +kernel,
    trace_of_run (fun _ _ => true) (fun _ _ _ _ => ⟨rfl, fun _ _ => trivial⟩) _ _ rfl, by decide +kernel⟩

/-- **C13.** A registered nonce exists, has the maturity it is registered for, and the contract holds at least one unit of it
(exactly one unless somebody sent it more: `C13_one_unit`). -/
theorem C13_registered_nonce {w : World} (hr : Reachable w) {u : UInt64} {n : Nat} (hn : w.st.unstakeNonce.get 0 u = n)
    (h0 : n ≠ 0) : maturityOf w n = some u ∧ 1 ≤ unstakeOf w n w.self := by
  subst hn
  have hi : NftOk w.self w.epoch w.nft w.attrs w.lastNonce w.st.unstakeNonce := reachable_nftInv hr
  obtain ⟨a, ha, hu⟩ := hi.reg u h0
  refine ⟨by unfold maturityOf; rw [ha, ← hu]; rfl, Nat.one_le_iff_ne_zero.2 (hi.live _ ⟨h0, a, ha, by rw [hu]⟩)⟩

/-- **C13**, consequence: redemption never fails on the unstake token's bookkeeping. -/
theorem C13_topUp_never_fails {w : World} (hr : Reachable w) (c : Addr) (t : TokenId) (l : Nat) (ht : w.st.lsToken = some t) :
    step w (.unDelegate c 0 [⟨t, 0, l⟩]) ≠ .error .nftNotOwned ∧ step w (.unDelegate c 0 [⟨t, 0, l⟩]) ≠ .error .decode :=
  ⟨ne_unDelegate (reachable_nftInv hr) ht (.inr (by decide)) (.inr (by decide)) (.inr (by decide)) (.inr (by decide))
      (.inr (by decide)) (.inr (by decide)) (.inr (by decide)) (.inr (by decide)) (.inr (by decide)) (.inr (by decide))
      (.inr (by decide)),
    ne_unDelegate (reachable_nftInv hr) ht (.inr (by decide)) (.inr (by decide)) (.inr (by decide)) (.inr (by decide))
      (.inr (by decide)) (.inr (by decide)) (.inr (by decide)) (.inr (by decide)) (.inr (by decide)) (.inr (by decide))
      (.inr (by decide))⟩

/-- **C13**, consequence: an account's unstake tokens only ever decrease by its own `withdraw`, its own transfer
or its own burn. -/
theorem C13_users_never_burned {w w' : World} {op : Op} {n : Nat} {a : Addr} (hr : Reachable w) (h : step w op = .ok w')
    (ha : a ≠ w.self) (hlt : unstakeOf w' n a < unstakeOf w n a) :
    (∃ v ps, op = .withdraw a v ps) ∨ (∃ d v, op = .transferNft a d n v) ∨ (∃ v, op = .burnUnstake a n v) ∨
      (∃ v, op = .giveUnstake a n v) := by
  by_cases hm : movesNft op = false
  · obtain ⟨hs, _⟩ := sameNft_step h hm
    unfold unstakeOf at hlt; rw [hs.nft] at hlt; omega
  · cases op with
    | unDelegate c v ps =>
      exfalso
      obtain ⟨t, l, i, u, k, _, _, _, _, _, _, hp, _, _, _, _, _, ho⟩ := C02_unDelegate_pays_pro_rata h
      by_cases hac : a = c
      · subst hac
        by_cases hk : n = k
        · subst hk; have := hp.2.1; omega
        · have := hp.2.2 n hk; omega
      · have := ho n a hac ha; omega
    | withdraw c v ps =>
      obtain ⟨burned, x, _, _, _, _, _, _, _, _, _, ho, _⟩ := C11_withdraw_one_to_one hr h
      by_cases hac : a = c
      · subst hac; exact .inl ⟨v, ps, rfl⟩
      · have := ho n a hac; omega
    | transferNft s d k v =>
      obtain ⟨h1, h2, m, hd, rfl⟩ := transferNft_ok.1 h
      have hlt' : (credit m (k, d) v).get 0 (n, a) < w.nft.get 0 (n, a) := hlt
      rw [get_credit, get_debit hd] at hlt'
      have hle := debit_le hd
      by_cases hs : (k, s) = (n, a)
      · simp only [Prod.mk.injEq] at hs
        obtain ⟨rfl, rfl⟩ := hs
        exact .inr (.inl ⟨d, v, rfl⟩)
      · rw [if_neg hs] at hlt'
        split at hlt' <;> omega
    | burnUnstake b k v =>
      obtain ⟨h1, m, hd, rfl⟩ := holderBurnNft_ok.1 h
      have hlt' : m.get 0 (n, a) < w.nft.get 0 (n, a) := hlt
      rw [get_debit hd] at hlt'
      by_cases hs : (k, b) = (n, a)
      · simp only [Prod.mk.injEq] at hs
        obtain ⟨rfl, rfl⟩ := hs
        exact .inr (.inr (.inl ⟨v, rfl⟩))
      · rw [if_neg hs] at hlt'; omega
    | giveUnstake b k v =>
      obtain ⟨h1, _, m, hd, rfl⟩ := giveUnstake_ok.1 h
      have hlt' : (credit m (k, w.self) v).get 0 (n, a) < w.nft.get 0 (n, a) := hlt
      rw [get_credit, get_debit hd] at hlt'
      by_cases hs : (k, b) = (n, a)
      · simp only [Prod.mk.injEq] at hs
        obtain ⟨rfl, rfl⟩ := hs
        exact .inr (.inr (.inr ⟨v, rfl⟩))
      · rw [if_neg hs] at hlt'
        split at hlt' <;> omega
    | _ => simp [movesNft] at hm

/-- Two nonces: the older one was cleaned up (the contract gave up its unit), the newer one is registered. -/
example : let w := run redeemed [.advance 51, .unDelegate 12 0 [⟨500, 0, E 10⟩]]
    Reachable w ∧ w.st.unstakeNonce.get 0 61 = 2 ∧ w.st.unstakeNonce.get 0 60 = 0 ∧ unstakeOf w 1 1000 = 0 ∧
    0 < unstakeOf w 1 11 :=
  ⟨reachable_run redeemed_reachable _, by decide +kernel, by decide +kernel, by decide +kernel, by decide +kernel⟩

/-- The books of a history: unstake tokens issued by `unDelegate` and EGLD paid by `withdraw`, read off from balances. -/
inductive Ledger : World → Nat → Nat → Prop
  | init {w : World} : IsInit w → Ledger w 0 0
  | unDelegate {w w' : World} {issued paid : Nat} (c : Addr) (v : Nat) (ps : List Payment) (i u n : Nat) :
      Ledger w issued paid → step w (.unDelegate c v ps) = .ok w' → PaidOut w w' c i u n → Ledger w' (issued + u) paid
  | withdraw {w w' : World} {issued paid : Nat} (c : Addr) (v : Nat) (ps : List Payment) (x : Nat) :
      Ledger w issued paid → step w (.withdraw c v ps) = .ok w' → egldOf w' c + v = egldOf w c + x →
      Ledger w' issued (paid + x)
  | other {w w' : World} {issued paid : Nat} (op : Op) : (∀ c v ps, op ≠ .unDelegate c v ps) →
      (∀ c v ps, op ≠ .withdraw c v ps) → Ledger w issued paid → step w op = .ok w' → Ledger w' issued paid

theorem ledger_reachable {w : World} {i p : Nat} (h : Ledger w i p) : Reachable w := by
  induction h with
  | init h => exact .init h
  | unDelegate c v ps _ _ _ _ hs _ ih => exact .step _ ih hs
  | withdraw c v ps _ _ hs _ ih => exact .step _ ih hs
  | other op _ _ _ hs ih => exact .step _ ih hs

theorem userTokens_sum (w : World) : IsSum (userTokens w) (w.nft.total (notSelf w.self)) := isSum_userNft w

theorem paidOut_unique {w w' : World} {c : Addr} {i i' u u' n n' : Nat} (h : PaidOut w w' c i u n) (h' : PaidOut w w' c i' u' n') :
    u = u' := by
  obtain ⟨_, a2, a3⟩ := h
  obtain ⟨_, b2, b3⟩ := h'
  by_cases hn : n = n'
  · subst hn; omega
  · have := a3 n' (Ne.symm hn); have := b3 n hn; omega

/-- **C42.** Unstake tokens held by users plus EGLD ever paid by `withdraw`, plus what users burned on their own or
sent to the contract by plain transfers, equals unstake
tokens ever issued. -/
theorem C42_no_double_claim {w : World} {issued paid : Nat} (h : Ledger w issued paid) :
    ∃ held, IsSum (userTokens w) held ∧ held + paid + w.burntUnstake = issued := by
  induction h with
  | init h =>
    obtain ⟨self, owner, contracts, epoch, funds, acc, fees, rpe, mr, ms, ma, ub, _, _, rfl⟩ := isInit_eq h
    refine ⟨0, ⟨∅, fun p _ => ?_, by simp⟩, rfl⟩
    unfold userTokens unstakeOf; split
    · rfl
    · rfl
  | @unDelegate w w' issued paid c v ps i u n hl hs hp ih =>
    obtain ⟨T, hT, hsum⟩ := ih
    refine ⟨T + u, ?_, by rw [unDelegate_burnt hs]; omega⟩
    obtain ⟨t, l, i', u', k, _, _, _, hc, _, _, hp', _, _, _, _, _, ho⟩ := C02_unDelegate_pays_pro_rata hs
    rw [paidOut_unique hp hp']
    have hself : w'.self = w.self := (frame_unDelegate hs).self
    refine (hT.add (isSum_single (k, c) u')).congr fun p => ?_
    obtain ⟨m, a⟩ := p
    unfold userTokens
    rw [hself]
    dsimp only
    by_cases ha : a = w.self
    · subst ha; simp [hc]
    · rw [if_neg ha, if_neg ha]
      by_cases hac : a = c
      · subst hac
        by_cases hk : m = k
        · subst hk; rw [if_pos rfl, hp'.2.1]
        · rw [if_neg (by simp [Ne.symm hk]), hp'.2.2 m hk]; rfl
      · rw [if_neg (by simp [Ne.symm hac]), ho m a hac ha]; rfl
  | @withdraw w w' issued paid c v ps x hl hs hx ih =>
    obtain ⟨T, hT, hsum⟩ := ih
    have hr := ledger_reachable hl
    obtain ⟨_, x', hx', _, _, _, he, _⟩ := C11_withdraw_one_to_one hr hs
    have hxx : x = x' := by omega
    have hTe := hT.unique (userTokens_sum w)
    obtain ⟨hc, _, _, uid, t, m0, m, E, N, _, _, _, _, hm0, hm, rfl, _, _, _, ht, rfl⟩ :=
      withdraw_ok (reachable_regInv hr).tok hs
    refine ⟨_, userTokens_sum _, ?_⟩
    show N.total (notSelf w.self) + (paid + x) + w.burntUnstake = issued
    rw [hxx, hx', totalPaid_eq]
    unfold withdrawable
    omega
  | @other w w' issued paid op h1 h2 hl hs ih =>
    obtain ⟨T, hT, hsum⟩ := ih
    by_cases hm : movesNft op = false
    · obtain ⟨hS, _⟩ := sameNft_step hs hm
      refine ⟨T, hT.congr fun p => ?_, by rw [hS.burnt]; exact hsum⟩
      unfold userTokens unstakeOf
      rw [hS.self, hS.nft]
    · cases op with
      | unDelegate c v ps => exact absurd rfl (h1 c v ps)
      | withdraw c v ps => exact absurd rfl (h2 c v ps)
      | transferNft s d n v =>
        have hTe := hT.unique (userTokens_sum w)
        obtain ⟨h1, h2, m, hd, rfl⟩ := transferNft_ok.1 hs
        refine ⟨_, userTokens_sum _, ?_⟩
        have := total_debit (notSelf w.self) hd
        show (credit m (n, d) v).total (notSelf w.self) + paid + w.burntUnstake = issued
        have e1 : notSelf w.self (n, s) = true := by simp [notSelf, h1]
        have e2 : notSelf w.self (n, d) = true := by simp [notSelf, h2]
        rw [e1] at this
        rw [total_credit, e2]
        simp only [if_true] at this ⊢
        omega
      | giveUnstake a n v =>
        have hTe := hT.unique (userTokens_sum w)
        obtain ⟨h1, _, m, hd, rfl⟩ := giveUnstake_ok.1 hs
        refine ⟨_, userTokens_sum _, ?_⟩
        have := total_debit (notSelf w.self) hd
        show (credit m (n, w.self) v).total (notSelf w.self) + paid + (w.burntUnstake + v) = issued
        have e1 : notSelf w.self (n, a) = true := by simp [notSelf, h1]
        have e2 : notSelf w.self (n, w.self) = false := by simp [notSelf]
        rw [e1] at this
        rw [total_credit, e2]
        simp only [if_true, Bool.false_eq_true, if_false] at this ⊢
        omega
      | burnUnstake a n v =>
        have hTe := hT.unique (userTokens_sum w)
        obtain ⟨h1, m, hd, rfl⟩ := holderBurnNft_ok.1 hs
        refine ⟨_, userTokens_sum _, ?_⟩
        have := total_debit (notSelf w.self) hd
        show m.total (notSelf w.self) + paid + (w.burntUnstake + v) = issued
        have e1 : notSelf w.self (n, a) = true := by simp [notSelf, h1]
        rw [e1] at this
        simp only [if_true] at this
        omega
      | _ => simp [movesNft] at hm

/-- Every history has such books. -/
theorem C42_ledger_exists {w : World} (hr : Reachable w) : ∃ issued paid, Ledger w issued paid := by
  induction hr with
  | init h => exact ⟨0, 0, .init h⟩
  | @step w w' op hr hs ih =>
    obtain ⟨i, p, ih⟩ := ih
    by_cases h1 : ∃ c v ps, op = .unDelegate c v ps
    · obtain ⟨c, v, ps, rfl⟩ := h1
      obtain ⟨t, l, i', u', k, _, _, _, hc, _, _, hp', _⟩ := C02_unDelegate_pays_pro_rata hs
      exact ⟨_, _, .unDelegate c v ps _ _ _ ih hs hp'⟩
    · by_cases h2 : ∃ c v ps, op = .withdraw c v ps
      · obtain ⟨c, v, ps, rfl⟩ := h2
        obtain ⟨_, x, _, _, _, _, he, _⟩ := C11_withdraw_one_to_one hr hs
        exact ⟨_, _, .withdraw c v ps x ih hs he⟩
      · exact ⟨_, _, .other op (fun c v ps h => h1 ⟨c, v, ps, h⟩) (fun c v ps h => h2 ⟨c, v, ps, h⟩) ih hs⟩

/-- A history with both: 20 of the issued tokens are paid out, the rest still held. -/
example : let w := exec ready (.withdraw 11 0 [⟨501, 1, E 20⟩])
    Reachable w ∧ works ready (.withdraw 11 0 [⟨501, 1, E 20⟩]) = true ∧ egldOf w 11 = egldOf ready 11 + E 20 ∧
    unstakeOf w 1 11 + E 20 = unstakeOf redeemed 1 11 ∧ 0 < unstakeOf w 1 11 :=
  ⟨reachable_exec ready_reachable _, by decide +kernel, by decide +kernel, by decide +kernel, by decide +kernel⟩

end LS
