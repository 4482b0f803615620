import Verif.Spec.Economy
import Verif.Props.Withdraw
import Verif.Props.Pool
import Verif.Props.Accounting

/-! What a transaction does to accounts that did not send it. -/

namespace LS
open Spec

theorem credit_mono (m : Map Addr Nat) (d : Addr) (v : Nat) (a : Addr) : m.get 0 a ≤ (credit m d v).get 0 a := by
  rw [get_credit]; split <;> omega

theorem paid_mono {m m' : Map Addr Nat} {c : Addr} {v : Nat} (h : debit m c v = .ok m') (d : Addr) {a : Addr} (ha : a ≠ c) :
    m.get 0 a ≤ (credit m' d v).get 0 a := by
  have h1 := credit_mono m' d v a
  rw [get_debit h, if_neg (Ne.symm ha)] at h1
  exact h1

theorem mintTo_mono (m : Map Addr Nat) (s u : Addr) (l : Nat) (a : Addr) : m.get 0 a ≤ (mintTo m s u l).get 0 a := by
  rw [get_mintTo]; omega

/-- A callback takes nothing from a user. -/
theorem runCallback_mono {w w' : World} {f : Flight} {o : Outcome} (h : runCallback w f o = .ok w') {a : Addr} (ha : a ≠ w.self) :
    w.egld.get 0 a ≤ w'.egld.get 0 a ∧ w.ls.get 0 a ≤ w'.ls.get 0 a := by
  cases f with
  | delegate p a =>
    cases o with
    | ok e r => obtain ⟨_, d, _, _, rfl⟩ := addLiquidityCb_true_ok.1 h; exact ⟨Nat.le_refl _, Nat.le_refl _⟩
    | err => obtain ⟨t, d, _, _, _, rfl⟩ := addLiquidityCb_false_ok.1 h; exact ⟨Nat.le_refl _, Nat.le_refl _⟩
  | undelegate p a =>
    cases o with
    | ok e r => obtain ⟨t, d, _, _, _, _, rfl⟩ := removeLiquidityCb_true_ok.1 h; exact ⟨Nat.le_refl _, Nat.le_refl _⟩
    | err => obtain ⟨t, d, _, _, _, rfl⟩ := removeLiquidityCb_false_ok.1 h; exact ⟨Nat.le_refl _, Nat.le_refl _⟩
  | withdraw p =>
    cases o with
    | ok e r => rcases withdrawTokensCb_ok.1 h with ⟨_, rfl⟩ | ⟨_, t, d, _, _, _, _, rfl⟩ <;> exact ⟨Nat.le_refl _, Nat.le_refl _⟩
    | err => rcases withdrawTokensCb_ok.1 h with ⟨_, rfl⟩ | ⟨_, t, d, _, _, _, _, rfl⟩ <;> exact ⟨Nat.le_refl _, Nat.le_refl _⟩
  | claim ps =>
    cases o with
    | ok e r => rcases claimRewardsCb_ok.1 h with ⟨_, rfl⟩ | ⟨_, t, d, _, _, _, rfl⟩ <;> exact ⟨Nat.le_refl _, Nat.le_refl _⟩
    | err => cases h; exact ⟨Nat.le_refl _, Nat.le_refl _⟩
  | whitelist p v u =>
    cases o with
    | ok e r =>
      obtain ⟨t, d, l, _, _, _, rfl⟩ := whitelistCb_true_ok.1 h
      exact ⟨Nat.le_refl _, mintTo_mono w.ls w.self u l a⟩
    | err =>
      obtain ⟨_, m, hm, rfl⟩ := whitelistCb_false_ok.1 h
      exact ⟨paid_mono hm u ha, Nat.le_refl _⟩

theorem others_egld_ls {w w' : World} (op : Op) (hr : Reachable w) (hs : step w op = .ok w') {a : Addr} (ha : a ≠ w.self)
    (ho : senderOf op ≠ some a) : egldOf w a ≤ egldOf w' a ∧ lsOf w a ≤ lsOf w' a := by
  have same : ∀ {w w' : World} {a : Addr}, w'.egld = w.egld → w'.ls = w.ls → egldOf w a ≤ egldOf w' a ∧ lsOf w a ≤ lsOf w' a := by
    intro w w' a h1 h2; unfold egldOf lsOf; rw [h1, h2]; exact ⟨Nat.le_refl _, Nat.le_refl _⟩
  have hne : ∀ {c : Addr}, senderOf op = some c → a ≠ c := fun h e => ho (e ▸ h)
  cases op with
  | delegate c v =>
    obtain ⟨_, _, _, _, _, h1, h2, _⟩ := C01_delegate_mints_pro_rata hs
    have := hne rfl
    exact ⟨(h1 a this ha).ge, (h2 a this).ge⟩
  | unDelegate c v ps =>
    obtain ⟨t, l, i, u, n, _, _, _, _, _, _, _, _, _, _, h1, h2, _⟩ := C02_unDelegate_pays_pro_rata hs
    have := hne rfl
    exact ⟨(h1 a this ha).ge, (h2 a this).ge⟩
  | withdraw c v ps =>
    obtain ⟨_, _, _, _, _, _, _, _, _, _, h1, _, h2⟩ := C11_withdraw_one_to_one hr hs
    exact ⟨(h1 a (hne rfl) ha).ge, (h2 a).ge⟩
  | upgrade => simp only [step, Except.ok.injEq] at hs; subst hs; exact same rfl rfl
  | delegatePending c x =>
    obtain ⟨_, _, _, t, amt, sels, left, E, D, _, hb, hsum, _, _, hE, hE', _, hps, hf, rfl⟩ := delegatePending_ok hs
    exact ⟨(hE' a ha).ge, Nat.le_refl _⟩
  | unDelegatePending c x =>
    obtain ⟨_, _, _, t, amt, sels, left, E, D, _, hb, hsum, _, _, hE, _, hps, hf, rfl⟩ := unDelegatePending_ok hs
    exact ⟨(hE a).ge, Nat.le_refl _⟩
  | withdrawPending c p =>
    obtain ⟨_, _, _, _, _, E, hE, rfl⟩ := withdrawPending_ok hs
    exact ⟨(hE a).ge, Nat.le_refl _⟩
  | claimRewards c =>
    obtain ⟨_, _, _, _, _, E, hE, rfl⟩ := claimRewards_ok hs
    exact ⟨(hE a).ge, Nat.le_refl _⟩
  | claimFees c x =>
    obtain ⟨_, _, _, _, _, m, hm, rfl⟩ := claimFees_ok hs
    exact ⟨paid_mono hm _ ha, Nat.le_refl _⟩
  | whitelist c v p ad ts cap n apy =>
    obtain ⟨hc, _, _, _, hnone, _, _, _, E, hE, hEc, hEo, rfl⟩ := whitelist_ok hs
    exact ⟨(hEo a ha (hne rfl)).ge, Nat.le_refl _⟩
  | changeAdmin c p x => obtain ⟨_, _, d, hd, rfl⟩ := changeAdmin_ok.1 hs; exact same rfl rfl
  | changeParams c p ts cap n apy e => obtain ⟨_, _, d, hd, _, rfl⟩ := changeParams_ok.1 hs; exact same rfl rfl
  | migrate c v o =>
    obtain ⟨_, _, _, _, t, l, _, hq, rfl⟩ := migrate_ok.1 hs
    exact ⟨Nat.le_refl _, mintTo_mono _ _ _ _ _⟩
  | migratePending c v =>
    obtain ⟨hc, _, _, _, t, m, _, hm, rfl⟩ := migratePending_ok.1 hs
    exact ⟨paid_mono hm _ (hne rfl), Nat.le_refl _⟩
  | addRewards c v =>
    obtain ⟨hc, t, m, _, hm, rfl⟩ := addRewards_ok.1 hs
    exact ⟨paid_mono hm _ (hne rfl), Nat.le_refl _⟩
  | setMigrationSc c x => obtain ⟨_, _, _, rfl⟩ := setMigrationSc_ok.1 hs; exact same rfl rfl
  | registerLsToken c v =>
    obtain ⟨hc, _, _, _, m, hm, rfl⟩ := registerLsToken_ok.1 hs
    have := hne (c := c) rfl
    exact ⟨(show m.get 0 a = w.egld.get 0 a by rw [get_debit hm, if_neg (Ne.symm this)]).ge, Nat.le_refl _⟩
  | registerUnstakeToken c v =>
    obtain ⟨hc, _, _, _, m, hm, rfl⟩ := registerUnstakeToken_ok.1 hs
    have := hne (c := c) rfl
    exact ⟨(show m.get 0 a = w.egld.get 0 a by rw [get_debit hm, if_neg (Ne.symm this)]).ge, Nat.le_refl _⟩
  | issued i o =>
    obtain ⟨x, E, hx, _, hE, rfl⟩ := issued_ok.1 hs
    cases o with
    | none =>
      rw [if_pos rfl] at hE
      obtain ⟨m, hm, rfl⟩ := hE
      have h1 := paid_mono hm x.caller ha
      rw [get_credit, if_neg (Ne.symm ha)] at h1
      exact ⟨h1, Nat.le_refl _⟩
    | some id =>
      rw [if_neg (by simp)] at hE
      subst hE
      exact ⟨Nat.le_refl _, Nat.le_refl _⟩
  | owner c cmd => obtain ⟨_, _, st, h1, rfl⟩ := ownerCmd_ok.1 hs; exact same rfl rfl
  | setScoringConfig c cfg => obtain ⟨_, _, _, rfl⟩ := setScoringConfig_ok.1 hs; exact same rfl rfl
  | viewLsValue l =>
    simp only [step, bind_ok, Prod.exists, Except.ok.injEq] at hs
    obtain ⟨e, w1, h1, rfl⟩ := hs
    obtain ⟨_, _, rfl⟩ := viewLsValue_ok.1 h1
    exact same rfl rfl
  | viewEgldPosition l =>
    simp only [step, bind_ok, Prod.exists, Except.ok.injEq] at hs
    obtain ⟨e, w1, h1, rfl⟩ := hs
    obtain ⟨_, _, rfl⟩ := viewEgldPosition_ok.1 h1
    exact same rfl rfl
  | deliver i o =>
    obtain ⟨f, hf, hcb⟩ := deliver_ok hs
    have h1 := credit_mono w.egld w.self (attached f o) a
    rcases hcb with hcb | ⟨_, rfl⟩
    · obtain ⟨h2, h3⟩ := runCallback_mono hcb (a := a) ha
      exact ⟨Nat.le_trans h1 h2, h3⟩
    · exact ⟨h1, Nat.le_refl _⟩
  | transferLs s d v =>
    obtain ⟨_, _, m, hm, rfl⟩ := transferLs_ok.1 hs
    exact ⟨Nat.le_refl _, paid_mono hm d (hne rfl)⟩
  | transferNft s d n v => obtain ⟨h1, h2, m, hm, rfl⟩ := transferNft_ok.1 hs; exact same rfl rfl
  | fund x v =>
    obtain ⟨h1, rfl⟩ := fund_ok.1 hs
    exact ⟨credit_mono _ _ _ _, Nat.le_refl _⟩
  | advance e => obtain ⟨_, rfl⟩ := advance_ok.1 hs; exact same rfl rfl
  | changeOwner c d => obtain ⟨_, _, rfl⟩ := changeOwner_ok.1 hs; exact same rfl rfl
  | transferEgld s d v =>
    obtain ⟨_, _, m, hm, rfl⟩ := transferEgld_ok.1 hs
    exact ⟨paid_mono hm d (hne rfl), Nat.le_refl _⟩
  | giveEgld s v =>
    obtain ⟨_, _, m, hm, rfl⟩ := giveEgld_ok.1 hs
    exact ⟨paid_mono hm w.self (hne rfl), Nat.le_refl _⟩
  | giveLs s v =>
    obtain ⟨_, _, m, hm, rfl⟩ := giveLs_ok.1 hs
    exact ⟨Nat.le_refl _, paid_mono hm w.self (hne rfl)⟩
  | giveUnstake s n v => obtain ⟨h1, h2, m, hm, rfl⟩ := giveUnstake_ok.1 hs; exact same rfl rfl
  | burnLs c v =>
    obtain ⟨_, m, hm, rfl⟩ := holderBurnLs_ok.1 hs
    have := hne (c := c) rfl
    exact ⟨Nat.le_refl _, (show m.get 0 a = w.ls.get 0 a by rw [get_debit hm, if_neg (Ne.symm this)]).ge⟩
  | burnUnstake a n v => obtain ⟨_, m, hm, rfl⟩ := holderBurnNft_ok.1 hs; exact same rfl rfl
  | starve i o => obtain ⟨f, hf, rfl⟩ := starve_ok hs; exact ⟨credit_mono w.egld w.self (attached f o) _, Nat.le_refl _⟩

end LS
