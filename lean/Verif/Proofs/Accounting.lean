import Verif.Proofs.Issue
import Verif.Proofs.WithdrawLemmas

/-! A refinement: every transaction is one of a handful of moves on a dozen totals. -/

namespace LS

/-- The totals the accounting properties speak about. -/
structure Acct where
  r : Reserves
  lsTotal : Nat
  bal : Nat
  userNft : Nat
  staked : Nat
  unstaked : Nat
  pStake : Nat
  pUnstake : Nat
  migV : Nat
  migP : Nat

theorem Acct.ext' {a b : Acct} (h : a.r = b.r ∧ a.lsTotal = b.lsTotal ∧ a.bal = b.bal ∧ a.userNft = b.userNft ∧
    a.staked = b.staked ∧ a.unstaked = b.unstaked ∧ a.pStake = b.pStake ∧ a.pUnstake = b.pUnstake ∧ a.migV = b.migV ∧
    a.migP = b.migP) : a = b := by
  cases a; cases b; simp only [Acct.mk.injEq]; exact h

/-- The totals of a world; what users have burned on their own is counted as if it still existed. -/
def acct (w : World) : Acct :=
  { r := w.st.r, lsTotal := w.ls.total (fun _ => true) + w.burntLs, bal := w.egld.get 0 w.self,
    userNft := w.nft.total (notSelf w.self) + w.burntUnstake, staked := dataSum (·.staked) w.st.data,
    unstaked := dataSum (·.unstaked) w.st.data, pStake := dataSum (·.pStake) w.st.data,
    pUnstake := dataSum (·.pUnstake) w.st.data, migV := w.migratedVirtual, migP := w.migratedPending }

/-- The moves.  `H` says that a claimed total is covered by the EGLD that came with it. -/
inductive AStep (H : Prop) (a : Acct) : Acct → Prop
  | stay (g : Nat) {a' : Acct} (h : a' = { a with bal := a.bal + g }) : AStep H a a'
  | deposit (p e l : Nat) (hp : p ≤ a.r.toUnstake) (hpe : 0 < p + e) (hq : LsQuote a.r (p + e) l) {a' : Acct}
      (h : a' = { a with
        r := { a.r with lsSupply := a.r.lsSupply + l, reserve := a.r.reserve + (p + e),
                        pending := a.r.pending + e, toUnstake := a.r.toUnstake - p, withdrawn := a.r.withdrawn + p },
        lsTotal := a.lsTotal + l, bal := a.bal + (p + e) }) : AStep H a a'
  | redeem (l i u e : Nat) (hl : 0 < l) (hlt : l ≤ a.lsTotal) (hq : EgldQuote a.r l e) (hs : i + u = e)
      (hi : i ≤ a.r.pending) (hb : i ≤ a.bal) {a' : Acct}
      (h : a' = { a with
        r := { a.r with lsSupply := a.r.lsSupply - l, reserve := a.r.reserve - e,
                        pending := a.r.pending - i, toUnstake := a.r.toUnstake + u },
        lsTotal := a.lsTotal - l, bal := a.bal - i, userNft := a.userNft + u }) : AStep H a a'
  | withdraw (v t : Nat) (ht : t ≤ a.r.withdrawn) (hu : t ≤ a.userNft) (hb : t ≤ a.bal + v) {a' : Acct}
      (h : a' = { a with
        r := { a.r with withdrawn := a.r.withdrawn - t }, bal := a.bal + v - t, userNft := a.userNft - t }) : AStep H a a'
  | delegateOut (x : Nat) (hx : x ≤ a.r.pending) (hb : x ≤ a.bal) {a' : Acct}
      (h : a' = { a with r := { a.r with pending := a.r.pending - x }, bal := a.bal - x, pStake := a.pStake + x }) : AStep H a a'
  | undelegateOut (x : Nat) (hx : x ≤ a.r.toUnstake) {a' : Acct}
      (h : a' = { a with r := { a.r with toUnstake := a.r.toUnstake - x }, pUnstake := a.pUnstake + x }) : AStep H a a'
  | delegateOk (x g : Nat) (hx : x ≤ a.pStake) {a' : Acct}
      (h : a' = { a with bal := a.bal + g, pStake := a.pStake - x, staked := a.staked + x }) : AStep H a a'
  | delegateErr (x : Nat) (hx : x ≤ a.pStake) {a' : Acct}
      (h : a' = { a with r := { a.r with pending := a.r.pending + x }, bal := a.bal + x, pStake := a.pStake - x }) : AStep H a a'
  | undelegateOk (x g : Nat) (hx : x ≤ a.pUnstake) (hs : x ≤ a.staked) {a' : Acct}
      (h : a' = { a with
        r := { a.r with toUnbond := a.r.toUnbond + x }, bal := a.bal + g, pUnstake := a.pUnstake - x,
        staked := a.staked - x, unstaked := a.unstaked + x }) : AStep H a a'
  | undelegateErr (x : Nat) (hx : x ≤ a.pUnstake) {a' : Acct}
      (h : a' = { a with r := { a.r with toUnstake := a.r.toUnstake + x }, pUnstake := a.pUnstake - x }) : AStep H a a'
  | withdrawIn (x : Nat) (hx : x ≤ a.unstaked) (hu : x ≤ a.r.toUnbond) {a' : Acct}
      (h : a' = { a with
        r := { a.r with toUnbond := a.r.toUnbond - x, withdrawn := a.r.withdrawn + x }, bal := a.bal + x,
        unstaked := a.unstaked - x }) : AStep H a a'
  | claim (ret fee g : Nat) (hf : fee ≤ ret) (hg : H → ret ≤ g) {a' : Acct}
      (h : a' = { a with
        r := { a.r with fees := a.r.fees + fee, pending := a.r.pending + (ret - fee), reserve := a.r.reserve + (ret - fee) },
        bal := a.bal + g }) : AStep H a a'
  | whitelistOk (x l g : Nat) (hq : LsQuote a.r x l) {a' : Acct}
      (h : a' = { a with
        r := { a.r with lsSupply := a.r.lsSupply + l, reserve := a.r.reserve + x }, lsTotal := a.lsTotal + l,
        bal := a.bal + g, staked := a.staked + x }) : AStep H a a'
  | claimFees (hb : a.r.fees ≤ a.bal) {a' : Acct}
      (h : a' = { a with r := { a.r with fees := 0 }, bal := a.bal - a.r.fees }) : AStep H a a'
  | migrate (v l : Nat) (hq : LsQuote a.r v l) {a' : Acct}
      (h : a' = { a with
        r := { a.r with lsSupply := a.r.lsSupply + l, reserve := a.r.reserve + v }, lsTotal := a.lsTotal + l,
        migV := a.migV + v }) : AStep H a a'
  | migratePending (v : Nat) {a' : Acct}
      (h : a' = { a with r := { a.r with pending := a.r.pending + v }, bal := a.bal + v, migP := a.migP + v }) : AStep H a a'
  | reward (v : Nat) {a' : Acct}
      (h : a' = { a with
        r := { a.r with reserve := a.r.reserve + v, pending := a.r.pending + v }, bal := a.bal + v }) : AStep H a a'

/-- A reward claim is honest when the number it reports is covered by the EGLD it brings. -/
def HonestOp (w : World) : Op → Prop
  | .deliver i (.ok egld ret) => ∀ ps, w.flights[i]? = some (.claim ps) → ret ≤ egld
  | _ => True

theorem bal_paid {m m' : Map Addr Nat} {c self : Addr} {v : Nat} (hc : c ≠ self) (h : debit m c v = .ok m') :
    (credit m' self v).get 0 self = m.get 0 self + v := by
  rw [get_credit, get_debit h]; simp [hc]

/-- The answer to an issue leaves the contract's balance as it was: a returned payment is passed on at once. -/
theorem issued_bal {w : World} {x : Issue} {o : Option TokenId} {E : Map Addr Nat} (hc : x.caller ≠ w.self)
    (h : if o = none then ∃ m, debit (credit w.egld w.self x.cost) w.self x.cost = .ok m ∧ E = credit m x.caller x.cost
      else E = w.egld) : E.get 0 w.self = w.egld.get 0 w.self := by
  split at h
  · obtain ⟨m, hm, rfl⟩ := h
    rw [get_credit, if_neg hc, get_debit hm, if_pos rfl, get_credit, if_pos rfl]
    omega
  · rw [h]

theorem total_send {m m' : Map Addr Nat} {c d : Addr} {v : Nat} (h : debit m c v = .ok m') :
    (credit m' d v).total (fun _ => true) = m.total (fun _ => true) := by
  have := total_debit (fun _ => true) h
  rw [total_credit]; simp at this ⊢; omega

theorem burnt_up {a b v x : Nat} (h : a = b + v) : a + x = b + x + v := by omega

theorem burnt_same {a b x : Nat} (h : a = b) : a + x = b + x := by rw [h]

theorem acct_advance {H} {w w' : World} {e : UInt64} (hs : advance w e = .ok w') : AStep H (acct w) (acct w') := by
  obtain ⟨_, rfl⟩ := advance_ok.1 hs; exact .stay 0 rfl

theorem acct_delegate {H} {w w' : World} {c : Addr} {v : Nat} (hs : delegate w c v = .ok w') :
    AStep H (acct w) (acct w') := by
  obtain ⟨hc, hv, _, m, t, p, e, l, hm, _, ha, _, _, hq, rfl⟩ := delegate_ok.1 hs
  obtain ⟨hpe, hp⟩ := getActionAmount_sum ha
  subst hpe
  refine .deposit p e l hp hv hq ?_
  apply Acct.ext'
  refine ⟨?_, ?_, ?_, rfl, rfl, rfl, rfl, rfl, rfl, rfl⟩
  · rfl
  · exact burnt_up (total_mintTo _ _ _ _)
  · exact bal_paid hc hm

theorem total_notSelf_minted {w w3 : World} {a : Attrs} {v n : Nat} {u cur : UInt64} {m : Map (Nat × Addr) Nat} {caller : Addr}
    (hc : caller ≠ w.self) (hM : MintedUnstake w a v u cur w3 n) (hm : debit w3.nft (n, w3.self) v = .ok m) :
    (credit m (n, caller) v).total (notSelf w.self) = w.nft.total (notSelf w.self) + v := by
  have h1 := total_debit (notSelf w.self) hm
  rw [total_credit]
  have hn : notSelf w.self (n, caller) = true := by simp [notSelf, hc]
  have hs : ∀ k, notSelf w.self (k, w.self) = false := by simp [notSelf]
  rw [hn]
  cases hM with
  | topUp hn h0 hb =>
    have h2 := total_credit w.nft (notSelf w.self) (n, w.self) v
    simp only [hs] at h1 h2 ⊢; simp at h1 h2 ⊢; omega
  | fresh h0 hcl =>
    have h2 := total_credit w.nft (notSelf w.self) (w.lastNonce + 1, w.self) (v + 1)
    simp only [hs] at h1 h2 ⊢; simp at h1 h2 ⊢; omega
  | freshClean a' h0 hl ha hlt hb =>
    have h2 := total_credit w.nft (notSelf w.self) (w.lastNonce + 1, w.self) (v + 1)
    have h3 := total_set (credit w.nft (w.lastNonce + 1, w.self) (v + 1)) (notSelf w.self) (w.lastNonce, w.self) 0
    simp only [hs] at h1 h2 h3 ⊢; simp at h1 h2 h3 ⊢; omega

theorem acct_unDelegate {H} {w w' : World} {c : Addr} {v : Nat} {ps : List Payment} (hs : unDelegate w c v ps = .ok w') :
    AStep H (acct w) (acct w') := by
  obtain ⟨hc, _, _, amount, t, m0, m1, m2, e, i, u, w1, w2, _, _, hl, hg, _, hd1, hd2, hq, ha, hi, _, hi', hu, rfl⟩ :=
    unDelegate_ok hs
  obtain ⟨hiu, _⟩ := getActionAmount_sum ha
  have hlt : amount ≤ w.ls.total (fun _ => true) :=
    Nat.le_trans (debit_le hd1) (get_le_total _ _ _ rfl)
  have hls : m2.total (fun _ => true) = w.ls.total (fun _ => true) - amount := by
    have h1 := total_debit (fun _ => true) hd1
    have h2 := total_debit (fun _ => true) hd2
    rw [total_credit] at h2; simp at h1 h2; omega
  have hw1 : ∃ E, w1 = { w with egld := E, ls := m2 } ∧ i ≤ w.egld.get 0 w.self ∧
      E.get 0 w.self = w.egld.get 0 w.self - i := by
    rcases hi' with ⟨h0, rfl⟩ | ⟨h0, m, hm, rfl⟩
    · exact ⟨_, rfl, by omega, by rw [hg]; omega⟩
    · refine ⟨_, rfl, by rw [← hg]; exact debit_le hm, ?_⟩
      rw [get_credit, get_debit hm, hg]; simp [hc]
  obtain ⟨E, rfl, hb, hE⟩ := hw1
  have hls : m2.total (fun _ => true) + w.burntLs = w.ls.total (fun _ => true) + w.burntLs - amount := by omega
  refine .redeem amount i u e hl (Nat.le_trans hlt (Nat.le_add_right _ _)) hq hiu hi hb ?_
  rcases hu with ⟨h0, rfl⟩ | ⟨h0, _, _, w3, n, m, hM, hm, rfl⟩
  · subst h0
    apply Acct.ext'
    exact ⟨rfl, hls, hE, rfl, rfl, rfl, rfl, rfl, rfl, rfl⟩
  · have hN := total_notSelf_minted (w := { w with egld := E, ls := m2 }) hc hM hm
    apply Acct.ext'
    cases hM with
    | topUp => exact ⟨rfl, hls, hE, burnt_up hN, rfl, rfl, rfl, rfl, rfl, rfl⟩
    | fresh => exact ⟨rfl, hls, hE, burnt_up hN, rfl, rfl, rfl, rfl, rfl, rfl⟩
    | freshClean => exact ⟨rfl, hls, hE, burnt_up hN, rfl, rfl, rfl, rfl, rfl, rfl⟩

theorem acct_withdraw {H} {w w' : World} {c : Addr} {v : Nat} {ps : List Payment} (hr : RegInv w)
    (hs : withdraw w c v ps = .ok w') : AStep H (acct w) (acct w') := by
  obtain ⟨hc, _, _, uid, t, m0, m, E, N, _, _, _, _, hd1, hd2, rfl, _, _, _, hN, rfl⟩ := withdraw_ok hr.tok hs
  have hb := bal_paid hc hd1
  have hle := debit_le hd2
  rw [hb] at hle
  refine .withdraw v (min (amtSum ps) w.st.r.withdrawn) (Nat.min_le_right _ _) ?_ hle ?_
  · have hN' := hN
    show _ ≤ w.nft.total (notSelf w.self) + w.burntUnstake
    omega
  · apply Acct.ext'
    refine ⟨rfl, rfl, ?_, ?_, rfl, rfl, rfl, rfl, rfl, rfl⟩
    · show (credit m c _).get 0 w.self = w.egld.get 0 w.self + v - _
      rw [get_credit, get_debit hd2, hb]; simp [hc]
    · show N.total (notSelf w.self) + w.burntUnstake = w.nft.total (notSelf w.self) + w.burntUnstake - _
      omega

theorem acct_delegatePending {H} {w w' : World} {c : Addr} {o : Option Nat} (hs : delegatePending w c o = .ok w') :
    AStep H (acct w) (acct w') := by
  obtain ⟨_, _, _, t, amt, sels, left, E, D, _, hb, hsum, _, _, hE, _, _, hps, hf, rfl⟩ := delegatePending_ok hs
  obtain ⟨_, _, hle, _, _⟩ := batchAmount_ok hb
  refine .delegateOut (selSum sels) ?_ ?_ ?_
  · show _ ≤ w.st.r.pending; omega
  · show _ ≤ w.egld.get 0 w.self; omega
  · apply Acct.ext'
    refine ⟨rfl, rfl, ?_, rfl, hf _ (fun _ _ => rfl), hf _ (fun _ _ => rfl), hps, hf _ (fun _ _ => rfl), rfl, rfl⟩
    show E.get 0 w.self = w.egld.get 0 w.self - _; omega

theorem acct_unDelegatePending {H} {w w' : World} {c : Addr} {o : Option Nat} (hs : unDelegatePending w c o = .ok w') :
    AStep H (acct w) (acct w') := by
  obtain ⟨_, _, _, t, amt, sels, left, E, D, _, hb, hsum, _, _, hE, _, hps, hf, rfl⟩ := unDelegatePending_ok hs
  obtain ⟨_, _, hle, _, _⟩ := batchAmount_ok hb
  refine .undelegateOut (selSum sels) ?_ ?_
  · show _ ≤ w.st.r.toUnstake; omega
  · apply Acct.ext'
    exact ⟨rfl, rfl, hE _, rfl, hf _ (fun _ _ => rfl), hf _ (fun _ _ => rfl), hf _ (fun _ _ => rfl), hps, rfl, rfl⟩

theorem acct_sameData {H} {w w' : World} (h1 : w'.st.r = w.st.r) (h2 : w'.ls = w.ls) (h3 : w'.nft = w.nft)
    (h4 : w'.self = w.self) {g : Nat} (h5 : w'.egld.get 0 w.self = w.egld.get 0 w.self + g)
    (h6 : ∀ f : ProviderData → Nat, (∀ d d' : ProviderData, d'.staked = d.staked → d'.unstaked = d.unstaked →
      d'.pStake = d.pStake → d'.pUnstake = d.pUnstake → f d' = f d) → dataSum f w'.st.data = dataSum f w.st.data)
    (h7 : w'.migratedVirtual = w.migratedVirtual) (h8 : w'.migratedPending = w.migratedPending)
    (h9 : w'.burntLs = w.burntLs) (h10 : w'.burntUnstake = w.burntUnstake) :
    AStep H (acct w) (acct w') := by
  refine .stay g ?_
  apply Acct.ext'
  refine ⟨h1, by show w'.ls.total _ + _ = _; rw [h2, h9]; rfl, by show w'.egld.get 0 w'.self = _; rw [h4]; exact h5,
    by show w'.nft.total (notSelf w'.self) + _ = _; rw [h3, h4, h10]; rfl, h6 _ ?_, h6 _ ?_, h6 _ ?_, h6 _ ?_, h7, h8⟩
  · intro d d' h _ _ _; exact h
  · intro d d' _ h _ _; exact h
  · intro d d' _ _ h _; exact h
  · intro d d' _ _ _ h; exact h

theorem acct_deliver {w w' : World} {i : Nat} {o : Outcome} (hr : RegInv w) (hs : deliver w i o = .ok w') :
    AStep (HonestOp w (.deliver i o)) (acct w) (acct w') := by
  obtain ⟨f, hf, hcb⟩ := deliver_ok hs
  have hr0 : RegOk w.st.lsToken w.st.unstakeToken w.st.delegList w.st.undelegList w.st.data w.flights w.dead := hr
  have hmem : f ∈ w.flights := List.mem_of_getElem? hf
  have hbal : (credit w.egld w.self (attached f o)).get 0 w.self = w.egld.get 0 w.self + attached f o := by
    rw [get_credit]; simp
  rcases hcb with hcb | ⟨_, rfl⟩
  swap
  · exact acct_sameData rfl rfl rfl rfl hbal (fun _ _ => rfl) rfl rfl rfl rfl
  cases f with
  | delegate p a =>
    cases o with
    | ok e r =>
      obtain ⟨_, d, h1, h2, rfl⟩ := addLiquidityCb_true_ok.1 hcb
      have h1' : w.st.data.get none p = some d := h1
      have key : ∀ f : ProviderData → Nat, dataSum f (w.st.data.set p (some { d with staked := d.staked + a, pStake := d.pStake - a })) + f d = _ :=
        fun f => dataSum_update f h1'
      refine .delegateOk a e (Nat.le_trans h2 (le_dataSum (·.pStake) h1')) ?_
      apply Acct.ext'
      have k1 := key (·.staked)
      have k2 := key (·.unstaked)
      have k3 := key (·.pStake)
      have k4 := key (·.pUnstake)
      have k5 := le_dataSum (·.pStake) h1'
      simp only at k1 k2 k3 k4 k5
      refine ⟨rfl, rfl, hbal, rfl, ?_, ?_, ?_, ?_, rfl, rfl⟩ <;>
      · show dataSum _ (w.st.data.set p (some _)) = _
        dsimp only [acct]
        omega
    | err =>
      obtain ⟨t, d, _, h1, h2, rfl⟩ := addLiquidityCb_false_ok.1 hcb
      have h1' : w.st.data.get none p = some d := h1
      have key : ∀ f : ProviderData → Nat, dataSum f (w.st.data.set p (some { d with eligible := false, pStake := d.pStake - a })) + f d = _ :=
        fun f => dataSum_update f h1'
      refine .delegateErr a (Nat.le_trans h2 (le_dataSum (·.pStake) h1')) ?_
      apply Acct.ext'
      have k1 := key (·.staked)
      have k2 := key (·.unstaked)
      have k3 := key (·.pStake)
      have k4 := key (·.pUnstake)
      have k5 := le_dataSum (·.pStake) h1'
      simp only at k1 k2 k3 k4 k5
      refine ⟨rfl, rfl, hbal, rfl, ?_, ?_, ?_, ?_, rfl, rfl⟩ <;>
      · show dataSum _ (w.st.data.set p (some _)) = _
        dsimp only [acct]
        omega
  | undelegate p a =>
    cases o with
    | ok e r =>
      obtain ⟨t, d, _, h1, h2, h3, rfl⟩ := removeLiquidityCb_true_ok.1 hcb
      have h1' : w.st.data.get none p = some d := h1
      have key : ∀ f : ProviderData → Nat, dataSum f (w.st.data.set p (some { d with
          staked := d.staked - a, unstaked := d.unstaked + a, pUnstake := d.pUnstake - a })) + f d = _ :=
        fun f => dataSum_update f h1'
      have k5 := le_dataSum (·.pUnstake) h1'
      have k6 := le_dataSum (·.staked) h1'
      refine .undelegateOk a e (Nat.le_trans h3 k5) (Nat.le_trans h2 k6) ?_
      apply Acct.ext'
      have k1 := key (·.staked)
      have k2 := key (·.unstaked)
      have k3 := key (·.pStake)
      have k4 := key (·.pUnstake)
      simp only at k1 k2 k3 k4 k5 k6
      refine ⟨rfl, rfl, hbal, rfl, ?_, ?_, ?_, ?_, rfl, rfl⟩ <;>
      · show dataSum _ (w.st.data.set p (some _)) = _
        dsimp only [acct]
        omega
    | err =>
      obtain ⟨t, d, _, h1, h2, rfl⟩ := removeLiquidityCb_false_ok.1 hcb
      have h1' : w.st.data.get none p = some d := h1
      have key : ∀ f : ProviderData → Nat, dataSum f (w.st.data.set p (some { d with pUnstake := d.pUnstake - a })) + f d = _ :=
        fun f => dataSum_update f h1'
      have k5 := le_dataSum (·.pUnstake) h1'
      refine .undelegateErr a (Nat.le_trans h2 k5) ?_
      apply Acct.ext'
      have k1 := key (·.staked)
      have k2 := key (·.unstaked)
      have k3 := key (·.pStake)
      have k4 := key (·.pUnstake)
      simp only at k1 k2 k3 k4 k5
      refine ⟨rfl, rfl, hbal, rfl, ?_, ?_, ?_, ?_, rfl, rfl⟩ <;>
      · show dataSum _ (w.st.data.set p (some _)) = _
        dsimp only [acct]
        omega
  | withdraw p =>
    cases o with
    | ok v r =>
      rcases withdrawTokensCb_ok.1 hcb with ⟨_, rfl⟩ | ⟨hpos, t, d, _, h1, h2, h3, rfl⟩
      · exact acct_sameData rfl rfl rfl rfl hbal (fun _ _ => rfl) rfl rfl rfl rfl
      · have h1' : w.st.data.get none p = some d := h1
        have key : ∀ f : ProviderData → Nat, dataSum f (w.st.data.set p (some { d with unstaked := d.unstaked - v })) + f d = _ :=
          fun f => dataSum_update f h1'
        have k5 := le_dataSum (·.unstaked) h1'
        refine .withdrawIn v (Nat.le_trans h2 k5) h3 ?_
        apply Acct.ext'
        have k1 := key (·.staked)
        have k2 := key (·.unstaked)
        have k3 := key (·.pStake)
        have k4 := key (·.pUnstake)
        simp only at k1 k2 k3 k4 k5
        refine ⟨rfl, rfl, hbal, rfl, ?_, ?_, ?_, ?_, rfl, rfl⟩ <;>
        · show dataSum _ (w.st.data.set p (some _)) = _
          dsimp only [acct]
          omega
    | err =>
      rcases withdrawTokensCb_ok.1 hcb with ⟨_, rfl⟩ | ⟨hpos, t, d, _, h1, h2, h3, rfl⟩
      · exact acct_sameData rfl rfl rfl rfl hbal (fun _ _ => rfl) rfl rfl rfl rfl
      · exact absurd hpos (by simp)
  | claim ps =>
    cases o with
    | ok e r =>
      rcases claimRewardsCb_ok.1 hcb with ⟨_, rfl⟩ | ⟨_, t, fee, _, _, hle, rfl⟩
      · exact acct_sameData rfl rfl rfl rfl hbal (fun _ _ => rfl) rfl rfl rfl rfl
      · refine .claim r fee e hle (fun hH => hH ps hf) ?_
        apply Acct.ext'
        exact ⟨rfl, rfl, hbal, rfl, rfl, rfl, rfl, rfl, rfl, rfl⟩
    | err =>
      simp only [runCallback, claimRewardsCb, Except.ok.injEq] at hcb
      subst hcb
      exact acct_sameData rfl rfl rfl rfl hbal (fun _ _ => rfl) rfl rfl rfl rfl
  | whitelist p a u =>
    cases o with
    | ok e r =>
      obtain ⟨t, d, l, _, h1, hq, rfl⟩ := whitelistCb_true_ok.1 hcb
      have h1' : w.st.data.get none p = some d := h1
      have key : ∀ f : ProviderData → Nat, dataSum f (w.st.data.set p (some { d with staked := d.staked + a })) + f d = _ :=
        fun f => dataSum_update f h1'
      refine .whitelistOk a l e hq ?_
      apply Acct.ext'
      have k1 := key (·.staked)
      have k2 := key (·.unstaked)
      have k3 := key (·.pStake)
      have k4 := key (·.pUnstake)
      simp only at k1 k2 k3 k4
      refine ⟨rfl, burnt_up (total_mintTo _ _ _ _), hbal, rfl, ?_, ?_, ?_, ?_, rfl, rfl⟩ <;>
      · show dataSum _ (w.st.data.set p (some _)) = _
        dsimp only [acct]
        omega
    | err =>
      obtain ⟨_, m, hm, rfl⟩ := whitelistCb_false_ok.1 hcb
      obtain ⟨hn, hd⟩ := hr0.wl2 p a u hmem
      refine .stay (if u = w.self then a else 0) ?_
      apply Acct.ext'
      have hm' : debit (credit w.egld w.self a) w.self a = .ok m := hm
      cases hx : w.st.data.get none p with
      | none => exact absurd hx hd
      | some d =>
        obtain ⟨z1, z2, z3, z4⟩ := hr0.zero p d hx hn
        have key : ∀ f : ProviderData → Nat, dataSum f (w.st.data.set p none) + f d = dataSum f w.st.data := by
          intro f
          have := dataSum_set f w.st.data p none
          rw [hx] at this; exact this
        have k1 := key (·.staked)
        have k2 := key (·.unstaked)
        have k3 := key (·.pStake)
        have k4 := key (·.pUnstake)
        refine ⟨rfl, rfl, ?_, rfl, ?_, ?_, ?_, ?_, rfl, rfl⟩
        · show (credit m u a).get 0 w.self = w.egld.get 0 w.self + (if u = w.self then a else 0)
          rw [get_credit, get_debit hm', get_credit]
          split <;> simp
        all_goals
          show dataSum _ (w.st.data.set p none) = _
          dsimp only [acct]
          omega

theorem dataSum_describe {m : Map Addr (Option ProviderData)} {p : Addr} {d d' : ProviderData} (f : ProviderData → Nat)
    (hd : m.get none p = some d) (h : f d' = f d) : dataSum f (m.set p (some d')) = dataSum f m := by
  have := dataSum_update (d' := d') f hd
  omega

/-- Every transaction is one of the moves. -/
theorem acct_step {w w' : World} (op : Op) (hr : RegInv w) (hi : IssInv w) (hs : step w op = .ok w') :
    AStep (HonestOp w op) (acct w) (acct w') := by
  cases op with
  | delegate c v => exact acct_delegate hs
  | unDelegate c v ps => exact acct_unDelegate hs
  | withdraw c v ps => exact acct_withdraw hr hs
  | upgrade => simp only [step, Except.ok.injEq] at hs; subst hs; exact .stay 0 rfl
  | delegatePending c a => exact acct_delegatePending hs
  | unDelegatePending c a => exact acct_unDelegatePending hs
  | withdrawPending c p =>
    obtain ⟨_, _, _, _, _, E, hE, rfl⟩ := withdrawPending_ok hs
    exact acct_sameData (g := 0) rfl rfl rfl rfl (hE _) (fun _ _ => rfl) rfl rfl rfl rfl
  | claimRewards c =>
    obtain ⟨_, _, _, _, _, E, hE, rfl⟩ := claimRewards_ok hs
    exact acct_sameData (g := 0) rfl rfl rfl rfl (hE _) (fun _ _ => rfl) rfl rfl rfl rfl
  | claimFees c a =>
    obtain ⟨_, _, ha, _, _, m, hm, rfl⟩ := claimFees_ok hs
    refine .claimFees (debit_le hm) ?_
    apply Acct.ext'
    refine ⟨rfl, rfl, ?_, rfl, rfl, rfl, rfl, rfl, rfl, rfl⟩
    show (credit m w.st.accumulator w.st.r.fees).get 0 w.self = w.egld.get 0 w.self - w.st.r.fees
    rw [get_credit, get_debit hm]; simp [ha]
  | whitelist c v p ad ts cap n apy =>
    obtain ⟨_, _, _, _, hnone, _, _, _, E, hE, _, _, rfl⟩ := whitelist_ok hs
    have key : ∀ f : ProviderData → Nat, dataSum f (w.st.data.set p (some ⟨ad, ts, cap, n, apy, 0, 0, true, 0, 0⟩)) =
        dataSum f w.st.data + f ⟨ad, ts, cap, n, apy, 0, 0, true, 0, 0⟩ := by
      intro f
      have := dataSum_set f w.st.data p (some ⟨ad, ts, cap, n, apy, 0, 0, true, 0, 0⟩)
      rw [hnone] at this; exact this
    refine .stay 0 ?_
    apply Acct.ext'
    exact ⟨rfl, rfl, hE, rfl, key _, key _, key _, key _, rfl, rfl⟩
  | changeAdmin c p a =>
    obtain ⟨_, _, d, hd, rfl⟩ := changeAdmin_ok.1 hs
    exact acct_sameData (g := 0) rfl rfl rfl rfl rfl (fun f hf => dataSum_describe f hd (hf _ _ rfl rfl rfl rfl)) rfl rfl rfl rfl
  | changeParams c p ts cap n apy e =>
    obtain ⟨_, _, d, hd, _, rfl⟩ := changeParams_ok.1 hs
    exact acct_sameData (g := 0) rfl rfl rfl rfl rfl (fun f hf => dataSum_describe f hd (hf _ _ rfl rfl rfl rfl)) rfl rfl rfl rfl
  | migrate c v o =>
    obtain ⟨_, _, _, _, t, l, _, hq, rfl⟩ := migrate_ok.1 hs
    refine .migrate v l hq ?_
    apply Acct.ext'
    exact ⟨rfl, burnt_up (total_mintTo _ _ _ _), rfl, rfl, rfl, rfl, rfl, rfl, rfl, rfl⟩
  | migratePending c v =>
    obtain ⟨hc, _, _, _, t, m, _, hm, rfl⟩ := migratePending_ok.1 hs
    refine .migratePending v ?_
    apply Acct.ext'
    exact ⟨rfl, rfl, bal_paid hc hm, rfl, rfl, rfl, rfl, rfl, rfl, rfl⟩
  | addRewards c v =>
    obtain ⟨hc, t, m, _, hm, rfl⟩ := addRewards_ok.1 hs
    refine .reward v ?_
    apply Acct.ext'
    exact ⟨rfl, rfl, bal_paid hc hm, rfl, rfl, rfl, rfl, rfl, rfl, rfl⟩
  | setMigrationSc c a =>
    obtain ⟨_, _, _, rfl⟩ := setMigrationSc_ok.1 hs; exact .stay 0 rfl
  | registerLsToken c v =>
    obtain ⟨hc, _, _, _, m, hm, rfl⟩ := registerLsToken_ok.1 hs
    refine acct_sameData (g := 0) rfl rfl rfl rfl ?_ (fun _ _ => rfl) rfl rfl rfl rfl
    show m.get 0 w.self = _
    rw [get_debit hm]; simp [hc]
  | registerUnstakeToken c v =>
    obtain ⟨hc, _, _, _, m, hm, rfl⟩ := registerUnstakeToken_ok.1 hs
    refine acct_sameData (g := 0) rfl rfl rfl rfl ?_ (fun _ _ => rfl) rfl rfl rfl rfl
    show m.get 0 w.self = _
    rw [get_debit hm]; simp [hc]
  | issued i o =>
    obtain ⟨x, E, hx, _, hE, rfl⟩ := issued_ok.1 hs
    have hb := issued_bal (hi.waiting hx).1 hE
    obtain ⟨k, u, v⟩ := x
    cases k <;> exact acct_sameData (g := 0) rfl rfl rfl rfl hb (fun _ _ => rfl) rfl rfl rfl rfl
  | owner c cmd =>
    obtain ⟨_, _, st, h1, rfl⟩ := ownerCmd_ok.1 hs
    obtain ⟨s, fr, acc, mr, ma, ms, ub, mg, rfl⟩ := applyOwnerCmd_ok h1
    exact .stay 0 rfl
  | setScoringConfig c cfg => obtain ⟨_, _, _, rfl⟩ := setScoringConfig_ok.1 hs; exact .stay 0 rfl
  | viewLsValue l =>
    simp only [step, bind_ok, Prod.exists, Except.ok.injEq] at hs
    obtain ⟨e, w1, h1, rfl⟩ := hs
    obtain ⟨_, _, rfl⟩ := viewLsValue_ok.1 h1
    exact .stay 0 rfl
  | viewEgldPosition l =>
    simp only [step, bind_ok, Prod.exists, Except.ok.injEq] at hs
    obtain ⟨e, w1, h1, rfl⟩ := hs
    obtain ⟨_, _, rfl⟩ := viewEgldPosition_ok.1 h1
    exact .stay 0 rfl
  | deliver i o => exact acct_deliver hr hs
  | transferLs s d v =>
    obtain ⟨_, _, m, hm, rfl⟩ := transferLs_ok.1 hs
    refine .stay 0 ?_
    apply Acct.ext'
    exact ⟨rfl, burnt_same (total_send hm), rfl, rfl, rfl, rfl, rfl, rfl, rfl, rfl⟩
  | transferNft s d n v =>
    obtain ⟨h1, h2, m, hm, rfl⟩ := transferNft_ok.1 hs
    refine .stay 0 ?_
    apply Acct.ext'
    refine ⟨rfl, rfl, rfl, ?_, rfl, rfl, rfl, rfl, rfl, rfl⟩
    have := total_debit (notSelf w.self) hm
    refine burnt_same ?_
    rw [total_credit]
    simp [notSelf, h1, h2] at this ⊢
    exact this
  | fund a v =>
    obtain ⟨h1, rfl⟩ := fund_ok.1 hs
    refine acct_sameData (g := 0) rfl rfl rfl rfl ?_ (fun _ _ => rfl) rfl rfl rfl rfl
    show (credit w.egld a v).get 0 w.self = _
    rw [get_credit]; simp [h1]
  | advance e => exact acct_advance hs
  | changeOwner c d => obtain ⟨_, _, rfl⟩ := changeOwner_ok.1 hs; exact .stay 0 rfl
  | transferEgld s d v =>
    obtain ⟨h1, h2, m, hm, rfl⟩ := transferEgld_ok.1 hs
    refine acct_sameData (g := 0) rfl rfl rfl rfl ?_ (fun _ _ => rfl) rfl rfl rfl rfl
    show (credit m d v).get 0 w.self = _
    rw [get_credit, get_debit hm]; simp [h1, h2]
  | giveEgld s v =>
    obtain ⟨h1, _, m, hm, rfl⟩ := giveEgld_ok.1 hs
    refine acct_sameData (g := v) rfl rfl rfl rfl ?_ (fun _ _ => rfl) rfl rfl rfl rfl
    show (credit m w.self v).get 0 w.self = _
    rw [get_credit, get_debit hm]; simp [h1]
  | giveLs s v =>
    obtain ⟨_, _, m, hm, rfl⟩ := giveLs_ok.1 hs
    refine .stay 0 (Acct.ext' ⟨rfl, burnt_same (total_send hm), rfl, rfl, rfl, rfl, rfl, rfl, rfl, rfl⟩)
  | giveUnstake s n v =>
    obtain ⟨h1, _, m, hm, rfl⟩ := giveUnstake_ok.1 hs
    refine .stay 0 (Acct.ext' ⟨rfl, rfl, rfl, ?_, rfl, rfl, rfl, rfl, rfl, rfl⟩)
    have := total_debit (notSelf w.self) hm
    show (credit m (n, w.self) v).total (notSelf w.self) + (w.burntUnstake + v) = w.nft.total (notSelf w.self) + w.burntUnstake
    rw [total_credit]
    simp [notSelf, h1] at this ⊢; omega
  | burnLs a v =>
    obtain ⟨_, m, hm, rfl⟩ := holderBurnLs_ok.1 hs
    refine .stay 0 (Acct.ext' ⟨rfl, ?_, rfl, rfl, rfl, rfl, rfl, rfl, rfl, rfl⟩)
    have := total_debit (fun _ => true) hm
    show m.total (fun _ => true) + (w.burntLs + v) = w.ls.total (fun _ => true) + w.burntLs
    simp at this; omega
  | burnUnstake a n v =>
    obtain ⟨h1, m, hm, rfl⟩ := holderBurnNft_ok.1 hs
    refine .stay 0 (Acct.ext' ⟨rfl, rfl, rfl, ?_, rfl, rfl, rfl, rfl, rfl, rfl⟩)
    have := total_debit (notSelf w.self) hm
    show m.total (notSelf w.self) + (w.burntUnstake + v) = w.nft.total (notSelf w.self) + w.burntUnstake
    simp [notSelf, h1] at this; omega
  | starve i o =>
    obtain ⟨f, hf, rfl⟩ := starve_ok hs
    refine acct_sameData rfl rfl rfl rfl (g := attached f o) ?_ (fun _ _ => rfl) rfl rfl rfl rfl
    show (credit w.egld w.self (attached f o)).get 0 w.self = _
    rw [get_credit]; simp

theorem total_nil {K : Type} [DecidableEq K] (p : K → Bool) : Map.total ([] : Map K Nat) p = 0 := Map.sum_nil _ _

/-- The totals of a fresh deployment. -/
theorem acct_init {w : World} (h : IsInit w) :
    acct w = ⟨⟨0, 0, 0, 0, 0, 0, 0⟩, 0, 0, 0, 0, 0, 0, 0, 0, 0⟩ := by
  obtain ⟨self, owner, contracts, epoch, funds, acc, fees, rpe, mr, ms, ma, ub, _, _, rfl⟩ := isInit_eq h
  apply Acct.ext'
  refine ⟨rfl, total_nil (fun _ : Addr => true), ?_, total_nil (notSelf self), dataSum_nil (·.staked), dataSum_nil (·.unstaked),
    dataSum_nil (·.pStake), dataSum_nil (·.pUnstake), rfl, rfl⟩
  show Map.get 0 (List.filter (fun e => decide (e.1 ≠ self)) funds) self = 0
  apply Map.get_of_notMem
  simp [Map.keys]

end LS
