import Verif.Proofs.AcceptBatch
import Verif.Props.Payout
import Verif.Props.Config

/-! Exactly when transactions are accepted: C69. -/

namespace LS
open Spec Demo

private theorem manager_iff {w : World} {c : Addr} : Manager w c ↔ c ≠ w.self ∧ isManager w c = true := by
  unfold Manager isManager
  simp

private theorem ls_some {w : World} : w.st.lsToken ≠ none ↔ ∃ t, w.st.lsToken = some t := Option.ne_none_iff_exists'

private theorem debit_iff {α : Type} [DecidableEq α] {m : Map α Nat} {a : α} {v : Nat} : (∃ m', debit m a v = .ok m') ↔ v ≤ m.get 0 a :=
  ⟨fun ⟨_, h⟩ => debit_le h, fun h => ⟨_, debit_ok.2 ⟨h, rfl⟩⟩⟩

/-- **C69.** A transaction is accepted if and only if `Accepted` says so (for lists and a batch limit below 2^32, the width of the
machine's `usize`). -/
theorem C69_accepted_iff {w : World} {op : Op} (hr : ReachableBy HonestManager w) (h1 : w.st.delegList.length < 2 ^ 32)
    (h2 : w.st.undelegList.length < 2 ^ 32) (h3 : w.st.maxSelectedProviders < 2 ^ 32) :
    (∃ w', step w op = .ok w') ↔ Accepted w op := by
  have hR := reachableBy_reachable hr
  have hsol := C09_solvent hr
  unfold pendingEgld withdrawable feesReserve egldOf at hsol
  have hcap : CapOk w := reachable_capOk hR
  have hone : MIN_EGLD = oneEgld := rfl
  cases op with
  | delegate c v =>
    rw [C15_deposit_iff]
    show _ ↔ c ≠ w.self ∧ (w.st.state = .active ∧ w.st.lsToken ≠ none) ∧ _
    tauto
  | unDelegate c v ps =>
    show _ ↔ c ≠ w.self ∧ (w.st.state = .active ∧ w.st.lsToken ≠ none) ∧ _
    constructor
    · rintro ⟨w', h⟩
      obtain ⟨g1, g2, g3, l, t, m0, m1, m2, e, i, u, w1, w2, hps, ht, _⟩ := unDelegate_ok h
      subst g2 hps
      have := (C16_redemption_iff hr ht).1 ⟨w', h⟩
      exact ⟨g1, ⟨g3, by rw [ht]; simp⟩, rfl, t, l, rfl, ht, this.2.2⟩
    · rintro ⟨g1, ⟨g2, _⟩, rfl, t, l, rfl, ht, g3⟩
      exact (C16_redemption_iff hr ht).2 ⟨g2, g1, g3⟩
  | withdraw c v ps =>
    show _ ↔ c ≠ w.self ∧ (w.st.state = .active ∧ w.st.lsToken ≠ none) ∧ w.st.unstakeToken ≠ none ∧ (v = 0 ∨ ps = []) ∧
      v ≤ egldOf w c ∧ _
    rcases Nat.eq_zero_or_pos v with rfl | hv
    · rw [C50_withdraw_iff hr]
      constructor
      · rintro ⟨g1, g2, g3, g4, g5⟩
        exact ⟨g4, ⟨g1, g2⟩, g3, .inl rfl, Nat.zero_le _, g5⟩
      · rintro ⟨g4, ⟨g1, g2⟩, g3, _, _, g5⟩
        exact ⟨g1, g2, g3, g4, g5⟩
    · constructor
      · rintro ⟨w', h⟩
        have h' : withdraw w c v ps = .ok w' := h
        unfold withdraw payAny at h'
        simp only [bind_ok, requireUser_ok, requireActive_ok, payEgld_ok, req_ok, exists_const] at h'
        obtain ⟨g1, w0, ⟨g2, w00, ⟨m0, hm0, rfl⟩, hpay⟩, c0, hc0, g3, h'⟩ := h'
        have hps : ps = [] := by
          rcases g2 with g2 | g2
          · omega
          · exact g2
        subst hps
        simp only [payEsdts, Except.ok.injEq] at hpay
        subst hpay
        obtain ⟨t, ht, rfl⟩ := cacheNew_ok.1 hc0
        refine ⟨g1, ⟨g3, by rw [show w.st.lsToken = some t from ht]; simp⟩, ?_, .inr rfl, debit_le hm0, by simp,
          fun n => Nat.zero_le _, by simp⟩
        intro hu
        dsimp only at h'
        rw [hu] at h'
        simp at h'
      · rintro ⟨g1, ⟨g2, g3⟩, g4, g5, g6, _⟩
        have hps : ps = [] := by
          rcases g5 with g5 | g5
          · omega
          · exact g5
        subst hps
        obtain ⟨t, ht⟩ := ls_some.1 g3
        obtain ⟨u, hu⟩ := Option.ne_none_iff_exists'.1 g4
        apply NoErr.all
        intro e
        show NoErr e (withdraw w c v [])
        unfold withdraw payAny payEgld payEsdts
        refine .bind (.req (.inl g1)) fun _ _ => .bind (.bind (.req (.inl (.inr rfl))) fun _ _ => .bind
          (.bind (.debit (.inl g6)) fun _ _ => .ok _) fun _ _ => .ok _) fun w0 hw0 => ?_
        simp only [bind_ok, Except.ok.injEq] at hw0
        obtain ⟨_, _, w1, ⟨m, _, rfl⟩, rfl⟩ := hw0
        refine .bind (cacheNew_noErr ht) fun cc hcc => ?_
        obtain ⟨t', ht', rfl⟩ := cacheNew_ok.1 hcc
        refine .bind (.req (.inl g2)) fun _ _ => ?_
        dsimp only
        rw [hu]
        unfold withdrawLoop sendEgld
        refine .bind (.ok _) fun r hr => ?_
        cases hr
        exact .bind (.bind (.debit (.inl (Nat.zero_le _))) fun _ _ => .ok _) fun _ _ => .ok _
  | upgrade => exact ⟨fun _ => trivial, fun _ => ⟨w, rfl⟩⟩
  | delegatePending c o =>
    show (∃ w', delegatePending w c o = .ok w') ↔ Manager w c ∧ (w.st.state = .active ∧ w.st.lsToken ≠ none) ∧ _
    rw [delegatePending_iff hcap (reachable_limits hR).1 h1 (by omega), manager_iff]
    tauto
  | unDelegatePending c o =>
    show (∃ w', unDelegatePending w c o = .ok w') ↔ Manager w c ∧ (w.st.state = .active ∧ w.st.lsToken ≠ none) ∧ _
    rw [unDelegatePending_iff hcap (reachable_limits hR).1 h3 h2, manager_iff]
    tauto
  | withdrawPending c p =>
    show (∃ w', withdrawPending w c p = .ok w') ↔ Manager w c ∧ (w.st.state = .active ∧ w.st.lsToken ≠ none) ∧ provider w p ≠ none
    rw [manager_iff]
    constructor
    · rintro ⟨w', h⟩
      obtain ⟨g1, g2, g3, g4, g5, _⟩ := withdrawPending_ok h
      exact ⟨⟨g1, g3⟩, ⟨g2, g4⟩, g5⟩
    · rintro ⟨⟨g1, g3⟩, ⟨g2, g4⟩, g5⟩
      obtain ⟨t, ht⟩ := ls_some.1 g4
      apply NoErr.all
      intro e
      unfold withdrawPending registerPromise
      refine .bind (.req (.inl g1)) fun _ _ => .bind (cacheNew_noErr ht) fun cc hcc => ?_
      obtain ⟨t', ht', rfl⟩ := cacheNew_ok.1 hcc
      exact .bind (.req (.inl g3)) fun _ _ => .bind (.req (.inl g2)) fun _ _ => .bind (.req (.inl g5)) fun _ _ =>
        .bind (.bind (.debit (.inl (Nat.zero_le _))) fun _ _ => .ok _) fun _ _ => .ok _
  | claimRewards c =>
    show (∃ w', claimRewards w c = .ok w') ↔ Manager w c ∧ (w.st.state = .active ∧ w.st.lsToken ≠ none) ∧ w.st.delegList ≠ []
    rw [manager_iff]
    constructor
    · rintro ⟨w', h⟩
      obtain ⟨g1, g2, g3, g4, g5, _⟩ := claimRewards_ok h
      exact ⟨⟨g1, g3⟩, ⟨g2, g4⟩, g5⟩
    · rintro ⟨⟨g1, g3⟩, ⟨g2, g4⟩, g5⟩
      obtain ⟨t, ht⟩ := ls_some.1 g4
      apply NoErr.all
      intro e
      unfold claimRewards registerPromise
      refine .bind (.req (.inl g1)) fun _ _ => .bind (cacheNew_noErr ht) fun cc hcc => ?_
      obtain ⟨t', ht', rfl⟩ := cacheNew_ok.1 hcc
      exact .bind (.req (.inl g3)) fun _ _ => .bind (.req (.inl g2)) fun _ _ => .bind (.req (.inl g5)) fun _ _ =>
        .bind (.bind (.debit (.inl (Nat.zero_le _))) fun _ _ => .ok _) fun _ _ => .ok _
  | claimFees c ok =>
    show (∃ w', claimFees w c ok = .ok w') ↔
      c ≠ w.self ∧ w.st.lsToken ≠ none ∧ 0 < w.st.r.fees ∧ w.st.accumulator ≠ w.self ∧ ok = true
    constructor
    · rintro ⟨w', h⟩
      obtain ⟨g1, g2, g3, g4, g5, _⟩ := claimFees_ok h
      exact ⟨g1, g5, g2, g3, g4⟩
    · rintro ⟨g1, g5, g2, g3, rfl⟩
      obtain ⟨t, ht⟩ := ls_some.1 g5
      apply NoErr.all
      intro e
      unfold claimFees claimFeesWith sendEgld
      refine .bind (.req (.inl g1)) fun _ _ => .bind (cacheNew_noErr ht) fun cc hcc => ?_
      obtain ⟨t', ht', rfl⟩ := cacheNew_ok.1 hcc
      refine .bind (.req (.inl g2)) fun _ _ => .bind (.req (.inl g3)) fun _ _ => .bind
        (.bind (.debit (.inl (by dsimp only; omega))) fun _ _ => .ok _) fun _ _ => .bind ?_ fun _ _ => .ok _
      dsimp only
      rw [if_pos rfl]; exact .ok _
  | whitelist c v p ad ts cap n apy =>
    show (∃ w', whitelist w c v p ad ts cap n apy = .ok w') ↔ Manager w c ∧ _
    rw [manager_iff]
    constructor
    · rintro ⟨w', h⟩
      obtain ⟨g1, g2, g3, g4, g5, g6, g7, g8, _⟩ := whitelist_ok h
      exact ⟨⟨g1, g2⟩, g3, g4, g5, g6, g7, g8⟩
    · rintro ⟨⟨g1, g2⟩, g3, g4, g5, g6, g7, g8⟩
      apply NoErr.all
      intro e
      unfold whitelist payEgld registerPromise
      refine .bind (.req (.inl g1)) fun _ _ => .bind (.bind (.debit (.inl g8)) fun _ _ => .ok _) fun w0 hw0 => ?_
      simp only [bind_ok, Except.ok.injEq] at hw0
      obtain ⟨m, hm, rfl⟩ := hw0
      refine .bind (.req (.inl g3)) fun _ _ => .bind (.req (.inl g4)) fun _ _ => .bind (.req (.inl g2)) fun _ _ =>
        .bind (.req (.inl g5)) fun _ _ => .bind (.req (.inl g6)) fun _ _ => .bind (.req (.inl g7)) fun _ _ => ?_
      refine .bind (.debit (.inl ?_)) fun _ _ => .ok _
      dsimp only
      rw [get_credit, if_pos rfl]
      omega
  | changeAdmin c p a =>
    show (∃ w', changeAdmin w c p a = .ok w') ↔ Manager w c ∧ w.st.data.get none p ≠ none
    rw [manager_iff]
    simp only [changeAdmin_ok, Option.ne_none_iff_exists']
    constructor
    · rintro ⟨w', g1, g2, d, hd, _⟩; exact ⟨⟨g1, g2⟩, d, hd⟩
    · rintro ⟨⟨g1, g2⟩, d, hd⟩; exact ⟨_, g1, g2, d, hd, rfl⟩
  | changeParams c p ts cap n apy el =>
    show (∃ w', changeParams w c p ts cap n apy el = .ok w') ↔ c ≠ w.self ∧ (ts ≤ cap ∨ cap = 0) ∧
      ∃ d, w.st.data.get none p = some d ∧ (d.admin = c ∨ c ∈ w.st.managers ∨ c = w.owner)
    simp only [changeParams_ok]
    have hm : isManager w c = true ↔ c ∈ w.st.managers ∨ c = w.owner := by unfold isManager; simp
    rw [hm]
    constructor
    · rintro ⟨w', g1, g2, d, hd, g3, _⟩; exact ⟨g1, g2, d, hd, g3⟩
    · rintro ⟨g1, g2, d, hd, g3⟩; exact ⟨_, g1, g2, d, hd, g3, rfl⟩
  | migrate c v o =>
    show (∃ w', migrate w c v o = .ok w') ↔ (c ≠ w.self ∧ w.st.migrationSc = some c ∧ c ≠ 0 ∧ c ∈ w.contracts) ∧
      w.st.lsToken ≠ none ∧ 0 < lsFor w.st.r.lsSupply w.st.r.reserve v
    simp only [migrate_ok, lsQuote_iff, ls_some]
    constructor
    · rintro ⟨w', g1, g2, g3, g4, t, l, ht, ⟨hl, rfl⟩, _⟩
      exact ⟨⟨g1, g2, g3, g4⟩, ⟨t, ht⟩, hl⟩
    · rintro ⟨⟨g1, g2, g3, g4⟩, ⟨t, ht⟩, hl⟩
      exact ⟨_, g1, g2, g3, g4, t, _, ht, ⟨hl, rfl⟩, rfl⟩
  | migratePending c v =>
    show (∃ w', migratePending w c v = .ok w') ↔ (c ≠ w.self ∧ w.st.migrationSc = some c ∧ c ≠ 0 ∧ c ∈ w.contracts) ∧
      w.st.lsToken ≠ none ∧ v ≤ w.egld.get 0 c
    rw [← debit_iff, ls_some]
    simp only [migratePending_ok]
    constructor
    · rintro ⟨w', g1, g2, g3, g4, t, m, ht, hm, _⟩
      exact ⟨⟨g1, g2, g3, g4⟩, ⟨t, ht⟩, m, hm⟩
    · rintro ⟨⟨g1, g2, g3, g4⟩, ⟨t, ht⟩, m, hm⟩
      exact ⟨_, g1, g2, g3, g4, t, m, ht, hm, rfl⟩
  | addRewards c v =>
    show (∃ w', addRewards w c v = .ok w') ↔ c ≠ w.self ∧ w.st.lsToken ≠ none ∧ v ≤ w.egld.get 0 c
    rw [← debit_iff, ls_some]
    simp only [addRewards_ok]
    constructor
    · rintro ⟨w', g1, t, m, ht, hm, _⟩
      exact ⟨g1, ⟨t, ht⟩, m, hm⟩
    · rintro ⟨g1, ⟨t, ht⟩, m, hm⟩
      exact ⟨_, g1, t, m, ht, hm, rfl⟩
  | setMigrationSc c a =>
    show (∃ w', setMigrationSc w c a = .ok w') ↔ c ≠ w.self ∧ c = w.owner ∧ a ∈ w.contracts
    simp only [setMigrationSc_ok]
    constructor
    · rintro ⟨w', g1, g2, g3, _⟩; exact ⟨g1, g2, g3⟩
    · rintro ⟨g1, g2, g3⟩; exact ⟨_, g1, g2, g3, rfl⟩
  | registerLsToken c v =>
    show (∃ w', registerLsToken w c v = .ok w') ↔
      c ≠ w.self ∧ c = w.owner ∧ w.st.lsToken = none ∧ w.st.lsPending = false ∧ v ≤ w.egld.get 0 c
    rw [← debit_iff]
    simp only [registerLsToken_ok]
    constructor
    · rintro ⟨w', g1, g2, g3, g4, m, hm, _⟩; exact ⟨g1, g2, g3, g4, m, hm⟩
    · rintro ⟨g1, g2, g3, g4, m, hm⟩; exact ⟨_, g1, g2, g3, g4, m, hm, rfl⟩
  | registerUnstakeToken c v =>
    show (∃ w', registerUnstakeToken w c v = .ok w') ↔
      c ≠ w.self ∧ c = w.owner ∧ w.st.unstakeToken = none ∧ w.st.unstakePending = false ∧ v ≤ w.egld.get 0 c
    rw [← debit_iff]
    simp only [registerUnstakeToken_ok]
    constructor
    · rintro ⟨w', g1, g2, g3, g4, m, hm, _⟩; exact ⟨g1, g2, g3, g4, m, hm⟩
    · rintro ⟨g1, g2, g3, g4, m, hm⟩; exact ⟨_, g1, g2, g3, g4, m, hm, rfl⟩
  | owner c cmd =>
    have h0 : (∃ w', step w (.owner c cmd) = .ok w') ↔ c ≠ w.self ∧ c = w.owner ∧ ∃ st, applyOwnerCmd w.st cmd = .ok st := by
      show (∃ w', ownerCmd w c cmd = .ok w') ↔ _
      simp only [ownerCmd_ok]
      constructor
      · rintro ⟨w', g1, g2, st, g3, _⟩; exact ⟨g1, g2, st, g3⟩
      · rintro ⟨g1, g2, st, g3⟩; exact ⟨_, g1, g2, st, g3, rfl⟩
    rw [h0]
    cases cmd <;> simp [Accepted, applyOwnerCmd, bind_ok, req_ok]
  | setScoringConfig c cfg =>
    show (∃ w', setScoringConfig w c cfg = .ok w') ↔ Manager w c ∧ _
    rw [manager_iff]
    simp only [setScoringConfig_ok]
    have hw : cfg.stakeWeight + cfg.apyWeight + cfg.nodesWeight = 100 ↔
        (cfg.stakeWeight.toNat + cfg.apyWeight.toNat + cfg.nodesWeight.toNat) % 2 ^ 64 = 100 := by
      rw [← UInt64.toNat_inj, UInt64.toNat_add, UInt64.toNat_add]
      simp
    rw [hw]
    constructor
    · rintro ⟨w', g1, g2, g3, _⟩; exact ⟨⟨g1, g2⟩, g3⟩
    · rintro ⟨⟨g1, g2⟩, g3⟩; exact ⟨_, g1, g2, g3, rfl⟩
  | viewLsValue l =>
    show (∃ w', step w (.viewLsValue l) = .ok w') ↔ w.st.lsToken ≠ none ∧ l ≤ w.st.r.lsSupply ∧
      0 < egldFor w.st.r.lsSupply w.st.r.reserve l
    simp only [step, bind_ok, Prod.exists, viewLsValue_ok, EgldQuote, Except.ok.injEq]
    constructor
    · rintro ⟨w', e, _, ⟨g1, ⟨g2, g3, g4, rfl⟩, _⟩, _⟩; exact ⟨g1, g2, g4⟩
    · rintro ⟨g1, g2, g3⟩
      refine ⟨_, _, _, ⟨g1, ⟨g2, ?_, g3, rfl⟩, rfl⟩, rfl⟩
      intro h0
      unfold egldFor at g3
      rw [h0, Nat.div_zero] at g3
      omega
  | viewEgldPosition e =>
    show (∃ w', step w (.viewEgldPosition e) = .ok w') ↔ w.st.lsToken ≠ none ∧ 0 < lsFor w.st.r.lsSupply w.st.r.reserve e
    simp only [step, bind_ok, Prod.exists, viewEgldPosition_ok, lsQuote_iff, Except.ok.injEq]
    constructor
    · rintro ⟨w', l, _, ⟨g1, ⟨g2, rfl⟩, _⟩, _⟩; exact ⟨g1, g2⟩
    · rintro ⟨g1, g2⟩
      exact ⟨_, _, _, ⟨g1, ⟨g2, rfl⟩, rfl⟩, rfl⟩
  | deliver i o =>
    show (∃ w', deliver w i o = .ok w') ↔ i < w.flights.length
    unfold deliver
    cases hf : w.flights[i]? with
    | none =>
      have := List.getElem?_eq_none_iff.1 hf
      simp only [reduceCtorEq, exists_false, false_iff]; omega
    | some f =>
      have := (List.getElem?_eq_some_iff.1 hf).1
      simp only [this, iff_true]
      split <;> exact ⟨_, rfl⟩
  | starve i o =>
    show (∃ w', starve w i o = .ok w') ↔ i < w.flights.length
    unfold starve
    cases hf : w.flights[i]? with
    | none =>
      have := List.getElem?_eq_none_iff.1 hf
      simp only [reduceCtorEq, exists_false, false_iff]; omega
    | some f =>
      have := (List.getElem?_eq_some_iff.1 hf).1
      simp only [this, iff_true]
      exact ⟨_, rfl⟩
  | issued i o =>
    show (∃ w', issued w i o = .ok w') ↔ _
    simp only [issued_ok]
    have hk : ∀ k : TokenKind, tokenOf w.st k.other = if k = .ls then w.st.unstakeToken else w.st.lsToken := by
      intro k; cases k <;> rfl
    constructor
    · rintro ⟨w', x, E, g1, g2, _⟩
      exact ⟨x, g1, by rw [← hk]; exact g2⟩
    · rintro ⟨x, g1, g2⟩
      rw [← hk] at g2
      obtain ⟨E, hE⟩ : ∃ E, if o = none then ∃ m, debit (credit w.egld w.self x.cost) w.self x.cost = .ok m ∧
          E = credit m x.caller x.cost else E = w.egld := by
        by_cases ho : o = none
        · simp only [if_pos ho]
          refine ⟨_, _, debit_ok.2 ⟨?_, rfl⟩, rfl⟩
          rw [get_credit, if_pos rfl]; omega
        · simp only [if_neg ho]
          exact ⟨_, rfl⟩
      exact ⟨_, x, E, g1, g2, hE, rfl⟩
  | transferLs s d v =>
    show (∃ w', transferLs w s d v = .ok w') ↔ s ≠ w.self ∧ d ≠ w.self ∧ v ≤ w.ls.get 0 s
    rw [← debit_iff]
    simp only [transferLs_ok]
    constructor
    · rintro ⟨w', g1, g2, m, hm, _⟩; exact ⟨g1, g2, m, hm⟩
    · rintro ⟨g1, g2, m, hm⟩; exact ⟨_, g1, g2, m, hm, rfl⟩
  | transferNft s d n v =>
    show (∃ w', transferNft w s d n v = .ok w') ↔ s ≠ w.self ∧ d ≠ w.self ∧ v ≤ w.nft.get 0 (n, s)
    rw [← debit_iff]
    simp only [transferNft_ok]
    constructor
    · rintro ⟨w', g1, g2, m, hm, _⟩; exact ⟨g1, g2, m, hm⟩
    · rintro ⟨g1, g2, m, hm⟩; exact ⟨_, g1, g2, m, hm, rfl⟩
  | fund a v =>
    show (∃ w', fund w a v = .ok w') ↔ a ≠ w.self
    simp only [fund_ok]
    constructor
    · rintro ⟨w', g1, _⟩; exact g1
    · intro g1; exact ⟨_, g1, rfl⟩
  | advance e =>
    show (∃ w', advance w e = .ok w') ↔ w.epoch ≤ e
    simp only [advance_ok]
    constructor
    · rintro ⟨w', g1, _⟩; exact g1
    · intro g1; exact ⟨_, g1, rfl⟩
  | changeOwner c d =>
    show (∃ w', changeOwner w c d = .ok w') ↔ c ≠ w.self ∧ c = w.owner
    simp only [changeOwner_ok]
    constructor
    · rintro ⟨w', g1, g2, _⟩; exact ⟨g1, g2⟩
    · rintro ⟨g1, g2⟩; exact ⟨_, g1, g2, rfl⟩
  | transferEgld s d v =>
    show (∃ w', transferEgld w s d v = .ok w') ↔ s ≠ w.self ∧ d ≠ w.self ∧ v ≤ w.egld.get 0 s
    rw [← debit_iff]
    simp only [transferEgld_ok]
    constructor
    · rintro ⟨w', g1, g2, m, hm, _⟩; exact ⟨g1, g2, m, hm⟩
    · rintro ⟨g1, g2, m, hm⟩; exact ⟨_, g1, g2, m, hm, rfl⟩
  | giveEgld s v =>
    show (∃ w', giveEgld w s v = .ok w') ↔ s ≠ w.self ∧ s ∈ w.contracts ∧ v ≤ w.egld.get 0 s
    rw [← debit_iff]
    simp only [giveEgld_ok]
    constructor
    · rintro ⟨w', g1, g2, m, hm, _⟩; exact ⟨g1, g2, m, hm⟩
    · rintro ⟨g1, g2, m, hm⟩; exact ⟨_, g1, g2, m, hm, rfl⟩
  | giveLs s v =>
    show (∃ w', giveLs w s v = .ok w') ↔ s ≠ w.self ∧ s ∈ w.contracts ∧ v ≤ w.ls.get 0 s
    rw [← debit_iff]
    simp only [giveLs_ok]
    constructor
    · rintro ⟨w', g1, g2, m, hm, _⟩; exact ⟨g1, g2, m, hm⟩
    · rintro ⟨g1, g2, m, hm⟩; exact ⟨_, g1, g2, m, hm, rfl⟩
  | giveUnstake s n v =>
    show (∃ w', giveUnstake w s n v = .ok w') ↔ s ≠ w.self ∧ s ∈ w.contracts ∧ v ≤ w.nft.get 0 (n, s)
    rw [← debit_iff]
    simp only [giveUnstake_ok]
    constructor
    · rintro ⟨w', g1, g2, m, hm, _⟩; exact ⟨g1, g2, m, hm⟩
    · rintro ⟨g1, g2, m, hm⟩; exact ⟨_, g1, g2, m, hm, rfl⟩
  | burnLs a v =>
    show (∃ w', holderBurnLs w a v = .ok w') ↔ a ≠ w.self ∧ v ≤ w.ls.get 0 a
    rw [← debit_iff]
    simp only [holderBurnLs_ok]
    constructor
    · rintro ⟨w', g1, m, hm, _⟩; exact ⟨g1, m, hm⟩
    · rintro ⟨g1, m, hm⟩; exact ⟨_, g1, m, hm, rfl⟩
  | burnUnstake a n v =>
    show (∃ w', holderBurnNft w a n v = .ok w') ↔ a ≠ w.self ∧ v ≤ w.nft.get 0 (n, a)
    rw [← debit_iff]
    simp only [holderBurnNft_ok]
    constructor
    · rintro ⟨w', g1, m, hm, _⟩; exact ⟨g1, m, hm⟩
    · rintro ⟨g1, m, hm⟩; exact ⟨_, g1, m, hm, rfl⟩

/-- A busy history meets the hypotheses; in it some transactions of each kind are accepted and some refused. -/
example : ReachableBy HonestManager (run fresh busy) ∧ (run fresh busy).st.delegList.length < 2 ^ 32 ∧
    (run fresh busy).st.undelegList.length < 2 ^ 32 ∧ (run fresh busy).st.maxSelectedProviders < 2 ^ 32 ∧
    works (run fresh busy) (.delegatePending 1 none) = true ∧ works (run fresh busy) (.delegatePending 1 (some 5)) = false ∧
    works (run fresh busy) (.unDelegatePending 1 none) = false ∧ works (run fresh busy) (.claimFees 99 true) = true :=
  ⟨reachableBy_honest (by decide +kernel), by decide +kernel, by decide +kernel, by decide +kernel, by decide +kernel,
    by decide +kernel, by decide +kernel, by decide +kernel⟩

/-- One provider per batch, and the cap of the second in the rotation lowered below its stake. -/
private def narrow : World := run deposited [.owner 1 (.maxSelected 1), .changeParams 42 22 0 5 20 900 true]

/-- A provider that is not looked at does no harm, whatever its record; one that is looked at stops the batch. -/
example : works narrow (.delegatePending 1 none) = true ∧ narrow.st.delegList = [21, 22] ∧ 5 < netStake narrow 22 ∧
    works (run narrow [.delegatePending 1 (some (E 20))]) (.delegatePending 1 none) = false ∧
    (run narrow [.delegatePending 1 (some (E 20))]).st.delegList = [22, 21] := by
  refine ⟨?_, ?_, ?_, ?_, ?_⟩ <;> decide +kernel

end LS
