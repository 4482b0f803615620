import Verif.Proofs.WithdrawLemmas
import Verif.Proofs.BatchLemmas

/-! Inversion lemmas for the remaining endpoints and for the callbacks. -/

namespace LS

theorem commit_same (w : World) (s : CState) (t : TokenId) : commit w ⟨s, t, w.st.r⟩ = w := rfl

theorem withdrawPending_ok {w w' : World} {caller p : Addr} (h : withdrawPending w caller p = .ok w') :
    caller ≠ w.self ∧ w.st.state = .active ∧ isManager w caller = true ∧ w.st.lsToken ≠ none ∧
    w.st.data.get none p ≠ none ∧ ∃ E, (∀ a, E.get 0 a = w.egld.get 0 a) ∧
      w' = { w with egld := E, flights := w.flights ++ [.withdraw p] } := by
  unfold withdrawPending at h
  simp only [bind_ok, requireUser_ok, requireActive_ok, requireManager_ok, req_ok, exists_const, cacheNew_ok,
    registerPromise_ok, Except.ok.injEq] at h
  obtain ⟨h1, c, ⟨t, ht, rfl⟩, h2, h3, h4, w1, ⟨m, hm, rfl⟩, rfl⟩ := h
  refine ⟨h1, h3, h2, by simp [ht], h4, m, ?_, rfl⟩
  intro a; rw [get_debit hm]; simp

theorem claimRewards_ok {w w' : World} {caller : Addr} (h : claimRewards w caller = .ok w') :
    caller ≠ w.self ∧ w.st.state = .active ∧ isManager w caller = true ∧ w.st.lsToken ≠ none ∧
    w.st.delegList ≠ [] ∧ ∃ E, (∀ a, E.get 0 a = w.egld.get 0 a) ∧
      w' = { w with egld := E, flights := w.flights ++ [.claim w.st.delegList] } := by
  unfold claimRewards at h
  simp only [bind_ok, requireUser_ok, requireActive_ok, requireManager_ok, req_ok, exists_const, cacheNew_ok,
    registerPromise_ok, Except.ok.injEq] at h
  obtain ⟨h1, c, ⟨t, ht, rfl⟩, h2, h3, h4, w1, ⟨m, hm, rfl⟩, rfl⟩ := h
  refine ⟨h1, h3, h2, by simp [ht], h4, m, ?_, rfl⟩
  intro a; rw [get_debit hm]; simp

theorem claimFees_ok {w w' : World} {caller : Addr} {acc : Bool} (h : claimFees w caller acc = .ok w') :
    caller ≠ w.self ∧ 0 < w.st.r.fees ∧ w.st.accumulator ≠ w.self ∧ acc = true ∧ w.st.lsToken ≠ none ∧
    ∃ m, debit w.egld w.self w.st.r.fees = .ok m ∧
      w' = { w with egld := credit m w.st.accumulator w.st.r.fees, st := { w.st with r := { w.st.r with fees := 0 } } } := by
  unfold claimFees claimFeesWith at h
  simp only [bind_ok, requireUser_ok, req_ok, exists_const, cacheNew_ok, sendEgld_ok, Except.ok.injEq] at h
  obtain ⟨h1, c, ⟨t, ht, rfl⟩, h2, h3, w1, ⟨m, hm, rfl⟩, w2, h4, rfl⟩ := h
  rw [ite_ok] at h4
  rcases h4 with ⟨h5, h4⟩ | ⟨_, h4⟩
  · simp only [Except.ok.injEq] at h4
    subst h4
    exact ⟨h1, h2, h3, h5, by simp [ht], m, hm, rfl⟩
  · simp at h4

theorem whitelist_ok {w w' : World} {caller : Addr} {v : Nat} {p admin : Addr} {ts cap : Nat} {nn apy : UInt64}
    (h : whitelist w caller v p admin ts cap nn apy = .ok w') :
    caller ≠ w.self ∧ isManager w caller = true ∧ w.st.delegList.length ≤ w.st.maxDelegationAddresses ∧
    w.st.undelegList.length ≤ w.st.maxDelegationAddresses ∧ w.st.data.get none p = none ∧ (ts ≤ cap ∨ cap = 0) ∧
    MIN_EGLD ≤ v ∧ v ≤ w.egld.get 0 caller ∧ ∃ E,
      E.get 0 w.self = w.egld.get 0 w.self ∧ E.get 0 caller + v = w.egld.get 0 caller ∧
      (∀ a, a ≠ w.self → a ≠ caller → E.get 0 a = w.egld.get 0 a) ∧
      w' = { w with
        egld := E, flights := w.flights ++ [.whitelist p v caller],
        st := { w.st with data := w.st.data.set p (some ⟨admin, ts, cap, nn, apy, 0, 0, true, 0, 0⟩) } } := by
  unfold whitelist at h
  simp only [bind_ok, requireUser_ok, requireManager_ok, req_ok, exists_const, payEgld_ok, registerPromise_ok] at h
  obtain ⟨h1, w0, ⟨m, hm, rfl⟩, h2, h3, h4, h5, h6, h7, m', hm', rfl⟩ := h
  have hle := debit_le hm
  refine ⟨h1, h4, h2, h3, h5, h6, h7, hle, m', ?_, ?_, ?_, rfl⟩
  · simp only at hm'
    rw [get_debit hm', if_pos rfl, get_credit, if_pos rfl, get_debit hm]
    simp [h1]
  · simp only at hm'
    rw [get_debit hm', get_credit, get_debit hm]
    simp [h1.symm]; omega
  · intro a ha1 ha2
    simp only at hm'
    rw [get_debit hm', get_credit, get_debit hm]
    simp [ha1.symm, ha2.symm]

theorem changeAdmin_ok {w w' : World} {caller p admin : Addr} : changeAdmin w caller p admin = .ok w' ↔
    caller ≠ w.self ∧ isManager w caller = true ∧ ∃ d, w.st.data.get none p = some d ∧
      w' = { w with st := { w.st with data := w.st.data.set p (some { d with admin := admin }) } } := by
  unfold changeAdmin
  simp only [bind_ok, requireUser_ok, requireManager_ok, req_ok, exists_const, updateData_ok, Except.ok.injEq]
  constructor
  · rintro ⟨h1, h2, h3, d, _, h4, rfl, rfl⟩; exact ⟨h1, h3, d, h4, rfl⟩
  · rintro ⟨h1, h3, d, h4, rfl⟩; exact ⟨h1, by simp [h4], h3, d, _, h4, rfl, rfl⟩

theorem changeParams_ok {w w' : World} {caller p : Addr} {ts cap : Nat} {nn apy : UInt64} {el : Bool} :
    changeParams w caller p ts cap nn apy el = .ok w' ↔
    caller ≠ w.self ∧ (ts ≤ cap ∨ cap = 0) ∧ ∃ d, w.st.data.get none p = some d ∧
      (d.admin = caller ∨ isManager w caller = true) ∧
      w' = { w with st := { w.st with
          data := w.st.data.set p (some { d with totalStaked := ts, cap := cap, nrNodes := nn, apy := apy, eligible := el }) } } := by
  unfold changeParams
  simp only [bind_ok, requireUser_ok, getData_ok, req_ok, exists_const, updateData_ok, Except.ok.injEq]
  constructor
  · rintro ⟨h1, old, h2, h3, h4, h5, d, _, h6, rfl, rfl⟩
    rw [h2] at h6
    simp only [Option.some.injEq] at h6
    subst h6
    exact ⟨h1, h5, old, h2, h4, rfl⟩
  · rintro ⟨h1, h5, d, h6, h4, rfl⟩; exact ⟨h1, d, h6, by simp [h6], h4, h5, d, _, h6, rfl, rfl⟩

theorem requireMigration_ok {w : World} {caller : Addr} {u : Unit} : requireMigration w caller = .ok u ↔
    w.st.migrationSc = some caller ∧ caller ≠ 0 ∧ caller ∈ w.contracts := by
  unfold requireMigration
  cases h : w.st.migrationSc with
  | none => simp
  | some m =>
    simp only [bind_ok, req_ok, exists_const, Option.some.injEq]
    constructor
    · rintro ⟨h1, rfl, h3⟩; exact ⟨rfl, h1, h3⟩
    · rintro ⟨rfl, h1, h3⟩; exact ⟨h1, rfl, h3⟩

theorem migrate_ok {w w' : World} {caller : Addr} {v : Nat} {orig : Addr} : migrate w caller v orig = .ok w' ↔
    caller ≠ w.self ∧ w.st.migrationSc = some caller ∧ caller ≠ 0 ∧ caller ∈ w.contracts ∧ ∃ t l,
      w.st.lsToken = some t ∧ LsQuote w.st.r v l ∧
      w' = { commit (emit { w with ls := mintTo w.ls w.self caller l }
          ⟨w.st.state, t, { w.st.r with lsSupply := w.st.r.lsSupply + l, reserve := w.st.r.reserve + v }⟩
          (.addLiquidity v) orig)
          ⟨w.st.state, t, { w.st.r with lsSupply := w.st.r.lsSupply + l, reserve := w.st.r.reserve + v }⟩ with
        migratedVirtual := w.migratedVirtual + v } := by
  unfold migrate
  simp only [bind_ok, requireUser_ok, exists_const, cacheNew_ok, requireMigration_ok, Prod.exists, poolAdd_ok,
    Except.ok.injEq]
  have key : ∀ (c : Cache) (l : Nat) (w2 : World),
      sendLs (emit (mintLs w l) c (.addLiquidity v) orig) caller l = .ok w2 ↔
      w2 = emit { w with ls := mintTo w.ls w.self caller l } c (.addLiquidity v) orig := by
    intro c l w2
    have := mintLs_sendLs (w := emit w c (.addLiquidity v) orig) (dst := caller) (l := l) (w' := w2)
    exact this
  simp only [key]
  constructor
  · rintro ⟨h1, c, ⟨t, ht, rfl⟩, ⟨h2, h3, h4⟩, l, c1, ⟨hq, rfl⟩, w2, rfl, rfl⟩
    exact ⟨h1, h2, h3, h4, t, l, ht, hq, rfl⟩
  · rintro ⟨h1, h2, h3, h4, t, l, ht, hq, rfl⟩
    exact ⟨h1, _, ⟨t, ht, rfl⟩, ⟨h2, h3, h4⟩, l, _, ⟨hq, rfl⟩, _, rfl, rfl⟩

theorem migratePending_ok {w w' : World} {caller : Addr} {v : Nat} : migratePending w caller v = .ok w' ↔
    caller ≠ w.self ∧ w.st.migrationSc = some caller ∧ caller ≠ 0 ∧ caller ∈ w.contracts ∧ ∃ t m,
      w.st.lsToken = some t ∧ debit w.egld caller v = .ok m ∧
      w' = { commit (emit { w with egld := credit m w.self v }
          ⟨w.st.state, t, { w.st.r with pending := w.st.r.pending + v }⟩ .general caller)
          ⟨w.st.state, t, { w.st.r with pending := w.st.r.pending + v }⟩ with
        migratedPending := w.migratedPending + v } := by
  unfold migratePending
  simp only [bind_ok, requireUser_ok, exists_const, cacheNew_ok, requireMigration_ok, payEgld_ok, Except.ok.injEq]
  constructor
  · rintro ⟨h1, w0, ⟨m, hm, rfl⟩, c, ⟨t, ht, rfl⟩, ⟨h2, h3, h4⟩, rfl⟩
    exact ⟨h1, h2, h3, h4, t, m, ht, hm, rfl⟩
  · rintro ⟨h1, h2, h3, h4, t, m, ht, hm, rfl⟩
    exact ⟨h1, _, ⟨m, hm, rfl⟩, _, ⟨t, ht, rfl⟩, ⟨h2, h3, h4⟩, rfl⟩

theorem addRewards_ok {w w' : World} {caller : Addr} {v : Nat} : addRewards w caller v = .ok w' ↔
    caller ≠ w.self ∧ ∃ t m, w.st.lsToken = some t ∧ debit w.egld caller v = .ok m ∧
      w' = commit (emit { w with egld := credit m w.self v }
          ⟨w.st.state, t, { w.st.r with reserve := w.st.r.reserve + v, pending := w.st.r.pending + v }⟩ .general caller)
          ⟨w.st.state, t, { w.st.r with reserve := w.st.r.reserve + v, pending := w.st.r.pending + v }⟩ := by
  unfold addRewards
  simp only [bind_ok, requireUser_ok, exists_const, cacheNew_ok, payEgld_ok, Except.ok.injEq]
  constructor
  · rintro ⟨h1, w0, ⟨m, hm, rfl⟩, c, ⟨t, ht, rfl⟩, rfl⟩
    exact ⟨h1, t, m, ht, hm, rfl⟩
  · rintro ⟨h1, t, m, ht, hm, rfl⟩
    exact ⟨h1, _, ⟨m, hm, rfl⟩, _, ⟨t, ht, rfl⟩, rfl⟩

theorem setMigrationSc_ok {w w' : World} {caller a : Addr} : setMigrationSc w caller a = .ok w' ↔
    caller ≠ w.self ∧ caller = w.owner ∧ a ∈ w.contracts ∧ w' = { w with st := { w.st with migrationSc := some a } } := by
  unfold setMigrationSc
  simp only [bind_ok, requireUser_ok, requireOwner_ok, req_ok, exists_const, Except.ok.injEq, eq_comm (a := w')]

theorem registerLsToken_ok {w w' : World} {caller : Addr} {v : Nat} :
    registerLsToken w caller v = .ok w' ↔ caller ≠ w.self ∧ caller = w.owner ∧ w.st.lsToken = none ∧ w.st.lsPending = false ∧
      ∃ m, debit w.egld caller v = .ok m ∧
      w' = { w with egld := m, st := { w.st with lsPending := true }, issues := w.issues ++ [⟨.ls, caller, v⟩] } := by
  unfold registerLsToken
  simp only [bind_ok, requireUser_ok, requireOwner_ok, req_ok, exists_const, Except.ok.injEq]
  constructor
  · rintro ⟨h1, m, hm, h2, ⟨h3, h4⟩, rfl⟩; exact ⟨h1, h2, h3, h4, m, hm, rfl⟩
  · rintro ⟨h1, h2, h3, h4, m, hm, rfl⟩; exact ⟨h1, m, hm, h2, ⟨h3, h4⟩, rfl⟩

theorem registerUnstakeToken_ok {w w' : World} {caller : Addr} {v : Nat} :
    registerUnstakeToken w caller v = .ok w' ↔ caller ≠ w.self ∧ caller = w.owner ∧ w.st.unstakeToken = none ∧
      w.st.unstakePending = false ∧ ∃ m, debit w.egld caller v = .ok m ∧
      w' = { w with egld := m, st := { w.st with unstakePending := true }, issues := w.issues ++ [⟨.unstake, caller, v⟩] } := by
  unfold registerUnstakeToken
  simp only [bind_ok, requireUser_ok, requireOwner_ok, req_ok, exists_const, Except.ok.injEq]
  constructor
  · rintro ⟨h1, m, hm, h2, ⟨h3, h4⟩, rfl⟩; exact ⟨h1, h2, h3, h4, m, hm, rfl⟩
  · rintro ⟨h1, h2, h3, h4, m, hm, rfl⟩; exact ⟨h1, m, hm, h2, ⟨h3, h4⟩, rfl⟩

theorem issued_ok {w w' : World} {i : Nat} {o : Option TokenId} : issued w i o = .ok w' ↔
    ∃ x E, w.issues[i]? = some x ∧ (o = none ∨ tokenOf w.st x.kind.other ≠ o) ∧
      (if o = none then ∃ m, debit (credit w.egld w.self x.cost) w.self x.cost = .ok m ∧ E = credit m x.caller x.cost
        else E = w.egld) ∧
      w' = { w with issues := w.issues.eraseIdx i, egld := E, st := setToken w.st x.kind o } := by
  unfold issued
  cases hx : w.issues[i]? with
  | none => simp
  | some x =>
    simp only [bind_ok, req_ok, exists_const, Option.some.injEq]
    cases o with
    | none =>
      simp only [issueCb, if_true, sendEgld, bind_ok, Except.ok.injEq]
      constructor
      · rintro ⟨h1, w1, ⟨m, hm, rfl⟩, rfl⟩; exact ⟨x, _, rfl, h1, ⟨m, hm, rfl⟩, rfl⟩
      · rintro ⟨_, E, rfl, h1, ⟨m, hm, rfl⟩, rfl⟩; exact ⟨h1, _, ⟨m, hm, rfl⟩, rfl⟩
    | some t =>
      simp only [issueCb, Except.ok.injEq, reduceCtorEq, if_false]
      constructor
      · rintro ⟨h1, rfl⟩; exact ⟨x, _, rfl, h1, rfl, rfl⟩
      · rintro ⟨_, E, rfl, h1, rfl, rfl⟩; exact ⟨h1, rfl⟩

theorem ownerCmd_ok {w w' : World} {caller : Addr} {cmd : OwnerCmd} : ownerCmd w caller cmd = .ok w' ↔
    caller ≠ w.self ∧ caller = w.owner ∧ ∃ st, applyOwnerCmd w.st cmd = .ok st ∧ w' = { w with st := st } := by
  unfold ownerCmd
  simp only [bind_ok, requireUser_ok, requireOwner_ok, exists_const, Except.ok.injEq]
  constructor
  · rintro ⟨h1, h2, st, h3, rfl⟩; exact ⟨h1, h2, st, h3, rfl⟩
  · rintro ⟨h1, h2, st, h3, rfl⟩; exact ⟨h1, h2, st, h3, rfl⟩

/-- The setters only touch configuration. -/
theorem applyOwnerCmd_ok {st st' : Store} {cmd : OwnerCmd} (h : applyOwnerCmd st cmd = .ok st') :
    ∃ s fr acc mr ma ms ub mg, st' = { st with
      state := s, feeRate := fr, accumulator := acc, minimumRounds := mr, maxDelegationAddresses := ma,
      maxSelectedProviders := ms, unbondPeriod := ub, managers := mg } := by
  cases cmd <;> simp only [applyOwnerCmd, bind_ok, req_ok, exists_const, Except.ok.injEq] at h
  case maxAddresses => obtain ⟨_, rfl⟩ := h; exact ⟨_, _, _, _, _, _, _, _, rfl⟩
  case maxSelected => obtain ⟨_, rfl⟩ := h; exact ⟨_, _, _, _, _, _, _, _, rfl⟩
  all_goals subst h; exact ⟨_, _, _, _, _, _, _, _, rfl⟩

theorem setScoringConfig_ok {w w' : World} {caller : Addr} {cfg : ScoringConfig} :
    setScoringConfig w caller cfg = .ok w' ↔ caller ≠ w.self ∧ isManager w caller = true ∧
      cfg.stakeWeight + cfg.apyWeight + cfg.nodesWeight = 100 ∧ w' = { w with st := { w.st with scoring := some cfg } } := by
  unfold setScoringConfig
  simp only [bind_ok, requireUser_ok, requireManager_ok, req_ok, exists_const, Except.ok.injEq, eq_comm (a := w')]

theorem viewLsValue_ok {w w' : World} {l e : Nat} : viewLsValue w l = .ok (e, w') ↔
    w.st.lsToken ≠ none ∧ EgldQuote w.st.r l e ∧ w' = w := by
  unfold viewLsValue
  simp only [bind_ok, cacheNew_ok, getEgldAmount_ok, Except.ok.injEq, Prod.mk.injEq]
  constructor
  · rintro ⟨c, ⟨t, ht, rfl⟩, x, hq, rfl, rfl⟩; exact ⟨by simp [ht], hq, rfl⟩
  · rintro ⟨h, hq, rfl⟩
    cases ht : w'.st.lsToken with
    | none => exact absurd ht h
    | some t => exact ⟨_, ⟨t, rfl, rfl⟩, e, hq, rfl, rfl⟩

theorem viewEgldPosition_ok {w w' : World} {l e : Nat} : viewEgldPosition w e = .ok (l, w') ↔
    w.st.lsToken ≠ none ∧ LsQuote w.st.r e l ∧ w' = w := by
  unfold viewEgldPosition
  simp only [bind_ok, cacheNew_ok, getLsAmount_ok, Except.ok.injEq, Prod.mk.injEq]
  constructor
  · rintro ⟨c, ⟨t, ht, rfl⟩, x, hq, rfl, rfl⟩; exact ⟨by simp [ht], hq, rfl⟩
  · rintro ⟨h, hq, rfl⟩
    cases ht : w'.st.lsToken with
    | none => exact absurd ht h
    | some t => exact ⟨_, ⟨t, rfl, rfl⟩, l, hq, rfl, rfl⟩

theorem transferLs_ok {w w' : World} {src dst : Addr} {v : Nat} : transferLs w src dst v = .ok w' ↔
    src ≠ w.self ∧ dst ≠ w.self ∧ ∃ m, debit w.ls src v = .ok m ∧ w' = { w with ls := credit m dst v } := by
  unfold transferLs
  simp only [bind_ok, requireUser_ok, exists_const, Except.ok.injEq]
  constructor
  · rintro ⟨h1, h2, m, h3, rfl⟩; exact ⟨h1, h2, m, h3, rfl⟩
  · rintro ⟨h1, h2, m, h3, rfl⟩; exact ⟨h1, h2, m, h3, rfl⟩

theorem transferNft_ok {w w' : World} {src dst : Addr} {n v : Nat} : transferNft w src dst n v = .ok w' ↔
    src ≠ w.self ∧ dst ≠ w.self ∧ ∃ m, debit w.nft (n, src) v = .ok m ∧ w' = { w with nft := credit m (n, dst) v } := by
  unfold transferNft
  simp only [bind_ok, requireUser_ok, exists_const, Except.ok.injEq]
  constructor
  · rintro ⟨h1, h2, m, h3, rfl⟩; exact ⟨h1, h2, m, h3, rfl⟩
  · rintro ⟨h1, h2, m, h3, rfl⟩; exact ⟨h1, h2, m, h3, rfl⟩

theorem transferEgld_ok {w w' : World} {src dst : Addr} {v : Nat} : transferEgld w src dst v = .ok w' ↔
    src ≠ w.self ∧ dst ≠ w.self ∧ ∃ m, debit w.egld src v = .ok m ∧ w' = { w with egld := credit m dst v } := by
  unfold transferEgld
  simp only [bind_ok, requireUser_ok, exists_const, Except.ok.injEq]
  constructor
  · rintro ⟨h1, h2, m, h3, rfl⟩; exact ⟨h1, h2, m, h3, rfl⟩
  · rintro ⟨h1, h2, m, h3, rfl⟩; exact ⟨h1, h2, m, h3, rfl⟩

theorem giveEgld_ok {w w' : World} {src : Addr} {v : Nat} : giveEgld w src v = .ok w' ↔
    src ≠ w.self ∧ src ∈ w.contracts ∧ ∃ m, debit w.egld src v = .ok m ∧
      w' = { w with egld := credit m w.self v } := by
  unfold giveEgld
  simp only [bind_ok, requireUser_ok, req_ok, exists_const, Except.ok.injEq]
  constructor
  · rintro ⟨h1, h2, m, h3, rfl⟩; exact ⟨h1, h2, m, h3, rfl⟩
  · rintro ⟨h1, h2, m, h3, rfl⟩; exact ⟨h1, h2, m, h3, rfl⟩

theorem giveLs_ok {w w' : World} {src : Addr} {v : Nat} : giveLs w src v = .ok w' ↔
    src ≠ w.self ∧ src ∈ w.contracts ∧ ∃ m, debit w.ls src v = .ok m ∧
      w' = { w with ls := credit m w.self v } := by
  unfold giveLs
  simp only [bind_ok, requireUser_ok, req_ok, exists_const, Except.ok.injEq]
  constructor
  · rintro ⟨h1, h2, m, h3, rfl⟩; exact ⟨h1, h2, m, h3, rfl⟩
  · rintro ⟨h1, h2, m, h3, rfl⟩; exact ⟨h1, h2, m, h3, rfl⟩

theorem giveUnstake_ok {w w' : World} {src : Addr} {n v : Nat} : giveUnstake w src n v = .ok w' ↔
    src ≠ w.self ∧ src ∈ w.contracts ∧ ∃ m, debit w.nft (n, src) v = .ok m ∧
      w' = { w with nft := credit m (n, w.self) v, burntUnstake := w.burntUnstake + v } := by
  unfold giveUnstake
  simp only [bind_ok, requireUser_ok, req_ok, exists_const, Except.ok.injEq]
  constructor
  · rintro ⟨h1, h2, m, h3, rfl⟩; exact ⟨h1, h2, m, h3, rfl⟩
  · rintro ⟨h1, h2, m, h3, rfl⟩; exact ⟨h1, h2, m, h3, rfl⟩

theorem fund_ok {w w' : World} {a : Addr} {v : Nat} : fund w a v = .ok w' ↔
    a ≠ w.self ∧ w' = { w with egld := credit w.egld a v } := by
  unfold fund
  simp only [bind_ok, requireUser_ok, exists_const, Except.ok.injEq, eq_comm (a := w')]

theorem advance_ok {w w' : World} {e : UInt64} : advance w e = .ok w' ↔ w.epoch ≤ e ∧ w' = { w with epoch := e } := by
  unfold advance
  simp only [bind_ok, req_ok, exists_const, Except.ok.injEq, eq_comm (a := w')]

theorem changeOwner_ok {w w' : World} {c d : Addr} : changeOwner w c d = .ok w' ↔ c ≠ w.self ∧ c = w.owner ∧ w' = { w with owner := d } := by
  unfold changeOwner
  simp only [bind_ok, requireUser_ok, requireOwner_ok, exists_const, Except.ok.injEq, eq_comm (a := w')]

theorem holderBurnLs_ok {w w' : World} {a : Addr} {v : Nat} : holderBurnLs w a v = .ok w' ↔
    a ≠ w.self ∧ ∃ m, debit w.ls a v = .ok m ∧ w' = { w with ls := m, burntLs := w.burntLs + v } := by
  unfold holderBurnLs
  simp only [bind_ok, requireUser_ok, exists_const, Except.ok.injEq, eq_comm (a := w')]

theorem holderBurnNft_ok {w w' : World} {a : Addr} {n v : Nat} : holderBurnNft w a n v = .ok w' ↔
    a ≠ w.self ∧ ∃ m, debit w.nft (n, a) v = .ok m ∧ w' = { w with nft := m, burntUnstake := w.burntUnstake + v } := by
  unfold holderBurnNft
  simp only [bind_ok, requireUser_ok, exists_const, Except.ok.injEq, eq_comm (a := w')]

/-! ### Callbacks -/

theorem addLiquidityCb_true_ok {w w' : World} {p : Addr} {a : Nat} : addLiquidityCb w p a true = .ok w' ↔
    w.st.lsToken ≠ none ∧ ∃ d, w.st.data.get none p = some d ∧ a ≤ d.pStake ∧
      w' = { w with st := { w.st with
          data := w.st.data.set p (some { d with staked := d.staked + a, pStake := d.pStake - a }) } } := by
  unfold addLiquidityCb
  simp only [bind_ok, cacheNew_ok, if_true, updateData_ok, csub_ok, Except.ok.injEq]
  constructor
  · rintro ⟨c, ⟨t, ht, rfl⟩, w1, ⟨d, d', h1, ⟨s, ⟨h2, rfl⟩, rfl⟩, rfl⟩, rfl⟩
    exact ⟨by simp [ht], d, h1, h2, rfl⟩
  · rintro ⟨h, d, h1, h2, rfl⟩
    cases ht : w.st.lsToken with
    | none => exact absurd ht h
    | some t => exact ⟨_, ⟨t, rfl, rfl⟩, _, ⟨d, _, h1, ⟨_, ⟨h2, rfl⟩, rfl⟩, rfl⟩, by simp [commit, ht]⟩

theorem addLiquidityCb_false_ok {w w' : World} {p : Addr} {a : Nat} : addLiquidityCb w p a false = .ok w' ↔
    ∃ t d, w.st.lsToken = some t ∧ w.st.data.get none p = some d ∧ a ≤ d.pStake ∧
      w' = commit (emit { w with st := { w.st with
          data := w.st.data.set p (some { d with eligible := false, pStake := d.pStake - a }) } }
        ⟨w.st.state, t, { w.st.r with pending := w.st.r.pending + a }⟩ .general p)
        ⟨w.st.state, t, { w.st.r with pending := w.st.r.pending + a }⟩ := by
  unfold addLiquidityCb
  simp only [bind_ok, cacheNew_ok, Bool.false_eq_true, if_false, updateData_ok, csub_ok, Except.ok.injEq]
  constructor
  · rintro ⟨c, ⟨t, ht, rfl⟩, w1, ⟨d, d', h1, ⟨s, ⟨h2, rfl⟩, rfl⟩, rfl⟩, rfl⟩
    exact ⟨t, d, ht, h1, h2, rfl⟩
  · rintro ⟨t, d, ht, h1, h2, rfl⟩
    exact ⟨_, ⟨t, ht, rfl⟩, _, ⟨d, _, h1, ⟨_, ⟨h2, rfl⟩, rfl⟩, rfl⟩, rfl⟩

theorem removeLiquidityCb_true_ok {w w' : World} {p : Addr} {a : Nat} : removeLiquidityCb w p a true = .ok w' ↔
    ∃ t d, w.st.lsToken = some t ∧ w.st.data.get none p = some d ∧ a ≤ d.staked ∧ a ≤ d.pUnstake ∧
      w' = commit (emit { w with st := { w.st with
          data := w.st.data.set p (some { d with staked := d.staked - a, unstaked := d.unstaked + a, pUnstake := d.pUnstake - a }) } }
        ⟨w.st.state, t, { w.st.r with toUnbond := w.st.r.toUnbond + a }⟩ .general p)
        ⟨w.st.state, t, { w.st.r with toUnbond := w.st.r.toUnbond + a }⟩ := by
  unfold removeLiquidityCb
  simp only [bind_ok, cacheNew_ok, if_true, updateData_ok, csub_ok, Except.ok.injEq]
  constructor
  · rintro ⟨c, ⟨t, ht, rfl⟩, w1, ⟨d, d', h1, ⟨s, ⟨h2, rfl⟩, u, ⟨h3, rfl⟩, rfl⟩, rfl⟩, rfl⟩
    exact ⟨t, d, ht, h1, h2, h3, rfl⟩
  · rintro ⟨t, d, ht, h1, h2, h3, rfl⟩
    exact ⟨_, ⟨t, ht, rfl⟩, _, ⟨d, _, h1, ⟨_, ⟨h2, rfl⟩, _, ⟨h3, rfl⟩, rfl⟩, rfl⟩, rfl⟩

theorem removeLiquidityCb_false_ok {w w' : World} {p : Addr} {a : Nat} : removeLiquidityCb w p a false = .ok w' ↔
    ∃ t d, w.st.lsToken = some t ∧ w.st.data.get none p = some d ∧ a ≤ d.pUnstake ∧
      w' = commit (emit { w with st := { w.st with
          data := w.st.data.set p (some { d with pUnstake := d.pUnstake - a }) } }
        ⟨w.st.state, t, { w.st.r with toUnstake := w.st.r.toUnstake + a }⟩ .general p)
        ⟨w.st.state, t, { w.st.r with toUnstake := w.st.r.toUnstake + a }⟩ := by
  unfold removeLiquidityCb
  simp only [bind_ok, cacheNew_ok, Bool.false_eq_true, if_false, updateData_ok, csub_ok, Except.ok.injEq]
  constructor
  · rintro ⟨c, ⟨t, ht, rfl⟩, w1, ⟨d, d', h1, ⟨s, ⟨h2, rfl⟩, rfl⟩, rfl⟩, rfl⟩
    exact ⟨t, d, ht, h1, h2, rfl⟩
  · rintro ⟨t, d, ht, h1, h2, rfl⟩
    exact ⟨_, ⟨t, ht, rfl⟩, _, ⟨d, _, h1, ⟨_, ⟨h2, rfl⟩, rfl⟩, rfl⟩, rfl⟩

theorem withdrawTokensCb_ok {w w' : World} {p : Addr} {v : Nat} : withdrawTokensCb w p v = .ok w' ↔
    (v = 0 ∧ w' = w) ∨ (0 < v ∧ ∃ t d, w.st.lsToken = some t ∧ w.st.data.get none p = some d ∧ v ≤ d.unstaked ∧
      v ≤ w.st.r.toUnbond ∧
      w' = commit (emit { w with st := { w.st with
          data := w.st.data.set p (some { d with unstaked := d.unstaked - v }) } }
        ⟨w.st.state, t, { w.st.r with withdrawn := w.st.r.withdrawn + v, toUnbond := w.st.r.toUnbond - v }⟩
        (.withdrawPending v p) p)
        ⟨w.st.state, t, { w.st.r with withdrawn := w.st.r.withdrawn + v, toUnbond := w.st.r.toUnbond - v }⟩) := by
  unfold withdrawTokensCb
  rw [ite_ok]
  simp only [bind_ok, cacheNew_ok, updateData_ok, csub_ok, Except.ok.injEq]
  constructor
  · rintro (⟨h0, c, ⟨t, ht, rfl⟩, u, ⟨h1, rfl⟩, w1, ⟨d, d', h2, ⟨x, ⟨h3, rfl⟩, rfl⟩, rfl⟩, rfl⟩ | ⟨h0, rfl⟩)
    · exact .inr ⟨h0, t, d, ht, h2, h3, h1, rfl⟩
    · exact .inl ⟨by omega, rfl⟩
  · rintro (⟨h0, rfl⟩ | ⟨h0, t, d, ht, h2, h3, h1, rfl⟩)
    · exact .inr ⟨by omega, rfl⟩
    · exact .inl ⟨h0, _, ⟨t, ht, rfl⟩, _, ⟨h1, rfl⟩, _, ⟨d, _, h2, ⟨_, ⟨h3, rfl⟩, rfl⟩, rfl⟩, rfl⟩

theorem claimRewardsCb_ok {w w' : World} {total : Nat} : claimRewardsCb w (some total) = .ok w' ↔
    (total = 0 ∧ w' = w) ∨ (0 < total ∧ ∃ t fee, w.st.lsToken = some t ∧ fee = total * w.st.feeRate / BPS ∧ fee ≤ total ∧
      w' = commit (emit { w with events := w.events ++ [.protocolRevenue fee w.epoch] }
        ⟨w.st.state, t, { w.st.r with
          fees := w.st.r.fees + fee, pending := w.st.r.pending + (total - fee),
          reserve := w.st.r.reserve + (total - fee) }⟩ (.claimRewards total) DELEGATION_MANAGER)
        ⟨w.st.state, t, { w.st.r with
          fees := w.st.r.fees + fee, pending := w.st.r.pending + (total - fee),
          reserve := w.st.r.reserve + (total - fee) }⟩) := by
  unfold claimRewardsCb calculateShare
  have hb : BPS ≠ 0 := by unfold BPS; omega
  simp only [ite_ok, bind_ok, cacheNew_ok, cdiv_ok, csub_ok, Except.ok.injEq]
  constructor
  · rintro (⟨h0, c, ⟨t, ht, rfl⟩, f, ⟨_, rfl⟩, p, ⟨h1, rfl⟩, rfl⟩ | ⟨h0, rfl⟩)
    · exact .inr ⟨h0, t, _, ht, rfl, h1, rfl⟩
    · exact .inl ⟨by omega, rfl⟩
  · rintro (⟨h0, rfl⟩ | ⟨h0, t, f, ht, rfl, h1, rfl⟩)
    · exact .inr ⟨by omega, rfl⟩
    · exact .inl ⟨h0, _, ⟨t, ht, rfl⟩, _, ⟨hb, rfl⟩, _, ⟨h1, rfl⟩, rfl⟩

theorem whitelistCb_true_ok {w w' : World} {p : Addr} {a : Nat} {u : Addr} : whitelistCb w p a u true = .ok w' ↔
    ∃ t d l, w.st.lsToken = some t ∧ w.st.data.get none p = some d ∧ LsQuote w.st.r a l ∧
      w' = commit (emit { w with
          ls := mintTo w.ls w.self u l,
          st := { w.st with data := w.st.data.set p (some { d with staked := d.staked + a }),
                            delegList := setInsert w.st.delegList p, undelegList := setInsert w.st.undelegList p } }
        ⟨w.st.state, t, { w.st.r with lsSupply := w.st.r.lsSupply + l, reserve := w.st.r.reserve + a }⟩
        (.addLiquidity a) u)
        ⟨w.st.state, t, { w.st.r with lsSupply := w.st.r.lsSupply + l, reserve := w.st.r.reserve + a }⟩ := by
  unfold whitelistCb
  simp only [bind_ok, cacheNew_ok, if_true, updateData_ok, Prod.exists, poolAdd_ok, Except.ok.injEq]
  have key : ∀ (c : Cache) (l : Nat) (w0 w2 : World),
      sendLs (emit (mintLs w0 l) c (.addLiquidity a) u) u l = .ok w2 ↔
      w2 = emit { w0 with ls := mintTo w0.ls w0.self u l } c (.addLiquidity a) u := by
    intro c l w0 w2
    exact mintLs_sendLs (w := emit w0 c (.addLiquidity a) u) (dst := u) (l := l) (w' := w2)
  simp only [key]
  constructor
  · rintro ⟨c, ⟨t, ht, rfl⟩, w1, ⟨d, d', h1, rfl, rfl⟩, l, c1, ⟨hq, rfl⟩, w6, rfl, rfl⟩
    exact ⟨t, d, l, ht, h1, hq, rfl⟩
  · rintro ⟨t, d, l, ht, h1, hq, rfl⟩
    exact ⟨_, ⟨t, ht, rfl⟩, _, ⟨d, _, h1, rfl, rfl⟩, l, _, ⟨hq, rfl⟩, _, rfl, rfl⟩

theorem whitelistCb_false_ok {w w' : World} {p : Addr} {a : Nat} {u : Addr} : whitelistCb w p a u false = .ok w' ↔
    w.st.lsToken ≠ none ∧ ∃ m, debit w.egld w.self a = .ok m ∧
      w' = { w with egld := credit m u a, st := { w.st with data := w.st.data.set p none } } := by
  unfold whitelistCb
  simp only [bind_ok, cacheNew_ok, Bool.false_eq_true, if_false, sendEgld_ok, Except.ok.injEq]
  constructor
  · rintro ⟨c, ⟨t, ht, rfl⟩, w1, ⟨m, hm, rfl⟩, rfl⟩
    exact ⟨by simp [ht], m, hm, rfl⟩
  · rintro ⟨h, m, hm, rfl⟩
    cases ht : w.st.lsToken with
    | none => exact absurd ht h
    | some t => exact ⟨_, ⟨t, rfl, rfl⟩, _, ⟨m, hm, rfl⟩, by simp [commit, ht]⟩

theorem starve_ok {w w' : World} {i : Nat} {o : Outcome} (h : starve w i o = .ok w') :
    ∃ f, w.flights[i]? = some f ∧ w' = { arrive w i f o with dead := w.dead ++ [f] } := by
  unfold starve at h
  cases hf : w.flights[i]? with
  | none => rw [hf] at h; simp at h
  | some f => rw [hf] at h; simp only [Except.ok.injEq] at h; exact ⟨f, rfl, h.symm⟩

theorem deliver_ok {w w' : World} {i : Nat} {o : Outcome} (h : deliver w i o = .ok w') :
    ∃ f, w.flights[i]? = some f ∧ (runCallback (arrive w i f o) f o = .ok w' ∨
      ((∃ e, runCallback (arrive w i f o) f o = .error e) ∧ w' = { arrive w i f o with dead := w.dead ++ [f] })) := by
  unfold deliver at h
  cases hf : w.flights[i]? with
  | none => rw [hf] at h; simp at h
  | some f =>
    rw [hf] at h
    simp only at h
    refine ⟨f, rfl, ?_⟩
    cases hr : runCallback (arrive w i f o) f o with
    | ok w2 => rw [hr] at h; simp only [Except.ok.injEq] at h; exact .inl (by rw [h])
    | error e => rw [hr] at h; simp only [Except.ok.injEq] at h; exact .inr ⟨⟨e, rfl⟩, h.symm⟩

end LS
