import Verif.Props.Reentry

/-! What the accumulator may do while being paid without harm: C41. -/

namespace LS
open Spec Demo

/-- Transactions which neither change nor use the figures of the pool: transfers, gifts and burns, everything about providers
except the batches, the settings, and the calls which only ask a provider for something. -/
def figureless : Op → Bool
  | .withdrawPending _ _ | .claimRewards _ | .whitelist _ _ _ _ _ _ _ _ | .changeAdmin _ _ _ | .changeParams _ _ _ _ _ _ _
  | .setMigrationSc _ _ | .registerLsToken _ _ | .registerUnstakeToken _ _ | .owner _ _ | .setScoringConfig _ _
  | .transferLs _ _ _ | .transferNft _ _ _ _ | .transferEgld _ _ _ | .giveEgld _ _ | .giveLs _ _ | .giveUnstake _ _ _
  | .burnLs _ _ | .burnUnstake _ _ _ | .changeOwner _ _ | .upgrade => true
  | _ => false

/-- The world with another figure for the fees. -/
def withFees (w : World) (x : Nat) : World := { w with st := { w.st with r := { w.st.r with fees := x } } }

private theorem withdrawPending_iff {w w' : World} {caller p : Addr} : withdrawPending w caller p = .ok w' ↔
    caller ≠ w.self ∧ w.st.state = .active ∧ isManager w caller = true ∧ w.st.lsToken ≠ none ∧
    w.st.data.get none p ≠ none ∧ ∃ m, debit w.egld w.self 0 = .ok m ∧
      w' = { w with egld := m, flights := w.flights ++ [.withdraw p] } := by
  unfold withdrawPending
  simp only [bind_ok, requireUser_ok, req_ok, exists_const, cacheNew_ok, requireManager_ok, requireActive_ok,
    registerPromise_ok, Except.ok.injEq]
  constructor
  · rintro ⟨h1, c, ⟨t, ht, rfl⟩, h2, h3, h4, w1, ⟨m, hm, rfl⟩, rfl⟩
    exact ⟨h1, h3, h2, by simp [ht], h4, m, hm, rfl⟩
  · rintro ⟨h1, h3, h2, h5, h4, m, hm, rfl⟩
    obtain ⟨t, ht⟩ := Option.ne_none_iff_exists'.1 h5
    exact ⟨h1, _, ⟨t, ht, rfl⟩, h2, h3, h4, _, ⟨m, hm, rfl⟩, rfl⟩

private theorem claimRewards_iff {w w' : World} {caller : Addr} : claimRewards w caller = .ok w' ↔
    caller ≠ w.self ∧ w.st.state = .active ∧ isManager w caller = true ∧ w.st.lsToken ≠ none ∧
    w.st.delegList ≠ [] ∧ ∃ m, debit w.egld w.self 0 = .ok m ∧
      w' = { w with egld := m, flights := w.flights ++ [.claim w.st.delegList] } := by
  unfold claimRewards
  simp only [bind_ok, requireUser_ok, req_ok, exists_const, cacheNew_ok, requireManager_ok, requireActive_ok,
    registerPromise_ok, Except.ok.injEq]
  constructor
  · rintro ⟨h1, c, ⟨t, ht, rfl⟩, h2, h3, h4, w1, ⟨m, hm, rfl⟩, rfl⟩
    exact ⟨h1, h3, h2, by simp [ht], h4, m, hm, rfl⟩
  · rintro ⟨h1, h3, h2, h5, h4, m, hm, rfl⟩
    obtain ⟨t, ht⟩ := Option.ne_none_iff_exists'.1 h5
    exact ⟨h1, _, ⟨t, ht, rfl⟩, h2, h3, h4, _, ⟨m, hm, rfl⟩, rfl⟩

private theorem whitelist_fees {w w' : World} {caller : Addr} {v : Nat} {p admin : Addr} {ts cap : Nat} {nn apy : UInt64}
    (h : whitelist w caller v p admin ts cap nn apy = .ok w') (x : Nat) :
    w'.st.r = w.st.r ∧ whitelist (withFees w x) caller v p admin ts cap nn apy = .ok (withFees w' x) := by
  unfold whitelist at h ⊢
  simp only [bind_ok, requireUser_ok, req_ok, exists_const, requireManager_ok, payEgld_ok, registerPromise_ok,
    Except.ok.injEq] at h ⊢
  obtain ⟨h1, w0, ⟨m, hm, rfl⟩, h2, h3, h4, h5, h6, h7, m', hm', rfl⟩ := h
  exact ⟨rfl, h1, _, ⟨m, hm, rfl⟩, h2, h3, h4, h5, h6, h7, m', hm', rfl⟩

private theorem ownerCmd_fees {st st' : Store} {cmd : OwnerCmd} (h : applyOwnerCmd st cmd = .ok st') (x : Nat) :
    st'.r = st.r ∧ applyOwnerCmd { st with r := { st.r with fees := x } } cmd = .ok { st' with r := { st'.r with fees := x } } := by
  cases cmd <;> simp only [applyOwnerCmd, bind_ok, req_ok, exists_const, Except.ok.injEq] at h ⊢
  case maxAddresses => obtain ⟨h0, rfl⟩ := h; exact ⟨rfl, h0, rfl⟩
  case maxSelected => obtain ⟨h0, rfl⟩ := h; exact ⟨rfl, h0, rfl⟩
  all_goals subst h; exact ⟨rfl, rfl⟩

/-- A quiet transaction keeps the figures and does the same with other fees. -/
theorem quiet_step {w w' : World} {op : Op} (hq : figureless op = true) (h : step w op = .ok w') (x : Nat) :
    w'.st.r = w.st.r ∧ step (withFees w x) op = .ok (withFees w' x) := by
  cases op <;> first | (exfalso; exact Bool.noConfusion hq) | skip
  case upgrade => simp only [step, Except.ok.injEq] at h; subst h; exact ⟨rfl, rfl⟩
  case withdrawPending c p =>
    obtain ⟨h1, h2, h3, h4, h5, m, hm, rfl⟩ := withdrawPending_iff.1 h
    exact ⟨rfl, withdrawPending_iff.2 ⟨h1, h2, h3, h4, h5, m, hm, rfl⟩⟩
  case claimRewards c =>
    obtain ⟨h1, h2, h3, h4, h5, m, hm, rfl⟩ := claimRewards_iff.1 h
    exact ⟨rfl, claimRewards_iff.2 ⟨h1, h2, h3, h4, h5, m, hm, rfl⟩⟩
  case whitelist c v p ad ts cap n apy => exact whitelist_fees h x
  case changeAdmin c p a =>
    obtain ⟨h1, h2, d, hd, rfl⟩ := changeAdmin_ok.1 h
    exact ⟨rfl, changeAdmin_ok.2 ⟨h1, h2, d, hd, rfl⟩⟩
  case changeParams c p ts cap n apy e =>
    obtain ⟨h1, h2, d, hd, h3, rfl⟩ := changeParams_ok.1 h
    exact ⟨rfl, changeParams_ok.2 ⟨h1, h2, d, hd, h3, rfl⟩⟩
  case setMigrationSc c a =>
    obtain ⟨h1, h2, h3, rfl⟩ := setMigrationSc_ok.1 h
    exact ⟨rfl, setMigrationSc_ok.2 ⟨h1, h2, h3, rfl⟩⟩
  case registerLsToken c v =>
    obtain ⟨h1, h2, h3, h4, m, hm, rfl⟩ := registerLsToken_ok.1 h
    exact ⟨rfl, registerLsToken_ok.2 ⟨h1, h2, h3, h4, m, hm, rfl⟩⟩
  case registerUnstakeToken c v =>
    obtain ⟨h1, h2, h3, h4, m, hm, rfl⟩ := registerUnstakeToken_ok.1 h
    exact ⟨rfl, registerUnstakeToken_ok.2 ⟨h1, h2, h3, h4, m, hm, rfl⟩⟩
  case owner c cmd =>
    obtain ⟨h1, h2, st, h3, rfl⟩ := ownerCmd_ok.1 h
    obtain ⟨h4, h5⟩ := ownerCmd_fees h3 x
    exact ⟨h4, ownerCmd_ok.2 ⟨h1, h2, _, h5, rfl⟩⟩
  case setScoringConfig c cfg =>
    obtain ⟨h1, h2, h3, rfl⟩ := setScoringConfig_ok.1 h
    exact ⟨rfl, setScoringConfig_ok.2 ⟨h1, h2, h3, rfl⟩⟩
  case transferLs s d v =>
    obtain ⟨h1, h2, m, hm, rfl⟩ := transferLs_ok.1 h
    exact ⟨rfl, transferLs_ok.2 ⟨h1, h2, m, hm, rfl⟩⟩
  case transferNft s d n v =>
    obtain ⟨h1, h2, m, hm, rfl⟩ := transferNft_ok.1 h
    exact ⟨rfl, transferNft_ok.2 ⟨h1, h2, m, hm, rfl⟩⟩
  case transferEgld s d v =>
    obtain ⟨h1, h2, m, hm, rfl⟩ := transferEgld_ok.1 h
    exact ⟨rfl, transferEgld_ok.2 ⟨h1, h2, m, hm, rfl⟩⟩
  case giveEgld s v =>
    obtain ⟨h1, h2, m, hm, rfl⟩ := giveEgld_ok.1 h
    exact ⟨rfl, giveEgld_ok.2 ⟨h1, h2, m, hm, rfl⟩⟩
  case giveLs s v =>
    obtain ⟨h1, h2, m, hm, rfl⟩ := giveLs_ok.1 h
    exact ⟨rfl, giveLs_ok.2 ⟨h1, h2, m, hm, rfl⟩⟩
  case giveUnstake s n v =>
    obtain ⟨h1, h2, m, hm, rfl⟩ := giveUnstake_ok.1 h
    exact ⟨rfl, giveUnstake_ok.2 ⟨h1, h2, m, hm, rfl⟩⟩
  case burnLs a v =>
    obtain ⟨h1, m, hm, rfl⟩ := holderBurnLs_ok.1 h
    exact ⟨rfl, holderBurnLs_ok.2 ⟨h1, m, hm, rfl⟩⟩
  case burnUnstake a n v =>
    obtain ⟨h1, m, hm, rfl⟩ := holderBurnNft_ok.1 h
    exact ⟨rfl, holderBurnNft_ok.2 ⟨h1, m, hm, rfl⟩⟩
  case changeOwner c d =>
    obtain ⟨h1, h2, rfl⟩ := changeOwner_ok.1 h
    exact ⟨rfl, changeOwner_ok.2 ⟨h1, h2, rfl⟩⟩

/-- Transactions one after the other, all of them succeeding. -/
def allOf : List Op → World → Res World
  | [], w => .ok w
  | op :: ops, w => step w op >>= allOf ops

private theorem quiet_all {x : Nat} : ∀ {ops : List Op} {w w' : World}, (∀ op ∈ ops, figureless op = true) → allOf ops w = .ok w' →
    w'.st.r = w.st.r ∧ allOf ops (withFees w x) = .ok (withFees w' x)
  | [], w, w', _, h => by
    simp only [allOf, Except.ok.injEq] at h
    subst h; exact ⟨rfl, rfl⟩
  | op :: ops, w, w', hq, h => by
    simp only [allOf, bind_ok] at h ⊢
    obtain ⟨w1, h1, h2⟩ := h
    obtain ⟨h3, h4⟩ := quiet_step (hq op (List.mem_cons_self ..)) h1 x
    obtain ⟨h5, h6⟩ := quiet_all (x := x) (fun o ho => hq o (List.mem_cons_of_mem _ ho)) h2
    exact ⟨h5.trans h3, _, h4, h6⟩

theorem reachable_allOf : ∀ {ops : List Op} {w w' : World}, Reachable w → allOf ops w = .ok w' → Reachable w'
  | [], w, w', hr, h => by
    simp only [allOf, Except.ok.injEq] at h
    subst h; exact hr
  | op :: ops, w, w', hr, h => by
    simp only [allOf, bind_ok] at h
    obtain ⟨w1, h1, h2⟩ := h
    exact reachable_allOf (.step op hr h1) h2

/-- **C41**, what the accumulator may do without harm.  The full claim (whatever the accumulator does) is refuted by
`C41_false`.  If it only makes quiet transactions while being paid, as many as it likes and for whomever, the outcome is that of
paying it first and making them afterwards; so the state reached is one of the states all the other theorems speak of. -/
theorem C41_quiet_partial {w w' : World} {c : Addr} {ops : List Op} (hq : ∀ op ∈ ops, figureless op = true)
    (h : claimFeesWith (allOf ops) w c = .ok w') :
    (∃ w1, step w (.claimFees c true) = .ok w1 ∧ allOf ops w1 = .ok w') ∧ (Reachable w → Reachable w') := by
  have key : ∃ w1, step w (.claimFees c true) = .ok w1 ∧ allOf ops w1 = .ok w' := by
    unfold claimFeesWith at h
    simp only [bind_ok, requireUser_ok, req_ok, exists_const, cacheNew_ok, sendEgld_ok, Except.ok.injEq] at h
    obtain ⟨h1, cc, ⟨t, ht, rfl⟩, h2, h3, w1, ⟨m, hm, rfl⟩, w2, h4, rfl⟩ := h
    obtain ⟨h5, h6⟩ := quiet_all (x := 0) hq h4
    refine ⟨withFees { w with egld := credit m w.st.accumulator w.st.r.fees } 0, ?_, ?_⟩
    · show claimFees w c true = _
      unfold claimFees claimFeesWith
      simp only [bind_ok, requireUser_ok, req_ok, exists_const, cacheNew_ok, sendEgld_ok, Except.ok.injEq, if_true]
      exact ⟨h1, _, ⟨t, ht, rfl⟩, h2, h3, _, ⟨m, hm, rfl⟩, _, rfl, rfl⟩
    · rw [h6]
      unfold withFees commit
      rw [h5]
  obtain ⟨w1, h1, h2⟩ := key
  exact ⟨⟨w1, h1, h2⟩, fun hr => reachable_allOf (.step _ hr h1) h2⟩

/-- In `settled` the accumulator is paid and passes one unit on, while the owner stops the contract. -/
example : (∀ op ∈ [Op.transferEgld 2 11 1, .owner 1 .stateInactive], figureless op = true) ∧ 1 < feesReserve settled ∧
    (claimFeesWith (allOf [.transferEgld 2 11 1, .owner 1 .stateInactive]) settled 13).toBool = true := by
  decide +kernel

end LS
