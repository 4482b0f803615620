import Verif.Proofs.Front
import Verif.Props.Access

/-! What users get depends neither on the providers nor on the balances of others: C84, C85. -/

namespace LS

open Spec Demo

/-- **C84.** In two worlds that differ in the dealings with providers only, a transaction of a user (or of the owner, the protocol, the
chain) succeeds in both, with the same change of everything in front, or fails in both with the same error. -/
theorem C84_front {w v : World} {op : Op} (h : SameFront w v) (hop : frontOp op = true) :
    (∀ w', step w op = .ok w' → ∃ v', step v op = .ok v' ∧ SameFront w' v') ∧
    (∀ e, step w op = .error e → step v op = .error e) := by
  obtain ⟨h1, h2⟩ := alike_outcome ((twin_front.1 h).front hop (fun _ _ => trivial) fun _ _ => trivial)
  refine ⟨fun w' hw => ?_, h2⟩
  obtain ⟨v', hv, ht⟩ := h1 w' hw
  exact ⟨v', hv, twin_front.2 ht⟩

/-- **C84.** The values and the rate shown to users are the same, too. -/
theorem C84_views {w v : World} (h : SameFront w v) (x : Nat) :
    (viewLsValue w x).map (·.1) = (viewLsValue v x).map (·.1) ∧
    (viewEgldPosition w x).map (·.1) = (viewEgldPosition v x).map (·.1) ∧ viewExchangeRate w = viewExchangeRate v := by
  have ht := twin_front.1 h
  refine ⟨?_, ?_, ?_⟩
  · unfold viewLsValue
    rw [ht.cache]
    cases cacheNew v.st with
    | error e => rfl
    | ok c =>
      simp only [Bind.bind, Except.bind]
      cases getEgldAmount x c <;> rfl
  · unfold viewEgldPosition
    rw [ht.cache]
    cases cacheNew v.st with
    | error e => rfl
    | ok c =>
      simp only [Bind.bind, Except.bind]
      cases getLsAmount x c <;> rfl
  · unfold viewExchangeRate
    rw [ht.st.r]

/-- **C84.** The dealings with providers are left as they are by such a transaction. -/
theorem C84_behind {w w' : World} {op : Op} (hr : Reachable w) (hop : frontOp op = true) (hs : step w op = .ok w') (x : Part)
    (hx : behind x = true) : Same w w' x :=
  parts_step hr hs x fun hm => by rw [front_touches hop x hm] at hx; exact Bool.noConfusion hx

/-- **C84.** Quiet dealings with providers change nothing in front. -/
theorem C84_quiet {w w' : World} {op : Op} (hr : Reachable w) (hq : quiet w op = true) (hs : step w op = .ok w') : SameFront w w' :=
  quiet_front hr hq hs

/-- **C84.** Over any history, quiet dealings with providers may happen at any time, or not at all: what users and the owner do has the
same effect on everything in front. -/
theorem C84_history {w v w' : World} {ops : List Op} (hr : Reachable w) (hb : Backstage w ops w') (h : SameFront w v) :
    SameFront w' (run v ops) := by
  induction hb generalizing v with
  | nil => exact h
  | front op hop _ ih => exact ih (reachable_exec hr op) (twin_front.2 (alike_exec (twin_front.1 h) ((twin_front.1 h).front hop (fun _ _ => trivial) fun _ _ => trivial)))
  | @back w w' ops op hq _ ih =>
    refine ih (reachable_exec hr op) fun x hx => ?_
    unfold exec
    cases hs : step w op with
    | ok w1 => exact (quiet_front hr hq hs x hx).symm.trans (h x hx)
    | error e => exact h x hx

/-- The provider accepts the first of two delegations on their way, or not yet: what it has staked differs; a redemption and a deposit
have the same outcome. -/
def accepted : World := exec staked (.deliver 0 (.ok 0 0))

example : SameFront staked accepted ∧ figure (·.staked) staked 21 ≠ figure (·.staked) accepted 21 ∧
    quiet staked (.deliver 0 (.ok 0 0)) = true ∧ frontOp (.unDelegate 11 0 [⟨500, 0, E 2⟩]) = true ∧
    works staked (.unDelegate 11 0 [⟨500, 0, E 2⟩]) = true ∧
    (∃ e, step staked (.unDelegate 11 0 [⟨500, 0, 0⟩]) = .error e) :=
  ⟨C84_quiet staked_reachable (by decide +kernel) (step_exec (by decide +kernel)), by decide +kernel, by decide +kernel, rfl,
    by decide +kernel, .badPaymentAmount, by decide +kernel⟩

/-- A redemption, with an accepted delegation before it and a call for rewards after it. -/
example : Backstage staked [.unDelegate 11 0 [⟨500, 0, E 2⟩]]
    (exec (exec accepted (.unDelegate 11 0 [⟨500, 0, E 2⟩])) (.claimRewards 1)) ∧
    works (exec accepted (.unDelegate 11 0 [⟨500, 0, E 2⟩])) (.claimRewards 1) = true :=
  ⟨.back (.deliver 0 (.ok 0 0)) (by decide +kernel) (.front _ (by decide) (.back (.claimRewards 1) (by decide +kernel) .nil)),
    by decide +kernel⟩

/-- A delegation that is refused is not quiet: its EGLD is pending again, and a redemption is paid out of it at once. -/
example : quiet staked (.deliver 0 .err) = false ∧
    egldOf (exec (exec staked (.deliver 0 .err)) (.unDelegate 11 0 [⟨500, 0, E 3⟩])) 11 ≠
      egldOf (exec staked (.unDelegate 11 0 [⟨500, 0, E 3⟩])) 11 := by
  decide +kernel

/-- **C85.** In two worlds that differ in balances only, and not in those of the contract and of the account that pays, every transaction -
of users, managers, the owner, and every answer of a provider - succeeds in both, with the same change of everything else and of the
balances that agree, or fails in both with the same error. -/
theorem C85_others {w v : World} {op : Op} {A : Addr → Prop} (hself : A w.self) (hp : ∀ c, payer op = some c → A c)
    (h : SameWithin A w v) :
    (∀ w', step w op = .ok w' → ∃ v', step v op = .ok v' ∧ SameWithin A w' v') ∧
    (∀ e, step w op = .error e → step v op = .error e) := by
  have ht := (twin_within hself).1 h
  obtain ⟨h1, h2⟩ := alike_outcome (ht.step hp fun _ _ => trivial)
  refine ⟨fun w' hw => ?_, h2⟩
  obtain ⟨v', hv, h3⟩ := h1 w' hw
  exact ⟨v', hv, (twin_within h3.ours).2 h3⟩

/-- **C85.** Over any history in which only accounts of `A` pay, the balances of the others have no influence. -/
theorem C85_history {w v : World} {A : Addr → Prop} {ops : List Op} (hself : A w.self)
    (hp : ∀ op ∈ ops, ∀ c, payer op = some c → A c) (h : SameWithin A w v) : SameWithin A (run w ops) (run v ops) := by
  have ht := (twin_within hself).1 h
  suffices hs : Twin A True (fun _ => True) (run w ops) (run v ops) from (twin_within hs.ours).2 hs
  clear h hself
  induction ops generalizing w v with
  | nil => exact ht
  | cons op ops ih =>
    exact ih (fun x hx => hp x (List.mem_cons_of_mem _ hx)) (alike_exec ht (ht.step (hp op (List.mem_cons_self ..)) fun _ _ => trivial))

/-- User 12 has given its LS tokens to user 13, or not: what a redemption of user 11, a batch and its answers do is the same. -/
example : SameWithin (fun a => a ≠ 12 ∧ a ≠ 13) deposited (exec deposited (.transferLs 12 13 (E 50))) ∧
    lsOf deposited 12 ≠ lsOf (exec deposited (.transferLs 12 13 (E 50))) 12 ∧
    (∀ op ∈ [Op.unDelegate 11 0 [⟨500, 0, E 2⟩], .delegatePending 1 none, .deliver 0 .err], ∀ c, payer op = some c → c ≠ 12 ∧ c ≠ 13) ∧
    works deposited (.unDelegate 11 0 [⟨500, 0, E 2⟩]) = true ∧
    works (run deposited [.unDelegate 11 0 [⟨500, 0, E 2⟩], .delegatePending 1 none]) (.deliver 0 .err) = true := by
  refine ⟨fun x hx => ?_, by decide +kernel, ?_, by decide +kernel, by decide +kernel⟩
  · refine parts_step deposited_reachable (step_exec (by decide +kernel)) x ?_
    simp only [touched, List.mem_cons, List.not_mem_nil, or_false, not_or]
    exact ⟨by rintro rfl; exact hx.1 rfl, by rintro rfl; exact hx.2 rfl⟩
  · simp [payer]

/-- The payer's own balance does matter. -/
example : works deposited (.unDelegate 12 0 [⟨500, 0, E 2⟩]) = true ∧
    works (exec deposited (.transferLs 12 13 (E 50))) (.unDelegate 12 0 [⟨500, 0, E 2⟩]) = false := by
  decide +kernel

/-- **C86.** No transaction, and no answer, depends on the two settings for the time between batches (nor on what is only recorded): in two
worlds that differ there only, it succeeds in both, with the same change of everything else, or fails in both with the same error. -/
theorem C86_unread {w v : World} {op : Op} (h : SameRead w v) :
    (∀ w', step w op = .ok w' → ∃ v', step v op = .ok v' ∧ SameRead w' v') ∧
    (∀ e, step w op = .error e → step v op = .error e) := by
  obtain ⟨h1, h2⟩ := alike_outcome ((twin_read.1 h).step (fun _ _ => trivial) fun x => read_consults)
  refine ⟨fun w' hw => ?_, h2⟩
  obtain ⟨v', hv, ht⟩ := h1 w' hw
  exact ⟨v', hv, twin_read.2 ht⟩

/-- **C86.** The same over any history. -/
theorem C86_history {w v : World} (h : SameRead w v) (ops : List Op) : SameRead (run w ops) (run v ops) := by
  have ht := twin_read.1 h
  suffices hs : Twin (fun _ => True) True (fun x => unread x = false) (run w ops) (run v ops) from twin_read.2 hs
  clear h
  induction ops generalizing w v with
  | nil => exact ht
  | cons op ops ih => exact ih (alike_exec ht (ht.step (fun _ _ => trivial) fun x => read_consults))

/-- As `fresh`, deployed with other settings for the time between batches. -/
def freshWith (rounds minimum : UInt64) : World :=
  { fresh with st := { fresh.st with roundsPerEpoch := rounds, minimumRounds := minimum } }

theorem freshWith_reachable (rounds minimum : UInt64) : Reachable (freshWith rounds minimum) :=
  .init ⟨1000, 1, [2, 3], 0, fresh.egld, 2, 400, rounds, minimum, 25, 100, 10, rfl⟩

theorem freshWith_same (rounds minimum : UInt64) : SameRead fresh (freshWith rounds minimum) := by
  intro x hx
  cases x <;> first | rfl | exact ⟨rfl, rfl⟩ | exact Bool.noConfusion hx

/-- No setter for the time between batches among the transactions. -/
def noInterval (op : Op) : Bool := match op with | .owner _ (.minimumRounds _) => false | _ => true

theorem interval_run (ops : List Op) : ∀ {w : World}, Reachable w → (∀ op ∈ ops, noInterval op = true) →
    (run w ops).st.roundsPerEpoch = w.st.roundsPerEpoch ∧ (run w ops).st.minimumRounds = w.st.minimumRounds := by
  induction ops with
  | nil => intro w _ _; exact ⟨rfl, rfl⟩
  | cons op ops ih =>
    intro w hr hn
    have h1 : (exec w op).st.roundsPerEpoch = w.st.roundsPerEpoch ∧ (exec w op).st.minimumRounds = w.st.minimumRounds := by
      unfold exec
      cases hs : step w op with
      | error e => exact ⟨rfl, rfl⟩
      | ok w' =>
        obtain ⟨_, _, _, h4, _, _, _, _, _, _, _, _, h9, _⟩ := C27_configuration hr hs
        refine ⟨h9, h4.resolve_right ?_⟩
        rintro rfl
        exact Bool.noConfusion (hn _ (List.mem_cons_self ..))
    obtain ⟨h2, h3⟩ := ih (reachable_exec hr op) fun x hx => hn x (List.mem_cons_of_mem _ hx)
    exact ⟨h2.trans h1.1, h3.trans h1.2⟩

/-- From deployment to two deposits of 100 and 50 EGLD. -/
def upToDeposits : List Op := [
  .registerLsToken 1 0, .issued 0 (some 500), .registerUnstakeToken 1 0, .issued 0 (some 501), .owner 1 .stateActive,
  .setScoringConfig 1 ScoringConfig.default, .whitelist 1 (E 1) 21 41 (E 1000) (E 1500) 10 800, .deliver 0 (.ok 0 0),
  .whitelist 1 (E 1) 22 42 (E 1000) 0 20 900, .deliver 0 (.ok 0 0), .delegate 11 (E 100), .delegate 12 (E 50)]

/-- **C86.** Whatever the two settings say, one batch may follow another at once. -/
theorem C86_at_once (rounds minimum : UInt64) : ∃ w w1 w2 : World, Reachable w ∧ w.st.roundsPerEpoch = rounds ∧
    w.st.minimumRounds = minimum ∧ step w (.delegatePending 1 (some (E 60))) = .ok w1 ∧
    step w1 (.delegatePending 1 (some (E 60))) = .ok w2 ∧ w2.epoch = w.epoch ∧
    pendingEgld w = pendingEgld w1 + E 60 ∧ pendingEgld w1 = pendingEgld w2 + E 60 := by
  have hr := reachable_run (freshWith_reachable rounds minimum) upToDeposits
  have hi := interval_run upToDeposits (freshWith_reachable rounds minimum) (by decide)
  have h0 := C86_history (freshWith_same rounds minimum) upToDeposits
  obtain ⟨w1, hs1, h1⟩ := (C86_unread h0).1 _ (step_exec (op := .delegatePending 1 (some (E 60))) (by decide +kernel))
  obtain ⟨w2, hs2, h2⟩ := (C86_unread h1).1 _ (step_exec (op := .delegatePending 1 (some (E 60))) (by decide +kernel))
  refine ⟨_, w1, w2, hr, hi.1, hi.2, hs1, hs2, ?_, ?_, ?_⟩
  · rw [h2 .clock rfl, h0 .clock rfl]
    decide +kernel
  · rw [h1 .pending rfl, h0 .pending rfl]
    decide +kernel
  · rw [h2 .pending rfl, h1 .pending rfl]
    decide +kernel

/-- Two deployments that differ in the settings. -/
example : SameRead fresh (freshWith 1 2) ∧ (freshWith 1 2).st.minimumRounds ≠ fresh.st.minimumRounds ∧
    works fresh (.registerLsToken 1 0) = true ∧ works fresh (.delegate 11 (E 1)) = false :=
  ⟨freshWith_same 1 2, by decide, by decide +kernel, by decide +kernel⟩

end LS
