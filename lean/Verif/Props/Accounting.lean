import Verif.Proofs.Frame
import Verif.Proofs.Sums
import Verif.Proofs.NoErr
import Verif.Demo

/-! The accounting of the pool over every history: C03, C05, C06, C07, C08, C09, C44. -/

namespace LS
open Spec Demo

/-- LS tokens existed before and after the transaction. -/
def Alive (w : World) (_ : Op) (w' : World) : Prop := 0 < supply w ∧ 0 < supply w'

theorem rate_trans {r1 s1 r2 s2 r3 s3 : Nat} (h2 : 0 < s2) (h12 : r1 * s2 ≤ r2 * s1) (h23 : r2 * s3 ≤ r3 * s2) :
    r1 * s3 ≤ r3 * s1 := by
  apply Nat.le_of_mul_le_mul_right _ h2
  calc r1 * s3 * s2 = r1 * s2 * s3 := Nat.mul_right_comm _ _ _
    _ ≤ r2 * s1 * s3 := Nat.mul_le_mul_right _ h12
    _ = r2 * s3 * s1 := Nat.mul_right_comm _ _ _
    _ ≤ r3 * s2 * s1 := Nat.mul_le_mul_right _ h23
    _ = r3 * s1 * s2 := Nat.mul_right_comm _ _ _

theorem egldFor_mono {s r s' r' : Nat} (l : Nat) (h : 0 < s) (h' : 0 < s') (hr : r * s' ≤ r' * s) :
    egldFor s r l ≤ egldFor s' r' l := by
  unfold egldFor
  rw [Nat.le_div_iff_mul_le h']
  have h1 : l * r / s * s ≤ l * r := Nat.div_mul_le_self _ _
  apply Nat.le_of_mul_le_mul_right _ h
  calc l * r / s * s' * s = l * r / s * s * s' := Nat.mul_right_comm _ _ _
    _ ≤ l * r * s' := Nat.mul_le_mul_right _ h1
    _ = l * (r * s') := Nat.mul_assoc _ _ _
    _ ≤ l * (r' * s) := Nat.mul_le_mul_left _ hr
    _ = l * r' * s := (Nat.mul_assoc _ _ _).symm

/-- **C03.** As long as LS tokens exist throughout, neither the reserve per LS token nor the quoted value of any amount `l`
ever falls. -/
theorem C03_rate_never_falls {w w' : World} (hr : Reachable w) (hS : 0 < supply w) (h : Trace Alive w w') (l : Nat) :
    reserve w * supply w' ≤ reserve w' * supply w ∧
    egldFor (supply w) (reserve w) l ≤ egldFor (supply w') (reserve w') l := by
  suffices H : 0 < supply w' ∧ reserve w * supply w' ≤ reserve w' * supply w from
    ⟨H.2, egldFor_mono l hS H.1 H.2⟩
  induction h with
  | nil => exact ⟨hS, Nat.le_refl _⟩
  | @snoc w1 w2 op ht hs hp ih =>
    have hr1 : Reachable w1 := reachable_trace hr ht
    exact ⟨hp.2, rate_trans hp.1 ih.2 ((acct_step op (reachable_regInv hr1) (reachable_issInv hr1) hs).rate (reachable_ainv hr1) hp.1)⟩

/-- **C03**, as seen through `getLsValueForPosition`: a later answer for the same amount is never smaller. -/
theorem C03_quote_never_falls {w w' v v' : World} {l q q' : Nat} (hr : Reachable w) (hS : 0 < supply w)
    (h : Trace Alive w w') (h1 : viewLsValue w l = .ok (q, v)) (h2 : viewLsValue w' l = .ok (q', v')) : q ≤ q' := by
  obtain ⟨_, ⟨_, _, _, rfl⟩, _⟩ := viewLsValue_ok.1 h1
  obtain ⟨_, ⟨_, _, _, rfl⟩, _⟩ := viewLsValue_ok.1 h2
  exact (C03_rate_never_falls hr hS h l).2

/-- A run all of whose transactions leave LS tokens in existence. -/
def aliveRun (w : World) : List Op → Bool
  | [] => true
  | op :: ops => decide (0 < supply w) && decide (0 < supply (exec w op)) && aliveRun (exec w op) ops

theorem trace_cons {P} {w w1 w2 : World} {op : Op} (hs : step w op = .ok w1) (hp : P w op w1) (h : Trace P w1 w2) :
    Trace P w w2 := by
  induction h with
  | nil => exact .snoc op .nil hs hp
  | snoc op' _ hs' hp' ih => exact .snoc op' ih hs' hp'

theorem trace_of_run {P : World → Op → World → Prop} (chk : World → List Op → Bool)
    (hc : ∀ w op ops, chk w (op :: ops) = true →
      chk (exec w op) ops = true ∧ ∀ w', step w op = .ok w' → P w op w') :
    ∀ (ops : List Op) (w : World), chk w ops = true → Trace P w (run w ops)
  | [], _, _ => .nil
  | op :: ops, w, h => by
    obtain ⟨h1, h2⟩ := hc w op ops h
    have ih := trace_of_run chk hc ops (exec w op) h1
    show Trace P w (run (exec w op) ops)
    cases hs : step w op with
    | ok w' =>
      have he : exec w op = w' := by unfold exec; rw [hs]
      rw [he] at ih ⊢
      exact trace_cons hs (h2 w' hs) ih
    | error e =>
      have he : exec w op = w := by unfold exec; rw [hs]
      rw [he] at ih ⊢
      exact ih

theorem trace_of_aliveRun {w : World} {ops : List Op} (h : aliveRun w ops = true) : Trace Alive w (run w ops) := by
  refine trace_of_run aliveRun (fun w op ops h => ?_) ops w h
  simp only [aliveRun, Bool.and_eq_true, decide_eq_true_eq] at h
  refine ⟨h.2, fun w' hs => ⟨h.1.1, ?_⟩⟩
  have := h.1.2
  unfold exec at this; rw [hs] at this; exact this

/-- From the first deposits to a world with rewards, redemptions and withdrawals: the price strictly rose. -/
example : let ops := [.delegatePending 1 none, .deliver 0 (.ok 0 0), .deliver 0 (.ok 0 0), .claimRewards 1,
      .deliver 0 (.ok (E 7) (E 7)), .unDelegate 11 0 [⟨500, 0, E 40⟩]]
    Reachable deposited ∧ 0 < supply deposited ∧ Trace Alive deposited (run deposited ops) ∧
    reserve deposited * supply (run deposited ops) < reserve (run deposited ops) * supply deposited := by
  exact ⟨deposited_reachable, by decide +kernel, trace_of_aliveRun (by decide +kernel), by decide +kernel⟩

/-- The hypothesis is needed: when everybody leaves and a new holder arrives the price starts afresh. -/
example : let w := run active [.delegate 11 (E 100), .addRewards 12 (E 100)]
    let w' := run w [.unDelegate 11 0 [⟨500, 0, E 100⟩], .delegate 13 (E 10)]
    Reachable w ∧ 0 < supply w ∧ 0 < supply w' ∧ reserve w' * supply w < reserve w * supply w' :=
  ⟨reachable_run active_reachable _, by decide +kernel, by decide +kernel, by decide +kernel⟩

/-- **C05.** `getLsSupply` is the sum of all LS balances, and of what holders have burned on their own. -/
theorem C05_supply_is_total {w : World} (hr : Reachable w) : ∃ h, IsSum (lsOf w) h ∧ h + w.burntLs = supply w :=
  ⟨_, isSum_ls w, (reachable_ainv hr).ls.symm⟩

theorem ls_le_supply {w : World} (hr : Reachable w) (a : Addr) : lsOf w a ≤ supply w := by
  obtain ⟨h, h1, h2⟩ := C05_supply_is_total hr
  have := h1.le a
  omega

/-- **C05**, as long as nobody has burned any: the supply is the sum of all balances. -/
theorem C05_unburnt {w : World} (hr : Reachable w) (h0 : w.burntLs = 0) : IsSum (lsOf w) (supply w) := by
  obtain ⟨h, h1, h2⟩ := C05_supply_is_total hr
  rw [h0] at h2
  exact h2 ▸ h1

example : Reachable redeemed ∧ 0 < lsOf redeemed 11 ∧ 0 < lsOf redeemed 12 ∧ lsOf redeemed 11 + lsOf redeemed 12 < supply redeemed :=
  ⟨redeemed_reachable, by decide +kernel, by decide +kernel, by decide +kernel⟩

/-- **C06.** While any account holds LS tokens, the reserve is positive. -/
theorem C06_reserve_positive {w : World} (hr : Reachable w) :
    (∀ a, 0 < lsOf w a → 0 < reserve w) ∧ (0 < supply w → 0 < reserve w) := by
  refine ⟨fun a ha => ?_, (reachable_ainv hr).pos⟩
  exact (reachable_ainv hr).pos (Nat.lt_of_lt_of_le ha (ls_le_supply hr a))

example : Reachable ready ∧ 0 < lsOf ready 11 := ⟨ready_reachable, by decide +kernel⟩

/-- **C07.** The unstake tokens of users, with those they have burned on their own, are exactly covered by the unbonding pipeline. -/
theorem C07_unstake_tokens_covered {w : World} (hr : Reachable w) :
    ∃ u h, IsSum (figure (·.unstaked) w) u ∧ IsSum (userTokens w) h ∧
      h + w.burntUnstake = toUndelegate w + allUndelegations (unsettled w) + u + withdrawable w := by
  have hi := reachable_ainv hr
  have hp := pUnstake_total (reachable_regInv hr)
  refine ⟨unbonding w, _, ?_, isSum_userNft w, ?_⟩
  · have := isSum_figure w (·.unstaked)
    have he := hi.unb
    dsimp only [acct] at he
    rw [← he] at this; exact this
  · have h1 := hi.nft
    rw [hp] at h1
    exact h1

/-- Every stage of the pipeline is non-empty at some reachable world. -/
example : Reachable redeemed ∧ 0 < toUndelegate redeemed ∧
    0 < allUndelegations (unsettled (run redeemed [.unDelegatePending 1 none])) ∧
    0 < unbonding halfReady ∧ 0 < withdrawable halfReady :=
  ⟨redeemed_reachable, by decide +kernel, by decide +kernel, by decide +kernel, by decide +kernel⟩

/-- **C08.** The virtual reserve is fully backed. -/
theorem C08_reserve_backed {w : World} (hr : Reachable w) :
    ∃ s, IsSum (figure (·.staked) w) s ∧
      reserve w + toUndelegate w + allUndelegations (unsettled w) + w.migratedPending =
        pendingEgld w + s + allDelegations (unsettled w) + w.migratedVirtual := by
  have hb := (reachable_ainv hr).back
  rw [pUnstake_total (reachable_regInv hr), pStake_total (reachable_regInv hr)] at hb
  exact ⟨_, isSum_figure w (·.staked), hb⟩

/-- **C08** without migration: reserve = pending + staked + in flight − already promised to unstakers. -/
theorem C08_reserve_backed_no_migration {w : World} (hr : Reachable w) (h1 : w.migratedPending = 0) (h2 : w.migratedVirtual = 0) :
    ∃ s, IsSum (figure (·.staked) w) s ∧
      reserve w = pendingEgld w + s + allDelegations (unsettled w) - (toUndelegate w + allUndelegations (unsettled w)) := by
  obtain ⟨s, hs, h⟩ := C08_reserve_backed hr
  exact ⟨s, hs, by omega⟩

example : let w := run staked [.unDelegate 11 0 [⟨500, 0, E 40⟩], .addRewards 13 (E 3)]
    Reachable w ∧ 0 < reserve w ∧ 0 < toUndelegate w ∧ 0 < allDelegations (unsettled w) ∧ 0 < pendingEgld w ∧
    0 < figure (·.staked) w 21 :=
  ⟨reachable_run staked_reachable _, by decide +kernel, by decide +kernel, by decide +kernel, by decide +kernel, by decide +kernel⟩

/-- **C09.** With an honest delegation manager the balance always covers pending EGLD, withdrawable EGLD and fees. -/
theorem C09_solvent {w : World} (hr : ReachableBy HonestManager w) :
    pendingEgld w + withdrawable w + feesReserve w ≤ egldOf w w.self := by
  obtain ⟨w0, hi, ht⟩ := hr
  induction ht with
  | nil =>
    obtain ⟨self, owner, contracts, epoch, funds, acc, fees, rpe, mr, ms, ma, ub, _, _, rfl⟩ := isInit_eq hi
    exact Nat.zero_le _
  | @snoc w1 w2 op ht hs hp ih =>
    have hr1 : Reachable w1 := reachable_trace (.init hi) ht
    have hh : HonestOp w1 op := by
      cases op with
      | deliver i o => cases o with
        | ok g r => exact hp
        | err => trivial
      | _ => trivial
    exact (acct_step op (reachable_regInv hr1) (reachable_issInv hr1) hs).solvent hh ih

theorem paidWith_eq (n : Nat) : ∀ ps, paidWith n ps = amtAt n ps
  | [] => rfl
  | p :: ps => by simp only [paidWith, amtAt, paidWith_eq n ps]

/-- **C09**, consequence: no payout fails for lack of funds — delegating pending EGLD, claiming fees, redeeming LS tokens one
holds, withdrawing unstake tokens one holds, and every callback (refund of a failed whitelisting included). -/
theorem C09_no_shortfall {w : World} (hr : ReachableBy HonestManager w) :
    (∀ c o, step w (.delegatePending c o) ≠ .error .insufficientFunds) ∧
    (∀ c a, step w (.claimFees c a) ≠ .error .insufficientFunds) ∧
    (∀ c t l, w.st.lsToken = some t → l ≤ lsOf w c → step w (.unDelegate c 0 [⟨t, 0, l⟩]) ≠ .error .insufficientFunds) ∧
    (∀ c t v ps, w.st.unstakeToken = some t → (∀ p ∈ ps, p.token = t) → v ≤ egldOf w c →
      (∀ n, paidWith n ps ≤ unstakeOf w n c) → step w (.withdraw c v ps) ≠ .error .insufficientFunds) ∧
    (∀ i f o, w.flights[i]? = some f → runCallback (arrive w i f o) f o ≠ .error .insufficientFunds) := by
  have hs := C09_solvent hr
  have hR := reachableBy_reachable hr
  unfold pendingEgld withdrawable feesReserve egldOf at hs
  refine ⟨fun c o => nf_delegatePending (by omega), fun c a => nf_claimFees (by omega), fun c t l ht hl => ?_, ?_,
    fun i f o _ => nf_runCallback⟩
  · exact ne_unDelegate (reachable_nftInv hR) ht (.inl hl) (.inl (by omega)) (.inr (by decide)) (.inr (by decide))
      (.inr (by decide)) (.inr (by decide)) (.inr (by decide)) (.inr (by decide)) (.inr (by decide)) (.inr (by decide))
      (.inr (by decide))
  · intro c t v ps ht hp hv hn
    exact nf_withdraw (reachable_regInv hR) ht hp hv (fun n => by rw [← paidWith_eq]; exact hn n) (by omega)

/-- Every reported reward total in these transactions is covered by the EGLD sent along. -/
def honestOps : List Op → Bool
  | [] => true
  | op :: ops => (match op with | .deliver _ (.ok e r) => decide (r ≤ e) | _ => true) && honestOps ops

theorem reachableBy_honest {ops : List Op} (h : honestOps ops = true) : ReachableBy HonestManager (run fresh ops) := by
  refine ⟨fresh, fresh_isInit, trace_of_run (fun _ => honestOps) (fun w op ops h => ?_) ops fresh h⟩
  simp only [honestOps, Bool.and_eq_true] at h
  refine ⟨h.2, fun w' _ => ?_⟩
  cases op with
  | deliver i o => cases o with
    | ok g r => intro _ _; simpa using h.1
    | err => trivial
  | _ => trivial

/-- A world with pending EGLD, fees, withdrawable EGLD and unstake tokens. -/
def busy : List Op := [
  .registerLsToken 1 0, .issued 0 (some 500), .registerUnstakeToken 1 0, .issued 0 (some 501),
  .owner 1 .stateActive, .setScoringConfig 1 ScoringConfig.default,
  .whitelist 1 (E 1) 22 42 (E 1000) 0 20 900, .deliver 0 (.ok 0 0), .delegate 11 (E 100), .delegatePending 1 none,
  .deliver 0 (.ok 0 0), .claimRewards 1, .deliver 0 (.ok (E 7) (E 7)), .delegatePending 1 none, .deliver 0 (.ok 0 0),
  .unDelegate 11 0 [⟨500, 0, E 40⟩], .unDelegatePending 1 none, .deliver 0 (.ok 0 0), .advance 60,
  .withdrawPending 1 22, .deliver 0 (.ok (E 20) 0), .delegate 12 (E 5)]

example : ReachableBy HonestManager (run fresh busy) ∧ 0 < pendingEgld (run fresh busy) ∧ 0 < feesReserve (run fresh busy) ∧
    0 < withdrawable (run fresh busy) ∧ works (run fresh busy) (.claimFees 99 true) = true ∧
    works (run fresh busy) (.withdraw 11 0 [⟨501, 1, E 30⟩]) = true ∧
    works (run fresh busy) (.delegatePending 1 none) = true :=
  ⟨reachableBy_honest (by decide +kernel), by decide +kernel, by decide +kernel, by decide +kernel, by decide +kernel,
    by decide +kernel, by decide +kernel⟩

/-- Honesty is needed: a manager that reports more than it sends makes the contract insolvent. -/
example : let w := run deposited [.claimRewards 1, .deliver 0 (.ok 0 (E 7))]
    Reachable w ∧ egldOf w w.self < pendingEgld w + withdrawable w + feesReserve w :=
  ⟨reachable_run deposited_reachable _, by decide +kernel⟩

/-- **C44.** The unbonding total is the sum over providers, and the answer `x` of a provider that records at least `x`
unbonding moves exactly `x` from both to the withdrawable pool; no other provider and no other pool figure changes. -/
theorem C44_unbonding_total {w : World} (hr : Reachable w) : IsSum (figure (·.unstaked) w) (unbonding w) := by
  have := isSum_figure w (·.unstaked)
  have he := (reachable_ainv hr).unb
  dsimp only [acct] at he
  rw [← he] at this; exact this

theorem C44_withdrawal_moves_exactly {w w' : World} {i : Nat} {p : Addr} {x r : Nat} (hr : Reachable w)
    (hf : w.flights[i]? = some (.withdraw p)) (hx : x ≤ figure (·.unstaked) w p)
    (h : step w (.deliver i (.ok x r)) = .ok w') :
    unbonding w' + x = unbonding w ∧ withdrawable w' = withdrawable w + x ∧
    figure (·.unstaked) w' p + x = figure (·.unstaked) w p ∧
    egldOf w' w.self = egldOf w w.self + x ∧
    (∀ q, q ≠ p → provider w' q = provider w q) ∧
    (∀ f : ProviderData → Nat, (∀ d y, f { d with unstaked := y } = f d) → figure f w' p = figure f w p) ∧
    pendingEgld w' = pendingEgld w ∧ reserve w' = reserve w ∧ supply w' = supply w ∧ feesReserve w' = feesReserve w ∧
    toUndelegate w' = toUndelegate w := by
  have hbal : (credit w.egld w.self x).get 0 w.self = w.egld.get 0 w.self + x := by rw [get_credit, if_pos rfl]
  obtain ⟨f, hf', hcb⟩ := deliver_ok h
  rw [hf] at hf'
  simp only [Option.some.injEq] at hf'
  subst hf'
  have hle := (C44_unbonding_total hr).le p
  -- the callback cannot fail
  have hok : withdrawTokensCb (arrive w i (.withdraw p) (.ok x r)) p x = .ok w' := by
    rcases hcb with hcb | ⟨⟨e, he⟩, _⟩
    · exact hcb
    · exfalso
      have hne : ∃ w2, withdrawTokensCb (arrive w i (.withdraw p) (.ok x r)) p x = .ok w2 := by
        rcases Nat.eq_zero_or_pos x with h0 | h0
        · exact ⟨_, withdrawTokensCb_ok.2 (.inl ⟨h0, rfl⟩)⟩
        · have hd : ∃ d, w.st.data.get none p = some d ∧ x ≤ d.unstaked := by
            unfold figure provider at hx
            cases hg : w.st.data.get none p with
            | none => rw [hg] at hx; simp at hx; omega
            | some d => rw [hg] at hx; exact ⟨d, rfl, hx⟩
          obtain ⟨d, hd, hdx⟩ := hd
          have hub : x ≤ w.st.r.toUnbond := Nat.le_trans hx hle
          have ht : ∃ t, w.st.lsToken = some t := by
            cases ht : w.st.lsToken with
            | none => have := reachable_quiet hr ht; rw [this] at hub; simp at hub; omega
            | some t => exact ⟨t, rfl⟩
          obtain ⟨t, ht⟩ := ht
          exact ⟨_, withdrawTokensCb_ok.2 (.inr ⟨h0, t, d, ht, hd, hdx, hub, rfl⟩)⟩
      obtain ⟨w2, h2⟩ := hne
      have he' : withdrawTokensCb (arrive w i (.withdraw p) (.ok x r)) p x = .error e := he
      rw [h2] at he'; cases he'
  rcases withdrawTokensCb_ok.1 hok with ⟨h0, rfl⟩ | ⟨h0, t, d, ht, hd, h1, h2, rfl⟩
  · subst h0
    exact ⟨rfl, rfl, rfl, hbal, fun _ _ => rfl, fun _ _ => rfl, rfl, rfl, rfl, rfl, rfl⟩
  · have hd' : w.st.data.get none p = some d := hd
    have h2' : x ≤ w.st.r.toUnbond := h2
    have hget : ∀ q, (w.st.data.set p (some { d with unstaked := d.unstaked - x })).get none q =
        if p = q then some { d with unstaked := d.unstaked - x } else w.st.data.get none q := fun q => Map.get_set _ _ _ _ _
    refine ⟨?_, rfl, ?_, hbal, ?_, ?_, rfl, rfl, rfl, rfl, rfl⟩
    · show w.st.r.toUnbond - x + x = w.st.r.toUnbond; omega
    · unfold figure provider
      show (match (w.st.data.set p (some { d with unstaked := d.unstaked - x })).get none p with
        | some d => d.unstaked | none => 0) + x = _
      rw [hget, if_pos rfl, hd']
      show d.unstaked - x + x = d.unstaked; omega
    · intro q hq
      show (w.st.data.set p (some { d with unstaked := d.unstaked - x })).get none q = _
      rw [hget, if_neg (Ne.symm hq)]; rfl
    · intro f hf
      unfold figure provider
      show (match (w.st.data.set p (some { d with unstaked := d.unstaked - x })).get none p with
        | some d => f d | none => 0) = _
      rw [hget, if_pos rfl, hd']
      exact hf d _

/-- Two providers are unbonding; the first answers in full. -/
example : Reachable returned ∧ returned.flights[0]? = some (.withdraw 21) ∧
    38672954215174376577 ≤ figure (·.unstaked) returned 21 ∧ 0 < figure (·.unstaked) returned 22 ∧
    works returned (.deliver 0 (.ok 38672954215174376577 0)) = true :=
  ⟨returned_reachable, by decide +kernel, by decide +kernel, by decide +kernel, by decide +kernel⟩

/-- **C44**, more than recorded: the callback fails, nothing is moved, and the EGLD stays in the contract without being recorded
anywhere. -/
theorem C44_excess_stranded {w : World} {i : Nat} {p : Addr} {x r : Nat} (hf : w.flights[i]? = some (.withdraw p))
    (hx : figure (·.unstaked) w p < x) :
    ∃ w', step w (.deliver i (.ok x r)) = .ok w' ∧ w'.st = w.st ∧ egldOf w' w.self = egldOf w w.self + x ∧
      w'.flights = w.flights.eraseIdx i ∧ w'.dead = w.dead ++ [.withdraw p] := by
  have hcb : ∃ e, withdrawTokensCb (arrive w i (.withdraw p) (.ok x r)) p x = .error e := by
    cases hq : withdrawTokensCb (arrive w i (.withdraw p) (.ok x r)) p x with
    | error e => exact ⟨e, rfl⟩
    | ok w1 =>
      rcases withdrawTokensCb_ok.1 hq with ⟨h, _⟩ | ⟨_, t, d, _, hd, h, _⟩
      · omega
      · have hd' : w.st.data.get none p = some d := hd
        unfold figure provider at hx
        rw [hd'] at hx
        exact absurd h (Nat.not_le.2 hx)
  obtain ⟨e, hcb⟩ := hcb
  refine ⟨{ arrive w i (.withdraw p) (.ok x r) with dead := w.dead ++ [.withdraw p] }, ?_, rfl, ?_, rfl, rfl⟩
  · show deliver w i (.ok x r) = _
    unfold deliver
    rw [hf]
    show (match withdrawTokensCb (arrive w i (.withdraw p) (.ok x r)) p x with | .ok w' => _ | .error _ => _) = _
    rw [hcb]
    rfl
  · show (credit w.egld w.self x).get 0 w.self = _
    rw [get_credit, if_pos rfl]; rfl

/-- The first provider answers with one unit more than recorded. -/
example : returned.flights[0]? = some (.withdraw 21) ∧ figure (·.unstaked) returned 21 < 38672954215174376578 ∧
    withdrawable (run returned [.deliver 0 (.ok 38672954215174376578 0)]) = withdrawable returned := by decide +kernel

end LS
