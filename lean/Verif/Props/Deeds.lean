import Verif.Proofs.Deeds
import Verif.Demo

/-!
# C119: operators and providers decide when users get their EGLD, not how much

Everything that happens is one of seven kinds of deeds, or nothing, as far as owners are concerned; which one can be read off the
transaction, and what it does to a purse takes three lines of arithmetic that know nothing of providers, batches, queues and callbacks.
-/

namespace LS
open Spec Demo

/-- **C119**.  Take any group of accounts, the contract not among them, any reachable state and any transaction whatsoever.  What it
does to the LS tokens of the group, to its EGLD and unstake tokens together, and to the two figures that make the price, is exactly what
its deeds do: to the last unit, rounding included. -/
theorem C119_step {C : Finset Addr} {w w' : World} {op : Op} {u u' : Nat} (hr : Reachable w) (hs : step w op = .ok w')
    (hself : w.self ∉ C) (hu : IsSum (unstakesIn C w) u) (hu' : IsSum (unstakesIn C w') u') :
    purse C w' u' = (purse C w u).afterAll C (deeds w w' op) := deeds_step op hr hs hself hu hu'

private theorem done_later {w w' : World} {ds : List Deed} (hr : Reachable w) (h : Done w w' ds) : Reachable w' ∧ w'.self = w.self := by
  induction h with
  | nil => exact ⟨hr, rfl⟩
  | snoc op _ hs ih =>
    exact ⟨.step op ih.1 hs, (frame_step op (reachable_regInv ih.1) (reachable_issInv ih.1) hs).self.trans ih.2⟩

/-- **C119**, over any history. -/
theorem C119_history {C : Finset Addr} {w w' : World} {ds : List Deed} {u u' : Nat} (hr : Reachable w) (hself : w.self ∉ C)
    (h : Done w w' ds) (hu : IsSum (unstakesIn C w) u) (hu' : IsSum (unstakesIn C w') u') :
    purse C w' u' = (purse C w u).afterAll C ds := by
  induction h generalizing u' with
  | nil => rw [hu'.unique hu]; rfl
  | @snoc w1 w2 ds op h1 hs ih =>
    obtain ⟨hr1, e1⟩ := done_later hr h1
    rw [C119_step hr1 hs (e1 ▸ hself) (isSum_unstakesIn C w1) hu', ih (isSum_unstakesIn C w1)]
    unfold Purse.afterAll
    rw [List.foldl_append]

/-- **C119**, every history has its deeds, whatever was attempted in it. -/
theorem C119_all (w : World) (ops : List Op) : Done w (run w ops) (deedsOf w ops) := by
  suffices H : ∀ (ops : List Op) (w1 : World) (ds : List Deed), Done w w1 ds → Done w (run w1 ops) (ds ++ deedsOf w1 ops) from
    H ops w [] .nil
  intro ops
  induction ops with
  | nil => exact fun w1 ds h => by rw [deedsOf, List.append_nil]; exact h
  | cons op ops ih =>
    intro w1 ds h
    show Done w (run (exec w1 op) ops) _
    unfold deedsOf exec
    cases hs : step w1 op with
    | ok w2 =>
      dsimp only
      rw [← List.append_assoc]
      exact ih _ _ (.snoc op h hs)
    | error _ => exact ih _ _ h

/-- **C119**, the claim.  Two pools, with different providers, batches, queues, roles and settings if need be, that agree on the LS tokens
in existence, the reserve and the purse of a group; and two histories of any length with the same deeds, whatever managers and providers
did in between.  The group ends with the same LS tokens, and the same EGLD and unstake tokens together; and both pools with the same LS
tokens in existence and the same reserve, so at the same price. -/
theorem C119_same {C : Finset Addr} {w1 w2 w1' w2' : World} {ds : List Deed} {u1 u2 u1' u2' : Nat} (hr1 : Reachable w1) (hr2 : Reachable w2)
    (hs1 : w1.self ∉ C) (hs2 : w2.self ∉ C) (h1 : Done w1 w1' ds) (h2 : Done w2 w2' ds)
    (hu1 : IsSum (unstakesIn C w1) u1) (hu2 : IsSum (unstakesIn C w2) u2) (hu1' : IsSum (unstakesIn C w1') u1')
    (hu2' : IsSum (unstakesIn C w2') u2') (hS : supply w1 = supply w2) (hR : reserve w1 = reserve w2)
    (hl : ∑ a ∈ C, lsOf w1 a = ∑ a ∈ C, lsOf w2 a) (he : ∑ a ∈ C, egldOf w1 a + u1 = ∑ a ∈ C, egldOf w2 a + u2) :
    supply w1' = supply w2' ∧ reserve w1' = reserve w2' ∧ ∑ a ∈ C, lsOf w1' a = ∑ a ∈ C, lsOf w2' a ∧
    ∑ a ∈ C, egldOf w1' a + u1' = ∑ a ∈ C, egldOf w2' a + u2' := by
  have e : purse C w1 u1 = purse C w2 u2 := by
    unfold purse
    ext <;> dsimp only <;> omega
  have k := (C119_history hr1 hs1 h1 hu1 hu1').trans ((congrArg (·.afterAll C ds) e).trans (C119_history hr2 hs2 h2 hu2 hu2').symm)
  obtain ⟨k1, k2, k3, k4⟩ := Purse.mk.inj k
  exact ⟨k1, k2, by omega, by omega⟩

/-- **C119**, for every account by itself: two histories from the same state with the same deeds leave it the same LS tokens, and the
same EGLD and unstake tokens together. -/
theorem C119_account {w w1 w2 : World} {ds : List Deed} (hr : Reachable w) (h1 : Done w w1 ds) (h2 : Done w w2 ds)
    {a : Addr} (ha : a ≠ w.self) {u1 u2 : Nat} (hu1 : IsSum (unstakesIn {a} w1) u1) (hu2 : IsSum (unstakesIn {a} w2) u2) :
    supply w1 = supply w2 ∧ reserve w1 = reserve w2 ∧ lsOf w1 a = lsOf w2 a ∧ egldOf w1 a + u1 = egldOf w2 a + u2 := by
  have hself : w.self ∉ ({a} : Finset Addr) := by simpa using Ne.symm ha
  have := C119_same hr hr hself hself h1 h2 (isSum_unstakesIn {a} w) (isSum_unstakesIn {a} w) hu1 hu2 rfl rfl rfl rfl
  simpa using this

/-- **C119**, what nobody did, changes nothing: a history without deeds, of batches, answers of providers, settings and clock ticks,
leaves everybody's LS tokens, EGLD and unstake tokens together, and the price, as they were. -/
theorem C119_idle {C : Finset Addr} {w w' : World} {u u' : Nat} (hr : Reachable w) (hself : w.self ∉ C) (h : Done w w' [])
    (hu : IsSum (unstakesIn C w) u) (hu' : IsSum (unstakesIn C w') u') :
    supply w' = supply w ∧ reserve w' = reserve w ∧ ∑ a ∈ C, lsOf w' a = ∑ a ∈ C, lsOf w a ∧
    ∑ a ∈ C, egldOf w' a + u' = ∑ a ∈ C, egldOf w a + u := by
  have hh : purse C w' u' = purse C w u := C119_history hr hself h hu hu'
  obtain ⟨k1, k2, k3, k4⟩ := Purse.mk.inj hh
  exact ⟨k1, k2, by omega, by omega⟩

/-- **C119**, and what others did, neither: when no deed is about a member of the group, it keeps its LS tokens, and its EGLD and unstake
tokens together. -/
theorem C119_others {C : Finset Addr} {w w' : World} {ds : List Deed} {u u' : Nat} (hr : Reachable w) (hself : w.self ∉ C)
    (h : Done w w' ds) (ho : ∀ d ∈ ds, ∀ a, d.who = some a → a ∉ C) (hu : IsSum (unstakesIn C w) u) (hu' : IsSum (unstakesIn C w') u') :
    ∑ a ∈ C, lsOf w' a = ∑ a ∈ C, lsOf w a ∧ ∑ a ∈ C, egldOf w' a + u' = ∑ a ∈ C, egldOf w a + u := by
  have key : ∀ (ds : List Deed) (p : Purse), (∀ d ∈ ds, ∀ a, d.who = some a → a ∉ C) →
      (p.afterAll C ds).ls = p.ls ∧ (p.afterAll C ds).cash = p.cash := by
    intro ds
    induction ds with
    | nil => exact fun p _ => ⟨rfl, rfl⟩
    | cons d ds ih =>
      intro p hd
      obtain ⟨i1, i2⟩ := ih (p.after C d) fun x hx => hd x (List.mem_cons_of_mem _ hx)
      have h0 := hd d (List.mem_cons_self ..)
      have e : (p.after C d).ls = p.ls ∧ (p.after C d).cash = p.cash := by
        cases d with
        | reward x => exact ⟨rfl, rfl⟩
        | _ => simp [Purse.after, ofGroup, h0 _ rfl]
      exact ⟨i1.trans e.1, i2.trans e.2⟩
  have hh := C119_history hr hself h hu hu'
  obtain ⟨k1, k2⟩ := key ds (purse C w u) ho
  rw [← hh] at k1 k2
  unfold purse at k1 k2
  dsimp only at k1 k2
  exact ⟨by omega, by omega⟩

/-- **C119**, the arithmetic of a redemption never goes below zero: there are that many LS tokens, the redeemer has them, and the reserve
has the EGLD. -/
theorem C119_covered {w w' : World} {op : Op} {a : Addr} {l : Nat} (hs : step w op = .ok w') (hd : .redeem a l ∈ deeds w w' op) :
    0 < l ∧ l ≤ lsOf w a ∧ l ≤ supply w ∧ egldFor (supply w) (reserve w) l ≤ reserve w := by
  cases op with
  | unDelegate c v ps =>
    have hl : 0 < handedIn ps := by
      obtain ⟨_, _, _, _, _, _, _, _, _, _, _, _, _, rfl, _, h0, _⟩ := unDelegate_ok hs
      exact h0
    obtain ⟨t, l', i, x, n, _, rfl, _, _, hiu, h1, _, h3, h4, _⟩ := C02_unDelegate_pays_pro_rata hs
    simp only [deeds, handedIn, List.mem_singleton, Deed.redeem.injEq] at hd
    obtain ⟨rfl, rfl⟩ := hd
    exact ⟨hl, by omega, by omega, by omega⟩
  | deliver i o => cases o <;> simp only [deeds] at hd <;> split at hd <;> (try split at hd) <;> simp at hd
  | issued i o => cases o <;> simp only [deeds] at hd <;> (try split at hd) <;> simp at hd
  | _ => simp [deeds] at hd

/-! ### Two ways from the same deposits: at once, and by way of the providers -/

/-- Rewards arrive, then account 11 redeems 40 LS tokens while the deposits still wait: it is paid in EGLD, at once. -/
def paidAtOnce : List Op := [.claimRewards 1, .deliver 0 (.ok (E 7) (E 7)), .unDelegate 11 0 [⟨500, 0, E 40⟩]]

/-- The deposits are delegated, rewards arrive, they are delegated too, time passes, and only then account 11 redeems: it gets unstake
tokens. -/
def paidLater : List Op := [
  .delegatePending 1 none, .deliver 0 (.ok 0 0), .deliver 0 (.ok 0 0), .claimRewards 1, .deliver 0 (.ok (E 7) (E 7)),
  .delegatePending 1 none, .deliver 0 (.ok 0 0), .deliver 0 (.ok 0 0), .advance 50, .unDelegate 11 0 [⟨500, 0, E 40⟩]]

/-- The same deeds, so the same holdings, 41.768 EGLD in one case and as much in unstake tokens in the other. -/
example : Reachable deposited ∧ (11 : Addr) ≠ deposited.self ∧
    deedsOf deposited paidAtOnce = [.reward 6720000000000000000, .redeem 11 (E 40)] ∧
    deedsOf deposited paidLater = deedsOf deposited paidAtOnce ∧
    egldOf (run deposited paidAtOnce) 11 = egldOf deposited 11 + 41768421052631578947 ∧
    unstakeOf (run deposited paidAtOnce) 1 11 = 0 ∧
    egldOf (run deposited paidLater) 11 = egldOf deposited 11 ∧
    unstakeOf (run deposited paidLater) 1 11 = 41768421052631578947 := by
  refine ⟨deposited_reachable, by decide +kernel, by decide +kernel, by decide +kernel, by decide +kernel, by decide +kernel, by decide +kernel,
    by decide +kernel⟩

/-- A long history without deeds: from the redemption to the arrival of the EGLD of both providers; and one that is about others. -/
example : deedsOf redeemed [.unDelegatePending 1 none, .deliver 0 (.ok 0 0), .deliver 0 (.ok 0 0), .advance 60, .withdrawPending 1 21,
      .withdrawPending 1 22, .deliver 0 (.ok 38672954215174376577 0), .deliver 0 (.ok 3095466837457202370 0)] = [] ∧
    withdrawable ready = 41768421052631578947 ∧
    deedsOf ready [.withdraw 11 0 [⟨501, 1, E 20⟩], .transferLs 11 13 (E 1), .delegate 13 (E 2)] =
      [.give 11 0, .giveLs 11 (E 1), .getLs 13 (E 1), .give 13 (E 2), .join 13 (E 2)] ∧
    lsOf ready 12 = E 50 := by
  refine ⟨by decide +kernel, by decide +kernel, by decide +kernel, by decide +kernel⟩

end LS
