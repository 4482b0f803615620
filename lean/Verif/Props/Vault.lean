import Verif.Props.Batch
import Verif.Props.Callbacks

/-!
# C110: the pool is a machine of thirteen numbers

The contract has a registry, scores, lists, roles, settings, tokens and promises.  For everything that has to do with money it is a
machine of thirteen numbers with seventeen moves, written down here without reference to the contract; every transaction is one
of these moves, and which one can be read off the transaction.  What is provable of the machine, with a few lines of arithmetic, is then
true of the contract.
-/

namespace LS
open Spec Demo

/-! ### The machine -/

/-- The numbers. -/
@[ext] structure Spec.Vault where
  /-- LS tokens the rate counts -/
  supply : Nat
  /-- EGLD that belongs to them -/
  reserve : Nat
  /-- EGLD waiting to be delegated -/
  pending : Nat
  /-- EGLD waiting to be un-delegated -/
  queue : Nat
  /-- EGLD waiting to be withdrawn by users -/
  withdrawable : Nat
  /-- EGLD unbonding at the providers -/
  unbonding : Nat
  /-- EGLD of the protocol -/
  fees : Nat
  /-- EGLD staked at the providers -/
  stake : Nat
  /-- EGLD in delegations not yet answered -/
  sent : Nat
  /-- EGLD in un-delegations not yet answered -/
  asked : Nat
  /-- EGLD in the contract's account -/
  cash : Nat
  /-- EGLD that migrations have added to the reserve -/
  lentReserve : Nat
  /-- EGLD that migrations have added to what is pending -/
  lentPending : Nat

/-- The moves. -/
inductive Spec.Move
  | deposit (matched fresh : Nat)
  | redeem (l now later : Nat)
  | pay (x : Nat)
  | send (x : Nat)
  | delegated (x : Nat)
  | returned (x : Nat)
  | ask (x : Nat)
  | agreed (x : Nat)
  | refused (x : Nat)
  | collected (x : Nat)
  | reward (total fee : Nat)
  | payFees
  | join (x : Nat)
  | migrate (x : Nat)
  | migratePending (x : Nat)
  | donate (x : Nat)
  | rest

/-- What a move needs, when `g` EGLD come with it. -/
def Spec.MayMove (v : Vault) (g : Nat) : Move → Prop
  | .deposit p e => g = p + e ∧ 0 < g ∧ IsSplit v.queue (p + e) p e ∧
      (0 < e → oneEgld ≤ v.pending + e) ∧ 0 < lsFor v.supply v.reserve (p + e)
  | .redeem l i u => g = 0 ∧ 0 < l ∧ l ≤ v.supply ∧ 0 < i + u ∧ i + u = egldFor v.supply v.reserve l ∧
      IsSplit v.pending (i + u) i u ∧ (0 < u → oneEgld ≤ v.queue + u) ∧ i ≤ v.cash
  | .pay x => x ≤ v.withdrawable ∧ x ≤ v.cash + g
  | .send x => g = 0 ∧ x ≤ v.pending ∧ x ≤ v.cash
  | .delegated x => x ≤ v.sent
  | .returned x => g = x ∧ x ≤ v.sent
  | .ask x => g = 0 ∧ x ≤ v.queue
  | .agreed x => x ≤ v.asked ∧ x ≤ v.stake
  | .refused x => g = 0 ∧ x ≤ v.asked
  | .collected x => g = x ∧ 0 < x ∧ x ≤ v.unbonding
  | .reward r f => f ≤ r ∧ 0 < r
  | .payFees => g = 0 ∧ v.fees ≤ v.cash
  | .join x => 0 < lsFor v.supply v.reserve x
  | .migrate x => g = 0 ∧ 0 < lsFor v.supply v.reserve x
  | .migratePending x => g = x
  | .donate x => g = x
  | .rest => True

/-- What a move does to the numbers, when `g` EGLD come with it. -/
def Spec.Vault.after (v : Vault) (g : Nat) : Move → Vault
  | .deposit p e => { v with
      supply := v.supply + lsFor v.supply v.reserve (p + e), reserve := v.reserve + (p + e), pending := v.pending + e,
      queue := v.queue - p, withdrawable := v.withdrawable + p, cash := v.cash + g }
  | .redeem l i u => { v with
      supply := v.supply - l, reserve := v.reserve - (i + u), pending := v.pending - i, queue := v.queue + u,
      cash := v.cash + g - i }
  | .pay x => { v with withdrawable := v.withdrawable - x, cash := v.cash + g - x }
  | .send x => { v with pending := v.pending - x, sent := v.sent + x, cash := v.cash + g - x }
  | .delegated x => { v with sent := v.sent - x, stake := v.stake + x, cash := v.cash + g }
  | .returned x => { v with sent := v.sent - x, pending := v.pending + x, cash := v.cash + g }
  | .ask x => { v with queue := v.queue - x, asked := v.asked + x, cash := v.cash + g }
  | .agreed x => { v with asked := v.asked - x, stake := v.stake - x, unbonding := v.unbonding + x, cash := v.cash + g }
  | .refused x => { v with asked := v.asked - x, queue := v.queue + x, cash := v.cash + g }
  | .collected x => { v with unbonding := v.unbonding - x, withdrawable := v.withdrawable + x, cash := v.cash + g }
  | .reward r f => { v with
      fees := v.fees + f, pending := v.pending + (r - f), reserve := v.reserve + (r - f), cash := v.cash + g }
  | .payFees => { v with fees := 0, cash := v.cash + g - v.fees }
  | .join x => { v with
      supply := v.supply + lsFor v.supply v.reserve x, reserve := v.reserve + x, stake := v.stake + x, cash := v.cash + g }
  | .migrate x => { v with
      supply := v.supply + lsFor v.supply v.reserve x, reserve := v.reserve + x, lentReserve := v.lentReserve + x,
      cash := v.cash + g }
  | .migratePending x => { v with
      pending := v.pending + x, lentPending := v.lentPending + x, cash := v.cash + g }
  | .donate x => { v with reserve := v.reserve + x, pending := v.pending + x, cash := v.cash + g }
  | .rest => { v with cash := v.cash + g }

/-- The vault a deployment starts with. -/
def Spec.Vault.empty : Vault := ⟨0, 0, 0, 0, 0, 0, 0, 0, 0, 0, 0, 0, 0⟩

/-- A history of the machine whose moves satisfy `P`. -/
inductive Spec.Vault.Run (P : Nat → Move → Prop) : Vault → Prop
  | start : Vault.Run P Vault.empty
  | move {v : Vault} (g : Nat) (m : Move) : Vault.Run P v → MayMove v g m → P g m → Vault.Run P (v.after g m)

/-! ### What the machine has to do with the contract -/

/-- The vault shows the figures of a world. -/
structure Spec.ShowsVault (w : World) (v : Vault) : Prop where
  supply : v.supply = supply w
  reserve : v.reserve = reserve w
  pending : v.pending = pendingEgld w
  queue : v.queue = toUndelegate w
  withdrawable : v.withdrawable = withdrawable w
  unbonding : v.unbonding = unbonding w
  fees : v.fees = feesReserve w
  stake : IsSum (figure (·.staked) w) v.stake
  sent : IsSum (figure (·.pStake) w) v.sent
  asked : IsSum (figure (·.pUnstake) w) v.asked
  cash : v.cash = egldOf w w.self
  lentReserve : v.lentReserve = w.migratedVirtual
  lentPending : v.lentPending = w.migratedPending

/-- The move an answer to a call is, when its callback goes through. -/
def Spec.answerMove (w : World) : Flight → Outcome → Move
  | .delegate _ a, .ok .. => .delegated a
  | .delegate _ a, .err => .returned a
  | .undelegate _ a, .ok .. => .agreed a
  | .undelegate _ a, .err => .refused a
  | .withdraw _, .ok e _ => if e = 0 then .rest else .collected e
  | .withdraw _, .err => .rest
  | .claim _, .ok _ r => if r = 0 then .rest else .reward r (r * w.st.feeRate / 10000)
  | .claim _, .err => .rest
  | .whitelist _ a _, .ok .. => .join a
  | .whitelist _ _ _, .err => .rest

/-- Which move a transaction is. -/
def Spec.IsMove (w : World) (op : Op) (w' : World) (m : Move) : Prop :=
  match op with
  | .delegate _ a => ∃ p e, p + e = a ∧ m = .deposit p e
  | .unDelegate _ _ ps => ∃ t l i u, ps = [⟨t, 0, l⟩] ∧ m = .redeem l i u
  | .withdraw _ _ ps => m = .pay (min (ps.map (·.amount)).sum (withdrawable w))
  | .delegatePending _ o => ∃ b, w'.flights = w.flights ++ delegations b ∧ batchTotal b ≤ batchAsked (pendingEgld w) o ∧
      m = .send (batchTotal b)
  | .unDelegatePending _ o => ∃ b, w'.flights = w.flights ++ undelegations b ∧ batchTotal b ≤ batchAsked (toUndelegate w) o ∧
      m = .ask (batchTotal b)
  | .claimFees .. => m = .payFees
  | .migrate _ a _ => m = .migrate a
  | .migratePending _ a => m = .migratePending a
  | .addRewards _ a => m = .donate a
  | .deliver i o => ∃ f, w.flights[i]? = some f ∧
      (w'.dead = w.dead → m = answerMove w f o) ∧ (w'.dead ≠ w.dead → m = .rest)
  | _ => m = .rest

/-- EGLD that come with an answer. -/
def Spec.answerBrings : Flight → Outcome → Nat
  | _, .ok e _ => e
  | .delegate _ a, .err => a
  | .whitelist _ a _, .err => a
  | _, .err => 0

/-- EGLD that come with a transaction into the contract's account, to stay there or to be paid out of it.  A refused first
delegation is passed on to the one who sent it, unless the callback fails. -/
def Spec.Comes (w : World) (op : Op) (w' : World) (g : Nat) : Prop :=
  match op with
  | .delegate _ a => g = a
  | .withdraw _ a _ => g = a
  | .migratePending _ a => g = a
  | .addRewards _ a => g = a
  | .giveEgld _ a => g = a
  | .deliver i o => ∃ f, w.flights[i]? = some f ∧
      ((∃ p a u, f = .whitelist p a u ∧ o = .err ∧ w'.dead = w.dead) ∧ g = 0 ∨
       ¬ (∃ p a u, f = .whitelist p a u ∧ o = .err ∧ w'.dead = w.dead) ∧ g = answerBrings f o)
  | .starve i o => ∃ f, w.flights[i]? = some f ∧ g = answerBrings f o
  | _ => g = 0

/-- A transaction as a move. -/
def Spec.IsTurn (w : World) (op : Op) (w' : World) (g : Nat) (m : Move) : Prop := IsMove w op w' m ∧ Comes w op w' g

private def vaultOf (w : World) : Vault :=
  { supply := w.st.r.lsSupply, reserve := w.st.r.reserve, pending := w.st.r.pending, queue := w.st.r.toUnstake,
    withdrawable := w.st.r.withdrawn, unbonding := w.st.r.toUnbond, fees := w.st.r.fees,
    stake := dataSum (·.staked) w.st.data, sent := dataSum (·.pStake) w.st.data, asked := dataSum (·.pUnstake) w.st.data,
    cash := w.egld.get 0 w.self, lentReserve := w.migratedVirtual, lentPending := w.migratedPending }

private theorem shows_vaultOf (w : World) : ShowsVault w (vaultOf w) :=
  ⟨rfl, rfl, rfl, rfl, rfl, rfl, rfl, isSum_figure w _, isSum_figure w _, isSum_figure w _, rfl, rfl, rfl⟩

private theorem shows_eq {w : World} {v : Vault} (h : ShowsVault w v) : v = vaultOf w := by
  obtain ⟨h1, h2, h3, h4, h5, h6, h7, h8, h9, h10, h11, h12, h13⟩ := h
  exact Vault.ext h1 h2 h3 h4 h5 h6 h7 (h8.unique (isSum_figure w _)) (h9.unique (isSum_figure w _))
    (h10.unique (isSum_figure w _)) h11 h12 h13

private def Turns (w : World) (op : Op) (w' : World) : Prop :=
  ∃ g m, IsTurn w op w' g m ∧ MayMove (vaultOf w) g m ∧ vaultOf w' = (vaultOf w).after g m

private theorem turn_rest {w w' : World} {op : Op} {g : Nat} (hm : IsMove w op w' .rest) (hg : Comes w op w' g) (h1 : w'.st.r = w.st.r)
    (h5 : w'.egld.get 0 w'.self = w.egld.get 0 w.self + g)
    (h6 : ∀ f : ProviderData → Nat, (∀ d d' : ProviderData, d'.staked = d.staked → d'.pStake = d.pStake →
      d'.pUnstake = d.pUnstake → f d' = f d) → dataSum f w'.st.data = dataSum f w.st.data)
    (h7 : w'.migratedVirtual = w.migratedVirtual) (h8 : w'.migratedPending = w.migratedPending) : Turns w op w' := by
  refine ⟨g, .rest, ⟨hm, hg⟩, True.intro, ?_⟩
  unfold vaultOf
  rw [h1, h5, h6 _ (fun _ _ h _ _ => h), h6 _ (fun _ _ _ h _ => h), h6 _ (fun _ _ _ _ h => h), h7, h8]
  rfl

private theorem turn_delegate {w w' : World} {c : Addr} {v : Nat} (hs : step w (.delegate c v) = .ok w') :
    Turns w (.delegate c v) w' := by
  obtain ⟨hc, hv, _, m, t, p, e, l, hm, _, ha, _, he, hq, rfl⟩ := delegate_ok.1 hs
  have hsp := split_of ha
  obtain ⟨hl, rfl⟩ := lsQuote_iff.1 hq
  have hpe := hsp.sum
  subst hpe
  refine ⟨p + e, .deposit p e, ⟨⟨p, e, rfl, rfl⟩, rfl⟩, ⟨rfl, hv, hsp, he, hl⟩, ?_⟩
  have hb := bal_paid hc hm
  apply Vault.ext <;> first | rfl | exact hb

private theorem turn_unDelegate {w w' : World} {c : Addr} {v : Nat} {ps : List Payment}
    (hs : step w (.unDelegate c v ps) = .ok w') : Turns w (.unDelegate c v ps) w' := by
  obtain ⟨hc, _, _, amount, t, m0, m1, m2, e, i, u, w1, w2, hps, _, hl, hg, _, hd1, hd2, hq, ha, hi, _, hi', hu, rfl⟩ :=
    unDelegate_ok hs
  have hsp := split_of ha
  have hiu := hsp.sum
  subst hiu
  obtain ⟨q1, q2, q3, q4⟩ := hq
  have hw1 : ∃ E, w1 = { w with egld := E, ls := m2 } ∧ i ≤ w.egld.get 0 w.self ∧
      E.get 0 w.self = w.egld.get 0 w.self - i := by
    rcases hi' with ⟨h0, rfl⟩ | ⟨h0, m, hm, rfl⟩
    · exact ⟨_, rfl, by omega, by rw [hg]; omega⟩
    · refine ⟨_, rfl, by rw [← hg]; exact debit_le hm, ?_⟩
      rw [get_credit, get_debit hm, hg]; simp [hc]
  obtain ⟨E, rfl, hb, hE⟩ := hw1
  refine ⟨0, .redeem amount i u, ⟨⟨t, amount, i, u, hps, rfl⟩, rfl⟩, ⟨rfl, hl, q1, q3, q4, hsp, ?_, hb⟩, ?_⟩
  · intro hu0
    rcases hu with ⟨h0, _⟩ | ⟨_, h0, _⟩
    · omega
    · exact h0
  · rcases hu with ⟨h0, rfl⟩ | ⟨h0, _, _, w3, n, m, hM, hm, rfl⟩
    · apply Vault.ext <;> first | rfl | exact hE
    · cases hM <;> (apply Vault.ext <;> first | rfl | exact hE)

private theorem turn_withdraw {w w' : World} {c : Addr} {v : Nat} {ps : List Payment} (hr : RegInv w)
    (hs : step w (.withdraw c v ps) = .ok w') : Turns w (.withdraw c v ps) w' := by
  obtain ⟨hc, _, _, uid, t, m0, m, E, N, _, _, _, _, hd1, hd2, rfl, _, _, _, hN, rfl⟩ := withdraw_ok hr.tok hs
  have hb := bal_paid hc hd1
  have hle := debit_le hd2
  rw [hb] at hle
  refine ⟨v, .pay (min (amtSum ps) w.st.r.withdrawn), ⟨rfl, rfl⟩, ⟨Nat.min_le_right _ _, hle⟩, ?_⟩
  have hE : (credit m c (min (amtSum ps) w.st.r.withdrawn)).get 0 w.self =
      w.egld.get 0 w.self + v - min (amtSum ps) w.st.r.withdrawn := by
    rw [get_credit, get_debit hd2, hb]; simp [hc]
  apply Vault.ext <;> first | rfl | exact hE

private theorem turn_delegatePending {w w' : World} {c : Addr} {o : Option Nat}
    (hs : step w (.delegatePending c o) = .ok w') : Turns w (.delegatePending c o) w' := by
  obtain ⟨_, _, _, t, amt, sels, left, E, D, _, hb, hsum, _, _, hE, _, _, hps, hf, rfl⟩ := delegatePending_ok hs
  obtain ⟨_, _, hle, _, _⟩ := batchAmount_ok hb
  refine ⟨0, .send (batchTotal (batchOf sels)), ⟨⟨batchOf sels, ?_, ?_, rfl⟩, rfl⟩, ?_, ?_⟩
  · rw [← delegations_eq]; rfl
  · rw [batchTotal_eq]
    unfold pendingEgld
    rw [batchAsked_of hb]
    omega
  · rw [batchTotal_eq]
    refine ⟨rfl, ?_, ?_⟩
    · show _ ≤ w.st.r.pending; omega
    · show _ ≤ w.egld.get 0 w.self; omega
  · rw [batchTotal_eq]
    have h1 : E.get 0 w.self = w.egld.get 0 w.self + 0 - selSum sels := by omega
    have h2 : dataSum (·.staked) D = dataSum (·.staked) w.st.data := hf _ (fun _ _ => rfl)
    have h3 : dataSum (·.pUnstake) D = dataSum (·.pUnstake) w.st.data := hf _ (fun _ _ => rfl)
    apply Vault.ext <;> first | rfl | exact h1 | exact h2 | exact h3 | exact hps

private theorem turn_unDelegatePending {w w' : World} {c : Addr} {o : Option Nat}
    (hs : step w (.unDelegatePending c o) = .ok w') : Turns w (.unDelegatePending c o) w' := by
  obtain ⟨_, _, _, t, amt, sels, left, E, D, _, hb, hsum, _, _, hE, _, hps, hf, rfl⟩ := unDelegatePending_ok hs
  obtain ⟨_, _, hle, _, _⟩ := batchAmount_ok hb
  refine ⟨0, .ask (batchTotal (batchOf sels)), ⟨⟨batchOf sels, ?_, ?_, rfl⟩, rfl⟩, ?_, ?_⟩
  · rw [← undelegations_eq]; rfl
  · rw [batchTotal_eq]
    unfold toUndelegate
    rw [batchAsked_of hb]
    omega
  · rw [batchTotal_eq]
    refine ⟨rfl, ?_⟩
    show _ ≤ w.st.r.toUnstake; omega
  · rw [batchTotal_eq]
    have h1 : E.get 0 w.self = w.egld.get 0 w.self + 0 := hE _
    have h2 : dataSum (·.staked) D = dataSum (·.staked) w.st.data := hf _ (fun _ _ => rfl)
    have h3 : dataSum (·.pStake) D = dataSum (·.pStake) w.st.data := hf _ (fun _ _ => rfl)
    apply Vault.ext <;> first | rfl | exact h1 | exact h2 | exact h3 | exact hps

private theorem settlesAs {w w' : World} {i : Nat} {o : Outcome} {f : Flight} (hf : w.flights[i]? = some f) (hd : w'.dead = w.dead)
    (hn : ¬ ((∃ p a u, f = .whitelist p a u) ∧ o = .err)) {m : Move} (hm : m = answerMove w f o) :
    IsTurn w (.deliver i o) w' (answerBrings f o) m :=
  ⟨⟨f, hf, fun _ => hm, fun h => absurd hd h⟩, f, hf, .inr ⟨fun ⟨p, a, u, h, h', _⟩ => hn ⟨⟨p, a, u, h⟩, h'⟩, rfl⟩⟩

private theorem turn_deliver {w w' : World} {i : Nat} {o : Outcome} (hr : Reachable w) (hs : step w (.deliver i o) = .ok w') :
    Turns w (.deliver i o) w' := by
  obtain ⟨f, hf, hcb⟩ := deliver_ok hs
  have hr0 : RegOk w.st.lsToken w.st.unstakeToken w.st.delegList w.st.undelegList w.st.data w.flights w.dead := reachable_regInv hr
  have hmem : f ∈ w.flights := List.mem_of_getElem? hf
  have hat : attached f o = answerBrings f o := by cases f <;> cases o <;> rfl
  have hbal : (credit w.egld w.self (attached f o)).get 0 w.self = w.egld.get 0 w.self + answerBrings f o := by
    rw [get_credit, hat]; simp
  rcases hcb with hcb | ⟨_, rfl⟩
  swap
  · have hne : ({ arrive w i f o with dead := w.dead ++ [f] } : World).dead ≠ w.dead := by simp
    refine turn_rest ⟨f, hf, fun h => absurd h hne, fun _ => rfl⟩ ⟨f, hf, .inr ⟨fun ⟨_, _, _, _, _, h⟩ => hne h, rfl⟩⟩
      rfl hbal (fun _ _ => rfl) rfl rfl
  cases f with
  | delegate p a =>
    cases o with
    | ok e r =>
      obtain ⟨_, d, h1, h2, rfl⟩ := addLiquidityCb_true_ok.1 hcb
      have h1' : w.st.data.get none p = some d := h1
      have key : ∀ f : ProviderData → Nat, dataSum f (w.st.data.set p (some { d with staked := d.staked + a, pStake := d.pStake - a })) + f d = _ :=
        fun f => dataSum_update f h1'
      refine ⟨e, .delegated a, settlesAs hf rfl (by simp) rfl, Nat.le_trans h2 (le_dataSum (·.pStake) h1'), ?_⟩
      have k1 := key (·.staked)
      have k3 := key (·.pStake)
      have k4 := key (·.pUnstake)
      have k5 := le_dataSum (·.pStake) h1'
      simp only at k1 k3 k4 k5
      apply Vault.ext <;> first
        | rfl
        | exact hbal
        | (show dataSum _ (w.st.data.set p (some _)) = _
           dsimp only [vaultOf, Vault.after]
           omega)
    | err =>
      obtain ⟨t, d, _, h1, h2, rfl⟩ := addLiquidityCb_false_ok.1 hcb
      have h1' : w.st.data.get none p = some d := h1
      have key : ∀ f : ProviderData → Nat, dataSum f (w.st.data.set p (some { d with eligible := false, pStake := d.pStake - a })) + f d = _ :=
        fun f => dataSum_update f h1'
      refine ⟨a, .returned a, settlesAs hf rfl (by simp) rfl, ⟨rfl, Nat.le_trans h2 (le_dataSum (·.pStake) h1')⟩, ?_⟩
      have k1 := key (·.staked)
      have k3 := key (·.pStake)
      have k4 := key (·.pUnstake)
      have k5 := le_dataSum (·.pStake) h1'
      simp only at k1 k3 k4 k5
      apply Vault.ext <;> first
        | rfl
        | exact hbal
        | (show dataSum _ (w.st.data.set p (some _)) = _
           dsimp only [vaultOf, Vault.after]
           omega)
  | undelegate p a =>
    cases o with
    | ok e r =>
      obtain ⟨t, d, _, h1, h2, h3, rfl⟩ := removeLiquidityCb_true_ok.1 hcb
      have h1' : w.st.data.get none p = some d := h1
      have key : ∀ f : ProviderData → Nat, dataSum f (w.st.data.set p (some { d with
          staked := d.staked - a, unstaked := d.unstaked + a, pUnstake := d.pUnstake - a })) + f d = _ :=
        fun f => dataSum_update f h1'
      have k5 := le_dataSum (·.pUnstake) h1'
      have k6 := le_dataSum (·.staked) h1'
      refine ⟨e, .agreed a, settlesAs hf rfl (by simp) rfl, ⟨Nat.le_trans h3 k5, Nat.le_trans h2 k6⟩, ?_⟩
      have k1 := key (·.staked)
      have k3 := key (·.pStake)
      have k4 := key (·.pUnstake)
      simp only at k1 k3 k4 k5 k6
      apply Vault.ext <;> first
        | rfl
        | exact hbal
        | (show dataSum _ (w.st.data.set p (some _)) = _
           dsimp only [vaultOf, Vault.after]
           omega)
    | err =>
      obtain ⟨t, d, _, h1, h2, rfl⟩ := removeLiquidityCb_false_ok.1 hcb
      have h1' : w.st.data.get none p = some d := h1
      have key : ∀ f : ProviderData → Nat, dataSum f (w.st.data.set p (some { d with pUnstake := d.pUnstake - a })) + f d = _ :=
        fun f => dataSum_update f h1'
      have k5 := le_dataSum (·.pUnstake) h1'
      refine ⟨0, .refused a, settlesAs hf rfl (by simp) rfl, ⟨rfl, Nat.le_trans h2 k5⟩, ?_⟩
      have k1 := key (·.staked)
      have k3 := key (·.pStake)
      have k4 := key (·.pUnstake)
      simp only at k1 k3 k4 k5
      apply Vault.ext <;> first
        | rfl
        | exact hbal
        | (show dataSum _ (w.st.data.set p (some _)) = _
           dsimp only [vaultOf, Vault.after]
           omega)
  | withdraw p =>
    cases o with
    | ok v r =>
      rcases withdrawTokensCb_ok.1 hcb with ⟨h0, rfl⟩ | ⟨hpos, t, d, _, h1, h2, h3, rfl⟩
      · obtain ⟨hm, hg⟩ := settlesAs (w' := arrive w i (.withdraw p) (.ok v r)) hf rfl (o := .ok v r) (by simp) (m := .rest)
          (by have h0' : v = 0 := h0
              simp [answerMove, h0'])
        exact turn_rest hm hg rfl hbal (fun _ _ => rfl) rfl rfl
      · have h1' : w.st.data.get none p = some d := h1
        have key : ∀ f : ProviderData → Nat, dataSum f (w.st.data.set p (some { d with unstaked := d.unstaked - v })) + f d = _ :=
          fun f => dataSum_update f h1'
        have hpos' : 0 < v := hpos
        refine ⟨v, .collected v, settlesAs hf rfl (by simp) (by simp [answerMove]; omega), ⟨rfl, hpos, h3⟩, ?_⟩
        have k1 := key (·.staked)
        have k3 := key (·.pStake)
        have k4 := key (·.pUnstake)
        simp only at k1 k3 k4
        apply Vault.ext <;> first
          | rfl
          | exact hbal
          | (show dataSum _ (w.st.data.set p (some _)) = _
             dsimp only [vaultOf, Vault.after]
             omega)
    | err =>
      rcases withdrawTokensCb_ok.1 hcb with ⟨_, rfl⟩ | ⟨hpos, t, d, _, h1, h2, h3, rfl⟩
      · obtain ⟨hm, hg⟩ := settlesAs (w' := arrive w i (.withdraw p) .err) hf rfl (o := .err) (by simp) (m := .rest) rfl
        exact turn_rest hm hg rfl hbal (fun _ _ => rfl) rfl rfl
      · exact absurd hpos (by simp)
  | claim ps =>
    cases o with
    | ok e r =>
      rcases claimRewardsCb_ok.1 hcb with ⟨h0, rfl⟩ | ⟨h0, t, fee, _, hfee, hle, rfl⟩
      · obtain ⟨hm, hg⟩ := settlesAs (w' := arrive w i (.claim ps) (.ok e r)) hf rfl (o := .ok e r) (by simp) (m := .rest)
          (by simp [answerMove, h0])
        exact turn_rest hm hg rfl hbal (fun _ _ => rfl) rfl rfl
      · have hfee' : fee = r * w.st.feeRate / 10000 := hfee
        refine ⟨e, .reward r fee, settlesAs hf rfl (by simp) ?_, ⟨hle, h0⟩, ?_⟩
        · simp only [answerMove]
          rw [if_neg (by omega), hfee']
        · apply Vault.ext <;> first | rfl | exact hbal
    | err =>
      simp only [runCallback, claimRewardsCb, Except.ok.injEq] at hcb
      subst hcb
      obtain ⟨hm, hg⟩ := settlesAs (w' := arrive w i (.claim ps) .err) hf rfl (o := .err) (by simp) (m := .rest) rfl
      exact turn_rest hm hg rfl hbal (fun _ _ => rfl) rfl rfl
  | whitelist p a u =>
    cases o with
    | ok e r =>
      obtain ⟨t, d, l, _, h1, hq, rfl⟩ := whitelistCb_true_ok.1 hcb
      have h1' : w.st.data.get none p = some d := h1
      have key : ∀ f : ProviderData → Nat, dataSum f (w.st.data.set p (some { d with staked := d.staked + a })) + f d = _ :=
        fun f => dataSum_update f h1'
      obtain ⟨hl, rfl⟩ := lsQuote_iff.1 hq
      refine ⟨e, .join a, settlesAs hf rfl (by simp) rfl, hl, ?_⟩
      have k1 := key (·.staked)
      have k3 := key (·.pStake)
      have k4 := key (·.pUnstake)
      simp only at k1 k3 k4
      apply Vault.ext <;> first
        | rfl
        | exact hbal
        | (show dataSum _ (w.st.data.set p (some _)) = _
           dsimp only [vaultOf, Vault.after]
           omega)
    | err =>
      obtain ⟨_, m, hm, rfl⟩ := whitelistCb_false_ok.1 hcb
      obtain ⟨hn, hd⟩ := hr0.wl2 p a u hmem
      have hu := (reachable_wl hr p a u hmem).2
      have hm' : debit (credit w.egld w.self a) w.self a = .ok m := hm
      refine ⟨0, .rest, ⟨⟨_, hf, fun _ => rfl, fun _ => rfl⟩, _, hf, .inl ⟨⟨p, a, u, rfl, rfl, rfl⟩, rfl⟩⟩, True.intro, ?_⟩
      cases hx : w.st.data.get none p with
      | none => exact absurd hx hd
      | some d =>
        obtain ⟨z1, z2, z3, z4⟩ := hr0.zero p d hx hn
        have key : ∀ f : ProviderData → Nat, dataSum f (w.st.data.set p none) + f d = dataSum f w.st.data := by
          intro f
          have := dataSum_set f w.st.data p none
          rw [hx] at this; exact this
        have k1 := key (·.staked)
        have k3 := key (·.pStake)
        have k4 := key (·.pUnstake)
        have hE : (credit m u a).get 0 w.self = w.egld.get 0 w.self + 0 := by
          rw [get_credit, get_debit hm', get_credit, if_neg hu]
          simp
        apply Vault.ext <;> first
          | rfl
          | exact hE
          | (show dataSum _ (w.st.data.set p none) = _
             dsimp only [vaultOf, Vault.after]
             omega)

private theorem turn_step {w w' : World} {op : Op} (hr : Reachable w) (hs : step w op = .ok w') : Turns w op w' := by
  cases op with
  | delegate c v => exact turn_delegate hs
  | unDelegate c v ps => exact turn_unDelegate hs
  | withdraw c v ps => exact turn_withdraw (reachable_regInv hr) hs
  | upgrade => simp only [step, Except.ok.injEq] at hs; subst hs; exact turn_rest (g := 0) rfl rfl rfl rfl (fun _ _ => rfl) rfl rfl
  | delegatePending c a => exact turn_delegatePending hs
  | unDelegatePending c a => exact turn_unDelegatePending hs
  | withdrawPending c p =>
    obtain ⟨_, _, _, _, _, E, hE, rfl⟩ := withdrawPending_ok hs
    exact turn_rest (g := 0) rfl rfl rfl (hE _) (fun _ _ => rfl) rfl rfl
  | claimRewards c =>
    obtain ⟨_, _, _, _, _, E, hE, rfl⟩ := claimRewards_ok hs
    exact turn_rest (g := 0) rfl rfl rfl (hE _) (fun _ _ => rfl) rfl rfl
  | claimFees c a =>
    obtain ⟨_, _, ha, _, _, m, hm, rfl⟩ := claimFees_ok hs
    refine ⟨0, .payFees, ⟨rfl, rfl⟩, ⟨rfl, debit_le hm⟩, ?_⟩
    have hE : (credit m w.st.accumulator w.st.r.fees).get 0 w.self = w.egld.get 0 w.self + 0 - w.st.r.fees := by
      rw [get_credit, get_debit hm]; simp [ha]
    apply Vault.ext <;> first | rfl | exact hE
  | whitelist c v p ad ts cap n apy =>
    obtain ⟨_, _, _, _, hnone, _, _, _, E, hE, _, _, rfl⟩ := whitelist_ok hs
    have key : ∀ f : ProviderData → Nat, dataSum f (w.st.data.set p (some ⟨ad, ts, cap, n, apy, 0, 0, true, 0, 0⟩)) =
        dataSum f w.st.data + f ⟨ad, ts, cap, n, apy, 0, 0, true, 0, 0⟩ := by
      intro f
      have := dataSum_set f w.st.data p (some ⟨ad, ts, cap, n, apy, 0, 0, true, 0, 0⟩)
      rw [hnone] at this; exact this
    refine ⟨0, .rest, ⟨rfl, rfl⟩, True.intro, ?_⟩
    have k1 := key (·.staked)
    have k2 := key (·.pStake)
    have k3 := key (·.pUnstake)
    apply Vault.ext <;> first | rfl | exact hE | exact k1 | exact k2 | exact k3
  | changeAdmin c p a =>
    obtain ⟨_, _, d, hd, rfl⟩ := changeAdmin_ok.1 hs
    exact turn_rest (g := 0) rfl rfl rfl rfl (fun f hf => dataSum_describe f hd (hf _ _ rfl rfl rfl)) rfl rfl
  | changeParams c p ts cap n apy e =>
    obtain ⟨_, _, d, hd, _, rfl⟩ := changeParams_ok.1 hs
    exact turn_rest (g := 0) rfl rfl rfl rfl (fun f hf => dataSum_describe f hd (hf _ _ rfl rfl rfl)) rfl rfl
  | migrate c v o =>
    obtain ⟨_, _, _, _, t, l, _, hq, rfl⟩ := migrate_ok.1 hs
    obtain ⟨hl, rfl⟩ := lsQuote_iff.1 hq
    exact ⟨0, .migrate v, ⟨rfl, rfl⟩, ⟨rfl, hl⟩, by apply Vault.ext <;> rfl⟩
  | migratePending c v =>
    obtain ⟨hc, _, _, _, t, m, _, hm, rfl⟩ := migratePending_ok.1 hs
    refine ⟨v, .migratePending v, ⟨rfl, rfl⟩, rfl, ?_⟩
    have hE := bal_paid hc hm
    apply Vault.ext <;> first | rfl | exact hE
  | addRewards c v =>
    obtain ⟨hc, t, m, _, hm, rfl⟩ := addRewards_ok.1 hs
    refine ⟨v, .donate v, ⟨rfl, rfl⟩, rfl, ?_⟩
    have hE := bal_paid hc hm
    apply Vault.ext <;> first | rfl | exact hE
  | setMigrationSc c a =>
    obtain ⟨_, _, _, rfl⟩ := setMigrationSc_ok.1 hs; exact turn_rest (g := 0) rfl rfl rfl rfl (fun _ _ => rfl) rfl rfl
  | registerLsToken c v =>
    obtain ⟨hc, _, _, _, m, hm, rfl⟩ := registerLsToken_ok.1 hs
    refine turn_rest (g := 0) rfl rfl rfl ?_ (fun _ _ => rfl) rfl rfl
    show m.get 0 w.self = _
    rw [get_debit hm]; simp [hc]
  | registerUnstakeToken c v =>
    obtain ⟨hc, _, _, _, m, hm, rfl⟩ := registerUnstakeToken_ok.1 hs
    refine turn_rest (g := 0) rfl rfl rfl ?_ (fun _ _ => rfl) rfl rfl
    show m.get 0 w.self = _
    rw [get_debit hm]; simp [hc]
  | issued i o =>
    obtain ⟨x, E, hx, _, hE, rfl⟩ := issued_ok.1 hs
    have hb := issued_bal ((reachable_issInv hr).waiting hx).1 hE
    obtain ⟨k, u, v⟩ := x
    cases k <;> exact turn_rest (g := 0) rfl rfl rfl hb (fun _ _ => rfl) rfl rfl
  | owner c cmd =>
    obtain ⟨_, _, st, h1, rfl⟩ := ownerCmd_ok.1 hs
    obtain ⟨s, fr, acc, mr, ma, ms, ub, mg, rfl⟩ := applyOwnerCmd_ok h1
    exact turn_rest (g := 0) rfl rfl rfl rfl (fun _ _ => rfl) rfl rfl
  | setScoringConfig c cfg =>
    obtain ⟨_, _, _, rfl⟩ := setScoringConfig_ok.1 hs; exact turn_rest (g := 0) rfl rfl rfl rfl (fun _ _ => rfl) rfl rfl
  | viewLsValue l =>
    simp only [step, bind_ok, Prod.exists, Except.ok.injEq] at hs
    obtain ⟨e, w1, h1, rfl⟩ := hs
    obtain ⟨_, _, rfl⟩ := viewLsValue_ok.1 h1
    exact turn_rest (g := 0) rfl rfl rfl rfl (fun _ _ => rfl) rfl rfl
  | viewEgldPosition l =>
    simp only [step, bind_ok, Prod.exists, Except.ok.injEq] at hs
    obtain ⟨e, w1, h1, rfl⟩ := hs
    obtain ⟨_, _, rfl⟩ := viewEgldPosition_ok.1 h1
    exact turn_rest (g := 0) rfl rfl rfl rfl (fun _ _ => rfl) rfl rfl
  | deliver i o => exact turn_deliver hr hs
  | transferLs s d v =>
    obtain ⟨_, _, m, hm, rfl⟩ := transferLs_ok.1 hs
    exact turn_rest (g := 0) rfl rfl rfl rfl (fun _ _ => rfl) rfl rfl
  | transferNft s d n v =>
    obtain ⟨h1, h2, m, hm, rfl⟩ := transferNft_ok.1 hs
    exact turn_rest (g := 0) rfl rfl rfl rfl (fun _ _ => rfl) rfl rfl
  | fund a v =>
    obtain ⟨h1, rfl⟩ := fund_ok.1 hs
    refine turn_rest (g := 0) rfl rfl rfl ?_ (fun _ _ => rfl) rfl rfl
    show (credit w.egld a v).get 0 w.self = _
    rw [get_credit]; simp [h1]
  | advance e => obtain ⟨_, rfl⟩ := advance_ok.1 hs; exact turn_rest (g := 0) rfl rfl rfl rfl (fun _ _ => rfl) rfl rfl
  | changeOwner c d => obtain ⟨_, _, rfl⟩ := changeOwner_ok.1 hs; exact turn_rest (g := 0) rfl rfl rfl rfl (fun _ _ => rfl) rfl rfl
  | transferEgld s d v =>
    obtain ⟨h1, h2, m, hm, rfl⟩ := transferEgld_ok.1 hs
    refine turn_rest (g := 0) rfl rfl rfl ?_ (fun _ _ => rfl) rfl rfl
    show (credit m d v).get 0 w.self = _
    rw [get_credit, get_debit hm]; simp [h1, h2]
  | giveEgld s v =>
    obtain ⟨h1, _, m, hm, rfl⟩ := giveEgld_ok.1 hs
    refine turn_rest (g := v) rfl rfl rfl ?_ (fun _ _ => rfl) rfl rfl
    show (credit m w.self v).get 0 w.self = _
    rw [get_credit, get_debit hm]; simp [h1]
  | giveLs s v =>
    obtain ⟨_, _, m, hm, rfl⟩ := giveLs_ok.1 hs
    exact turn_rest (g := 0) rfl rfl rfl rfl (fun _ _ => rfl) rfl rfl
  | giveUnstake s n v =>
    obtain ⟨h1, _, m, hm, rfl⟩ := giveUnstake_ok.1 hs
    exact turn_rest (g := 0) rfl rfl rfl rfl (fun _ _ => rfl) rfl rfl
  | burnLs a v =>
    obtain ⟨_, m, hm, rfl⟩ := holderBurnLs_ok.1 hs
    exact turn_rest (g := 0) rfl rfl rfl rfl (fun _ _ => rfl) rfl rfl
  | burnUnstake a n v =>
    obtain ⟨h1, m, hm, rfl⟩ := holderBurnNft_ok.1 hs
    exact turn_rest (g := 0) rfl rfl rfl rfl (fun _ _ => rfl) rfl rfl
  | starve i o =>
    obtain ⟨f, hf, rfl⟩ := starve_ok hs
    have hat : attached f o = answerBrings f o := by cases f <;> cases o <;> rfl
    refine turn_rest (g := answerBrings f o) rfl ⟨f, hf, rfl⟩ rfl ?_ (fun _ _ => rfl) rfl rfl
    show (credit w.egld w.self (attached f o)).get 0 w.self = _
    rw [get_credit, hat]; simp

/-- **C110, a transaction.**  In every reachable state, every successful transaction is a move of the machine: the one that can be read off
the transaction, with the EGLD that came; the machine allows it, and afterwards shows the figures of the contract. -/
theorem C110_step {w w' : World} {op : Op} {v : Vault} (hr : Reachable w) (hs : step w op = .ok w') (hv : ShowsVault w v) :
    ∃ g m, IsTurn w op w' g m ∧ MayMove v g m ∧ ShowsVault w' (v.after g m) := by
  obtain ⟨g, m, h1, h2, h3⟩ := turn_step hr hs
  rw [shows_eq hv]
  exact ⟨g, m, h1, h2, h3 ▸ shows_vaultOf w'⟩

/-- A move that books no more rewards than came. -/
def Spec.Covered (g : Nat) : Move → Prop
  | .reward r _ => r ≤ g
  | _ => True

private theorem turn_covered {w w' : World} {op : Op} {g : Nat} {m : Move} (hP : HonestManager w op w') (h : IsTurn w op w' g m) :
    Covered g m := by
  obtain ⟨hm, hg⟩ := h
  cases m with
  | reward r f =>
    cases op with
    | deliver i o =>
      obtain ⟨fl, hf, h1, h2⟩ := hm
      obtain ⟨fl', hf', hg⟩ := hg
      obtain rfl : fl = fl' := by rw [hf] at hf'; exact Option.some.inj hf'
      by_cases hd : w'.dead = w.dead
      · have h1 := h1 hd
        cases fl with
        | claim ps =>
          cases o with
          | ok e r' =>
            simp only [answerMove] at h1
            split at h1
            · cases h1
            · cases h1
              rcases hg with ⟨⟨p, a, u, h, _⟩, _⟩ | ⟨_, rfl⟩
              · cases h
              · exact hP _ hf
          | err => cases h1
        | _ => cases o <;> simp only [answerMove] at h1 <;> first | cases h1 | (split at h1 <;> cases h1)
      · exact absurd (h2 hd) (by simp)
    | delegate => obtain ⟨_, _, _, h⟩ := hm; cases h
    | unDelegate => obtain ⟨_, _, _, _, _, h⟩ := hm; cases h
    | delegatePending => obtain ⟨_, _, _, h⟩ := hm; cases h
    | unDelegatePending => obtain ⟨_, _, _, h⟩ := hm; cases h
    | _ => cases hm
  | _ => exact True.intro

/-- **C110, a history.**  Every reachable world shows a vault that the machine reaches from the empty one; with moves that book no more
rewards than came when the delegation manager is honest.  The vault is determined by the world. -/
theorem C110_history {w : World} (hr : Reachable w) :
    ∃ v, ShowsVault w v ∧ Vault.Run (fun _ _ => True) v ∧ (ReachableBy HonestManager w → Vault.Run Covered v) ∧
      ∀ v', ShowsVault w v' → v' = v := by
  have start : ∀ {w}, IsInit w → vaultOf w = Vault.empty := by
    intro w h
    obtain ⟨self, owner, contracts, epoch, funds, acc, fees, rpe, mr, ms, ma, ub, _, _, rfl⟩ := isInit_eq h
    have hE : Map.get 0 (List.filter (fun e => decide (e.1 ≠ self)) funds) self = 0 := by
      apply Map.get_of_notMem
      simp [Map.keys]
    have h1 := dataSum_nil (·.staked)
    have h2 := dataSum_nil (·.pStake)
    have h3 := dataSum_nil (·.pUnstake)
    apply Vault.ext <;> first | rfl | exact hE | exact h1 | exact h2 | exact h3
  refine ⟨vaultOf w, shows_vaultOf w, ?_, fun hh => ?_, fun v' h => shows_eq h⟩
  · induction hr with
    | init h => rw [start h]; exact .start
    | step op hr hs ih =>
      obtain ⟨g, m, _, h2, h3⟩ := turn_step hr hs
      rw [h3]
      exact .move g m ih h2 True.intro
  · obtain ⟨w0, h0, ht⟩ := hh
    clear hr
    induction ht with
    | nil => rw [start h0]; exact .start
    | snoc op ht hs hP ih =>
      have hr := reachableBy_reachable ⟨w0, h0, ht⟩
      obtain ⟨g, m, h1, h2, h3⟩ := turn_step hr hs
      rw [h3]
      exact .move g m ih h2 (turn_covered hP h1)

/-- **C110, the principle.**  Whatever holds of the empty vault and is kept by the moves of the machine holds of the contract. -/
theorem C110_principle {Q : Vault → Prop} (h0 : Q Vault.empty) (h1 : ∀ v g m, Q v → MayMove v g m → Q (v.after g m)) {w : World}
    (hr : Reachable w) {v : Vault} (hv : ShowsVault w v) : Q v := by
  obtain ⟨v', hw, hrun, hh, hu⟩ := C110_history hr
  rw [hu v hv]
  clear hu hw hh
  induction hrun with
  | start => exact h0
  | move g m _ ha _ ih => exact h1 _ g m ih ha

/-- **C110, backing.**  In the machine, all that is owed is there: what waits to be delegated, is staked or on its way is what belongs to the
holders, plus what waits to be un-delegated or was asked back, but for what migrations have added on one side only. -/
theorem C110_backing {P : Nat → Move → Prop} {v : Vault} (h : Vault.Run P v) :
    v.pending + v.stake + v.sent + v.lentReserve = v.reserve + v.queue + v.asked + v.lentPending := by
  induction h with
  | start => rfl
  | @move v g m _ ha _ ih =>
    cases m with
    | deposit p e =>
      have := ha.2.2.1.fits
      simp only [Vault.after]; omega
    | redeem l i u =>
      obtain ⟨_, _, h1, _, h2, h3, _⟩ := ha
      have := h3.fits
      have h4 : egldFor v.supply v.reserve l ≤ v.reserve := by
        unfold egldFor
        exact Nat.div_le_of_le_mul (Nat.mul_le_mul_right _ h1)
      simp only [Vault.after]; omega
    | _ => simp only [Vault.after, MayMove] at ha ⊢; omega

/-- **C110, the rate.**  No move of the machine lowers the value of an LS token. -/
theorem C110_rate {v : Vault} {g : Nat} {m : Move} (ha : MayMove v g m) :
    v.reserve * (v.after g m).supply ≤ (v.after g m).reserve * v.supply := by
  have mint : ∀ a, v.reserve * (v.supply + lsFor v.supply v.reserve a) ≤ (v.reserve + a) * v.supply := by
    intro a
    unfold lsFor
    split
    · next h => rw [h]; simp
    · rw [Nat.mul_add, Nat.add_mul]
      exact Nat.add_le_add_left (Nat.mul_div_le _ _) _
  cases m with
  | deposit p e => exact mint _
  | join x => exact mint _
  | migrate x => exact mint _
  | redeem l i u =>
    obtain ⟨_, _, h1, _, h2, h3, _⟩ := ha
    show v.reserve * (v.supply - l) ≤ (v.reserve - (i + u)) * v.supply
    rw [h2, Nat.mul_sub, Nat.sub_mul]
    apply Nat.sub_le_sub_left
    unfold egldFor
    rw [Nat.mul_comm v.reserve l]
    exact Nat.div_mul_le_self _ _
  | reward r f => exact Nat.mul_le_mul_right _ (Nat.le_add_right _ _)
  | donate x => exact Nat.mul_le_mul_right _ (Nat.le_add_right _ _)
  | _ => exact Nat.le_refl _

/-- **C110, the account.**  As long as no more rewards are booked than come, the machine can pay what it has promised. -/
theorem C110_solvent {v : Vault} (h : Vault.Run Covered v) : v.pending + v.withdrawable + v.fees ≤ v.cash := by
  induction h with
  | start => exact Nat.le_refl _
  | @move v g m _ ha hc ih =>
    cases m with
    | deposit p e => simp only [Vault.after, MayMove] at ha ⊢; omega
    | redeem l i u =>
      obtain ⟨_, _, h1, _, h2, h3, _⟩ := ha
      have := h3.fits
      simp only [Vault.after]; omega
    | _ => simp only [Vault.after, MayMove, Covered] at ha hc ⊢; omega

private theorem sum_is {w : World} {f : ProviderData → Nat} {x : Nat} (h : dataSum f w.st.data = x) : IsSum (figure f w) x :=
  h ▸ isSum_figure w f

/-- The thirteen numbers after a history of deposits, rewards, redemptions, batches and answers.  They balance, and the account holds exactly
what is booked. -/
example : Reachable (run fresh busy) ∧ ReachableBy HonestManager (run fresh busy) ∧
    ShowsVault (run fresh busy) ⟨65688080207946528035, 70058613861386138614, E 5, 0, E 20, 22661386138613861386, 280000000000000000,
      65058613861386138614, 0, 0, 25280000000000000000, 0, 0⟩ :=
  ⟨reachable_run (.init fresh_isInit) _, reachableBy_honest (by decide +kernel), by decide +kernel, by decide +kernel,
    by decide +kernel, by decide +kernel, by decide +kernel, by decide +kernel, by decide +kernel, sum_is (by decide +kernel),
    sum_is (by decide +kernel), sum_is (by decide +kernel), by decide +kernel, by decide +kernel, by decide +kernel⟩

/-- A redemption as a move: of the 40 EGLD due, all are paid at once out of what waits to be delegated. -/
example : ∃ v w', ShowsVault deposited v ∧ step deposited (.unDelegate 11 0 [⟨500, 0, E 40⟩]) = .ok w' ∧
    v.supply = E 152 ∧ v.pending = E 150 ∧ ShowsVault w' (v.after 0 (.redeem (E 40) (E 40) 0)) := by
  have hw : works deposited (.unDelegate 11 0 [⟨500, 0, E 40⟩]) = true := by decide +kernel
  obtain ⟨w', hs⟩ := works_iff.1 hw
  obtain ⟨g, m, ⟨⟨t, l, i, u, hps, rfl⟩, rfl⟩, ha, hsh⟩ := C110_step deposited_reachable hs (shows_vaultOf deposited)
  simp only [List.cons.injEq, Payment.mk.injEq, and_true, true_and] at hps
  obtain ⟨rfl, rfl⟩ := hps
  obtain ⟨_, _, _, _, h5, h6, _, _⟩ := ha
  have hq : egldFor (vaultOf deposited).supply (vaultOf deposited).reserve (E 40) = E 40 := by decide +kernel
  have hp : (vaultOf deposited).pending = E 150 := by decide +kernel
  rw [hq] at h5
  have hl := h6.largest (E 40) (by rw [hp]; decide +kernel) (by rw [h5]) (.inr (by rw [hp]; decide +kernel)) (.inl (by rw [h5]; omega))
  obtain rfl : i = E 40 := by omega
  obtain rfl : u = 0 := by omega
  exact ⟨_, w', shows_vaultOf deposited, hs, by decide +kernel, hp, hsh⟩

end LS
