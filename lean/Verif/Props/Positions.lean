import Verif.Props.Parts
import Verif.Props.Withdraw
import Verif.Proofs.NftLemmas

/-! Which position a redemption joins: C68. -/

namespace LS
open Spec Demo

theorem minted_position {w w' : World} {c : Addr} {u n : Nat} {m : Map (Nat × Addr) Nat} (hi : NftInv w) (hc : c ≠ w.self)
    (hM : MintedUnstake w ⟨w.epoch, w.epoch + w.st.unbondPeriod⟩ u (w.epoch + w.st.unbondPeriod) w.epoch w' n)
    (hm : debit w'.nft (n, w'.self) u = .ok m) :
    Redeemed w { w' with nft := credit m (n, c) u } c u := by
  have h0 : NftOk w.self w.epoch w.nft w.attrs w.lastNonce w.st.unstakeNonce := hi
  cases hM with
  | topUp _ hn hn0 hb =>
    refine .joins hn hn0 ?_ ?_ rfl
    · show (credit m (n, c) u).get 0 (n, c) = w.nft.get 0 (n, c) + u
      rw [get_credit, if_pos rfl, get_debit hm, if_neg (by simp [Ne.symm hc]), get_credit, if_neg (by simp [Ne.symm hc])]
    · show (credit m (n, c) u).get 0 (n, w.self) = w.nft.get 0 (n, w.self)
      rw [get_credit, if_neg (by simp [hc]), get_debit hm, if_pos rfl, get_credit, if_pos rfl]
      omega
  | fresh hn hcl =>
    refine .opens hn rfl ?_ ?_ ?_ ?_ ?_
    · show (credit m (w.lastNonce + 1, c) u).get 0 (w.lastNonce + 1, c) = u
      rw [get_credit, if_pos rfl, get_debit hm, if_neg (by simp [Ne.symm hc]), get_credit, if_neg (by simp [Ne.symm hc]),
        h0.bal0 _ _ (.inr (by omega))]
      omega
    · show (credit m (w.lastNonce + 1, c) u).get 0 (w.lastNonce + 1, w.self) = 1
      rw [get_credit, if_neg (by simp [hc]), get_debit hm, if_pos rfl, get_credit, if_pos rfl, h0.bal0 _ _ (.inr (by omega))]
      omega
    · exact (Map.get_set ..).trans (if_pos rfl)
    · exact (Map.get_set ..).trans (if_pos rfl)
    · intro a ha
      have hl0 : w.lastNonce ≠ 0 := by
        intro e
        rw [h0.attr0 _ (.inl e)] at ha
        cases ha
      obtain ⟨_, a', ha', hreg⟩ := h0.lastLive hl0
      rw [ha] at ha'
      cases ha'
      have hne : a.unbondEpoch ≠ w.epoch + w.st.unbondPeriod := by
        intro e
        rw [e, hn] at hreg
        omega
      have hlt : ¬ a.unstakeEpoch < w.epoch := by
        rcases hcl with h | ⟨a', h1, h2⟩
        · exact absurd h hl0
        · rw [ha] at h1; cases h1; exact h2
      rw [if_neg hlt]
      constructor
      · show (credit m (w.lastNonce + 1, c) u).get 0 (w.lastNonce, w.self) = w.nft.get 0 (w.lastNonce, w.self)
        rw [get_credit, if_neg (by simp), get_debit hm, if_neg (by simp), get_credit, if_neg (by simp)]
      · exact (Map.get_set_other _ _ _ (Ne.symm hne)).trans hreg
  | freshClean a' hn hl ha hlt hb =>
    obtain ⟨_, a'', ha'', hreg⟩ := h0.lastLive hl
    rw [ha] at ha''
    cases ha''
    have hne : a'.unbondEpoch ≠ w.epoch + w.st.unbondPeriod := by
      intro e
      rw [e, hn] at hreg
      omega
    refine .opens hn rfl ?_ ?_ ?_ ?_ ?_
    · show (credit m (w.lastNonce + 1, c) u).get 0 (w.lastNonce + 1, c) = u
      rw [get_credit, if_pos rfl, get_debit hm, if_neg (by simp [Ne.symm hc]), Map.get_set_other _ _ _ (by simp), get_credit,
        if_neg (by simp [Ne.symm hc]), h0.bal0 _ _ (.inr (by omega))]
      omega
    · show (credit m (w.lastNonce + 1, c) u).get 0 (w.lastNonce + 1, w.self) = 1
      rw [get_credit, if_neg (by simp [hc]), get_debit hm, if_pos rfl, Map.get_set_other _ _ _ (by simp), get_credit, if_pos rfl,
        h0.bal0 _ _ (.inr (by omega))]
      omega
    · exact (Map.get_set ..).trans (if_pos rfl)
    · exact (Map.get_set_other _ _ _ hne).trans ((Map.get_set ..).trans (if_pos rfl))
    · intro a ha2
      have ha3 : w.attrs.get none w.lastNonce = some a := ha2
      rw [ha] at ha3
      cases ha3
      rw [if_pos hlt]
      constructor
      · show (credit m (w.lastNonce + 1, c) u).get 0 (w.lastNonce, w.self) = 0
        rw [get_credit, if_neg (by simp), get_debit hm, if_neg (by simp)]
        exact (Map.get_set ..).trans (if_pos rfl)
      · exact (Map.get_set ..).trans (if_pos rfl)

/-- **C68.** The deferred part of a redemption joins the nonce registered for its maturity, or opens the next nonce, registers it, keeps
one unit of it, and retires the previous nonce when that is from an earlier epoch. -/
theorem C68_position {w w' : World} {c : Addr} {v : Nat} {ps : List Payment} (hr : Reachable w)
    (h : step w (.unDelegate c v ps) = .ok w') (hu : toUndelegate w < toUndelegate w') :
    Redeemed w w' c (toUndelegate w' - toUndelegate w) := by
  obtain ⟨hc, _, _, amount, t, m0, m1, m2, e, i, u, w1, w2, _, ht, _, hm0, _, hm1, hm2, _, _, _, _, hi, hw2, rfl⟩ := unDelegate_ok h
  have hu' : w.st.r.toUnstake < w.st.r.toUnstake + u := hu
  have h1 : ∃ E, w1 = { w with egld := E, ls := m2 } := by
    rcases hi with ⟨_, rfl⟩ | ⟨_, m, hm, rfl⟩ <;> exact ⟨_, rfl⟩
  obtain ⟨E, rfl⟩ := h1
  rcases hw2 with ⟨h0, _⟩ | ⟨_, _, _, w3, n, m, hM, hm, rfl⟩
  · omega
  have hinv : NftInv w := reachable_nftInv hr
  have := minted_position (w := { w with egld := E, ls := m2 }) (c := c) hinv hc hM hm
  have hsub : toUndelegate (commit (emit { w3 with nft := credit m (n, c) u } ⟨w.st.state, t, { w.st.r with
            lsSupply := w.st.r.lsSupply - amount, reserve := w.st.r.reserve - e,
            pending := w.st.r.pending - i, toUnstake := w.st.r.toUnstake + u }⟩ (.removeLiquidity e) c)
        ⟨w.st.state, t, { w.st.r with
            lsSupply := w.st.r.lsSupply - amount, reserve := w.st.r.reserve - e,
            pending := w.st.r.pending - i, toUnstake := w.st.r.toUnstake + u }⟩) - toUndelegate w = u := by
    show w.st.r.toUnstake + u - w.st.r.toUnstake = u
    omega
  rw [hsub]
  cases this with
  | joins a b c d e => exact .joins a b c d e
  | opens a b c d e f g => exact .opens a b c d e f g

/-- **C68**, a redemption paid at once leaves all positions alone. -/
theorem C68_nothing_deferred {w w' : World} {c : Addr} {v : Nat} {ps : List Payment} (h : step w (.unDelegate c v ps) = .ok w')
    (hu : toUndelegate w' = toUndelegate w) :
    w'.nft = w.nft ∧ w'.attrs = w.attrs ∧ w'.lastNonce = w.lastNonce ∧ w'.st.unstakeNonce = w.st.unstakeNonce := by
  obtain ⟨hc, _, _, amount, t, m0, m1, m2, e, i, u, w1, w2, _, ht, _, hm0, _, hm1, hm2, _, _, _, _, hi, hw2, rfl⟩ := unDelegate_ok h
  have hu' : w.st.r.toUnstake + u = w.st.r.toUnstake := hu
  rcases hw2 with ⟨h0, rfl⟩ | ⟨h0, _⟩
  · rcases hi with ⟨_, rfl⟩ | ⟨_, m, hm, rfl⟩ <;> exact ⟨rfl, rfl, rfl, rfl⟩
  · omega

example : works deposited (.unDelegate 11 0 [⟨500, 0, E 1⟩]) = true ∧
    toUndelegate (exec deposited (.unDelegate 11 0 [⟨500, 0, E 1⟩])) = toUndelegate deposited := by decide +kernel

/-- Nobody sends unstake tokens to the contract by a plain transfer. -/
def NoGift (_ : World) (op : Op) (_ : World) : Prop := ∀ s n v, op ≠ .giveUnstake s n v

/-- **C13**, exactly one unit: as long as nobody sends the contract unstake tokens by plain transfers it holds exactly one unit of every
registered nonce. -/
theorem C13_one_unit {w : World} (hr : ReachableBy NoGift w) {u : UInt64} {n : Nat} (hn : w.st.unstakeNonce.get 0 u = n)
    (h0 : n ≠ 0) : unstakeOf w n w.self = 1 := by
  obtain ⟨w0, hi, ht⟩ := hr
  induction ht generalizing u n with
  | nil =>
    obtain ⟨self, owner, contracts, epoch, funds, acc, fees, rpe, mr, ms, ma, ub, _, _, rfl⟩ := isInit_eq hi
    exact absurd hn.symm h0
  | @snoc w1 w2 op ht hs hp ih =>
    have hr1 : Reachable w1 := reachable_trace (.init hi) ht
    have hself : w2.self = w1.self := (frame_step op (reachable_regInv hr1) (reachable_issInv hr1) hs).self
    rw [hself]
    -- when the registration and the contract's units are both untouched
    have keep : w2.st.unstakeNonce.get 0 u = w1.st.unstakeNonce.get 0 u → unstakeOf w2 n w1.self = unstakeOf w1 n w1.self →
        unstakeOf w2 n w1.self = 1 := fun h1 h2 => by rw [h2]; exact ih (h1 ▸ hn) h0
    have part := fun x => parts_step hr1 hs x
    by_cases hu : ∃ c v ps, op = .unDelegate c v ps
    · obtain ⟨c, v, ps, rfl⟩ := hu
      have hc : c ≠ w1.self := (unDelegate_ok hs).1
      by_cases hd : toUndelegate w1 < toUndelegate w2
      · cases C68_position hr1 hs hd with
        | joins reg pos own kept last =>
          have hx : ∀ x : Part, x ≠ .ls c → x ≠ .egld c → x ≠ .egld w1.self → x ≠ .supply → x ≠ .reserve → x ≠ .pending →
              x ≠ .queue → x ≠ .events → (∀ k, x ≠ .unstakes k c) → Same w1 w2 x := by
            intro x g1 g2 g3 g4 g5 g6 g7 g8 g9
            refine part x ?_
            simp [touched, positionParts, reg, pos, g1, g2, g3, g4, g5, g6, g7, g8, g9]
          exact keep (hx (.registry u) (by simp) (by simp) (by simp) (by simp) (by simp) (by simp) (by simp) (by simp) (by simp))
            (hx (.unstakes n w1.self) (by simp) (by simp) (by simp) (by simp) (by simp) (by simp) (by simp) (by simp)
              (by simp [Ne.symm hc]))
        | opens reg last own kept attrs now old =>
          by_cases hm : u = w1.epoch + w1.st.unbondPeriod
          · rw [hm, now] at hn
            rw [← hn]; exact kept
          by_cases hl : maturityOf w1 w1.lastNonce = some u
          · -- the previous nonce
            obtain ⟨a, ha, hau⟩ : ∃ a, w1.attrs.get none w1.lastNonce = some a ∧ a.unbondEpoch = u := by
              unfold maturityOf at hl
              cases hg : w1.attrs.get none w1.lastNonce with
              | none => rw [hg] at hl; cases hl
              | some a => rw [hg] at hl; exact ⟨a, rfl, Option.some.inj hl⟩
            have ho := old a ha
            rw [hau] at ho
            split at ho
            · exact absurd (hn.symm.trans ho.2) h0
            · rw [ho.2] at hn
              subst hn
              rw [ho.1]
              obtain ⟨_, a', ha', hreg⟩ := NftOk.lastLive (reachable_nftInv hr1) h0
              rw [ha] at ha'
              cases ha'
              exact ih (u := a.unbondEpoch) hreg h0
          · have hreg : w2.st.unstakeNonce.get 0 u = w1.st.unstakeNonce.get 0 u := by
              refine part (.registry u) ?_
              simp [touched, positionParts, reg, hm, hl]
            have hmat := (C13_registered_nonce hr1 (hreg.symm.trans hn) h0).1
            refine keep hreg (part (.unstakes n w1.self) ?_)
            have n1 : n ≠ w1.lastNonce := fun e => hl (e ▸ hmat)
            have n2 : n ≠ w1.lastNonce + 1 := by
              rintro rfl
              unfold maturityOf at hmat
              rw [NftOk.attr0 (reachable_nftInv hr1) _ (.inr (by omega))] at hmat
              cases hmat
            simp [touched, positionParts, reg, Ne.symm hc, n1, n2]
      · obtain ⟨_, _, _, amount, t, m0, m1, m2, e, i, q, w3, w4, _, _, _, _, _, _, _, _, _, _, _, _, _, hw⟩ := unDelegate_ok hs
        have hle : toUndelegate w1 ≤ toUndelegate w2 := by
          rw [hw]
          show w1.st.r.toUnstake ≤ w1.st.r.toUnstake + q
          omega
        obtain ⟨g1, _, _, g4⟩ := C68_nothing_deferred hs (by omega)
        exact keep (by rw [g4]) (by unfold unstakeOf; rw [g1])
    · refine keep (part (.registry u) ?_) (part (.unstakes n w1.self) ?_)
      all_goals
        cases op with
        | unDelegate c v ps => exact absurd ⟨c, v, ps, rfl⟩ hu
        | giveUnstake s n v => exact absurd rfl (hp s n v)
        | withdraw c v ps =>
          have hc : c ≠ w1.self := (withdraw_ok (reachable_regInv hr1).tok hs).1
          simp [touched, hc]
        | transferNft s d k v =>
          obtain ⟨h1, h2, _⟩ := transferNft_ok.1 hs
          simp [touched, Ne.symm h1, Ne.symm h2]
        | burnUnstake s k v =>
          obtain ⟨h1, _⟩ := holderBurnNft_ok.1 hs
          simp [touched, Ne.symm h1]
        | owner c cmd => cases cmd <;> simp [touched, settingOf]
        | deliver i o =>
          unfold touched
          dsimp only
          split
          · rename_i f hf
            cases f <;> cases o <;> simp [callbackParts]
            split <;> simp
          · simp
        | issued i o =>
          unfold touched
          dsimp only
          split <;> simp <;> split <;> simp
        | _ => simp [touched]

/-- **C68**, redemptions at one epoch and one unbond period share one nonce: whatever happens in between. -/
theorem C68_one_nonce {w w' : World} (hr : Reachable w)
    (ht : Trace (fun _ op _ => (∀ e, op ≠ .advance e) ∧ ∀ c p, op ≠ .owner c (.unbondPeriod p)) w w')
    (hn : w.st.unstakeNonce.get 0 (w.epoch + w.st.unbondPeriod) ≠ 0) :
    w'.epoch = w.epoch ∧ w'.st.unbondPeriod = w.st.unbondPeriod ∧
    w'.st.unstakeNonce.get 0 (w'.epoch + w'.st.unbondPeriod) = w.st.unstakeNonce.get 0 (w.epoch + w.st.unbondPeriod) := by
  induction ht with
  | nil => exact ⟨rfl, rfl, rfl⟩
  | @snoc w1 w2 op ht hs hp ih =>
    obtain ⟨i1, i2, i3⟩ := ih
    have hr1 : Reachable w1 := reachable_trace hr ht
    obtain ⟨hp1, hp2⟩ := hp
    have hn1 : w1.st.unstakeNonce.get 0 (w1.epoch + w1.st.unbondPeriod) ≠ 0 := by rw [i3]; exact hn
    have key : Part.clock ∉ touched w1 op ∧ Part.unbondPeriod ∉ touched w1 op ∧
        Part.registry (w1.epoch + w1.st.unbondPeriod) ∉ touched w1 op := by
      cases op
      case advance e => exact absurd rfl (hp1 e)
      case owner c cmd =>
        cases cmd <;> simp only [touched, settingOf, List.mem_singleton, reduceCtorEq, not_false_eq_true, true_and, and_true]
        exact fun _ => hp2 _ _ rfl
      case unDelegate c v ps => simp [touched, positionParts, hn1]
      case deliver i o =>
        simp only [touched]
        split
        · next f _ => cases f <;> cases o <;> simp [callbackParts] <;> split <;> simp
        · simp
      case issued i o =>
        simp only [touched]
        split
        · split <;> simp
        · split <;> simp
        · simp
      all_goals simp [touched]
    have k1 : w2.epoch = w1.epoch := C64_only_its_parts hr1 hs _ key.1
    have k2 : w2.st.unbondPeriod = w1.st.unbondPeriod := C64_only_its_parts hr1 hs _ key.2.1
    have k3 : w2.st.unstakeNonce.get 0 (w1.epoch + w1.st.unbondPeriod) = w1.st.unstakeNonce.get 0 (w1.epoch + w1.st.unbondPeriod) :=
      C64_only_its_parts hr1 hs _ key.2.2
    exact ⟨k1.trans i1, k2.trans i2, by rw [k1, k2, k3]; exact i3⟩

/-- Nonce 1 is registered after the busy history.  When a contract account that got five unstake tokens sends one to the contract, the
contract holds two units, until the nonce is retired. -/
example : ReachableBy NoGift (run fresh busy) ∧ (run fresh busy).st.unstakeNonce.get 0 10 = 1 ∧ unstakeOf (run fresh busy) 1 1000 = 1 ∧
    unstakeOf (run redeemed [.transferNft 11 2 1 5, .giveUnstake 2 1 1]) 1 1000 = 2 ∧
    unstakeOf (run redeemed [.transferNft 11 2 1 5, .giveUnstake 2 1 1, .advance 51, .unDelegate 12 0 [⟨500, 0, E 5⟩]]) 1 1000 = 0 := by
  refine ⟨⟨fresh, fresh_isInit, trace_of_run (fun _ ops => ops.all fun op => match op with | .giveUnstake .. => false | _ => true)
    (fun w op ops h => ?_) _ _ (by decide +kernel)⟩, by decide +kernel, by decide +kernel, by decide +kernel, by decide +kernel⟩
  rw [List.all_cons, Bool.and_eq_true] at h
  exact ⟨h.2, fun _ _ s n v e => by rw [e] at h; exact absurd h.1 (by simp)⟩

/-- The first redemption opens nonce 1; one of another user at the same epoch joins it; one at a later epoch opens nonce 2 and retires
nonce 1. -/
example : works settled (.unDelegate 11 0 [⟨500, 0, E 40⟩]) = true ∧ works redeemed (.unDelegate 12 0 [⟨500, 0, E 5⟩]) = true ∧
    toUndelegate settled < toUndelegate redeemed ∧ 0 < unstakeOf (exec redeemed (.unDelegate 12 0 [⟨500, 0, E 5⟩])) 1 12 ∧
    0 < unstakeOf (run redeemed [.advance 51, .unDelegate 12 0 [⟨500, 0, E 5⟩]]) 2 12 ∧
    unstakeOf (run redeemed [.advance 51, .unDelegate 12 0 [⟨500, 0, E 5⟩]]) 1 1000 = 0 := by decide +kernel

end LS
