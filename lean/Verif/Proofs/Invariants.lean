import Verif.Proofs.Accounting
import Verif.Spec.Observe

/-! Invariants of the accounting moves, and their transfer to reachable worlds. -/

namespace LS
open Spec

theorem quote_price {r : Reserves} {v l : Nat} (h : LsQuote r v l) (hR : 0 < r.reserve) : r.reserve * l ≤ v * r.lsSupply := by
  obtain ⟨_, ⟨_, rfl⟩ | ⟨h0, _⟩⟩ := h
  · exact Nat.mul_div_le _ _
  · omega

theorem quote_pos {r : Reserves} {v l : Nat} (h : LsQuote r v l) : 0 < r.reserve + v := by
  obtain ⟨hl, ⟨h0, _⟩ | ⟨_, rfl⟩⟩ := h <;> omega

theorem redeem_price {r : Reserves} {l e : Nat} (h : EgldQuote r l e) : e * r.lsSupply ≤ l * r.reserve := by
  obtain ⟨_, _, _, rfl⟩ := h
  exact Nat.div_mul_le_self _ _

theorem redeem_lt {r : Reserves} {l e : Nat} (h : EgldQuote r l e) (hl : l < r.lsSupply) : e < r.reserve := by
  have hp := redeem_price h
  obtain ⟨_, hs, he, _⟩ := h
  by_contra hc
  have h1 : r.reserve * r.lsSupply ≤ e * r.lsSupply := Nat.mul_le_mul_right _ (Nat.le_of_not_lt hc)
  have h2 : r.reserve * r.lsSupply ≤ r.reserve * l := by rw [Nat.mul_comm r.reserve l]; omega
  rcases Nat.eq_zero_or_pos r.reserve with h0 | h0
  · rw [h0, Nat.mul_zero] at hp
    have := Nat.mul_pos he (Nat.pos_of_ne_zero hs); omega
  · have := Nat.le_of_mul_le_mul_left h2 h0; omega

/-- The accounting invariant. -/
structure AInv (a : Acct) : Prop where
  ls : a.r.lsSupply = a.lsTotal
  pos : 0 < a.r.lsSupply → 0 < a.r.reserve
  nft : a.userNft = a.r.toUnstake + a.pUnstake + a.r.toUnbond + a.r.withdrawn
  unb : a.r.toUnbond = a.unstaked
  back : a.r.reserve + a.r.toUnstake + a.pUnstake + a.migP = a.r.pending + a.staked + a.pStake + a.migV

theorem AInv.step {H : Prop} {a a' : Acct} (hi : AInv a) (h : AStep H a a') : AInv a' := by
  obtain ⟨h1, h2, h3, h4, h5⟩ := hi
  cases h with
  | stay g h => subst h; exact ⟨h1, h2, h3, h4, h5⟩
  | deposit p e l hp hpe hq h => subst h; exact ⟨by dsimp only; omega, by dsimp only; omega, by dsimp only; omega, h4, by dsimp only; omega⟩
  | redeem l i u e hl hlt hq hs hi hb h =>
    subst h
    have hle := hq.1
    have hre := hq.le
    refine ⟨by dsimp only; omega, ?_, by dsimp only; omega, h4, by dsimp only; omega⟩
    dsimp only
    intro hp
    have := redeem_lt hq (by omega)
    omega
  | withdraw v t ht hu hb h => subst h; exact ⟨h1, h2, by dsimp only; omega, h4, h5⟩
  | delegateOut x hx hb h => subst h; exact ⟨h1, h2, h3, h4, by dsimp only; omega⟩
  | undelegateOut x hx h => subst h; exact ⟨h1, h2, by dsimp only; omega, h4, by dsimp only; omega⟩
  | delegateOk x g hx h => subst h; exact ⟨h1, h2, h3, h4, by dsimp only; omega⟩
  | delegateErr x hx h => subst h; exact ⟨h1, h2, h3, h4, by dsimp only; omega⟩
  | undelegateOk x g hx hs h => subst h; exact ⟨h1, h2, by dsimp only; omega, by dsimp only; omega, by dsimp only; omega⟩
  | undelegateErr x hx h => subst h; exact ⟨h1, h2, by dsimp only; omega, h4, by dsimp only; omega⟩
  | withdrawIn x hx hu h => subst h; exact ⟨h1, h2, by dsimp only; omega, by dsimp only; omega, h5⟩
  | claim ret fee g hf hg h => subst h; exact ⟨h1, by dsimp only; omega, h3, h4, by dsimp only; omega⟩
  | whitelistOk x l g hq h =>
    subst h; have := quote_pos hq
    exact ⟨by dsimp only; omega, fun _ => this, h3, h4, by dsimp only; omega⟩
  | claimFees hb h => subst h; exact ⟨h1, h2, h3, h4, h5⟩
  | migrate v l hq h =>
    subst h; have := quote_pos hq
    exact ⟨by dsimp only; omega, fun _ => this, h3, h4, by dsimp only; omega⟩
  | migratePending v h => subst h; exact ⟨h1, h2, h3, h4, by dsimp only; omega⟩
  | reward v h => subst h; exact ⟨h1, by dsimp only; omega, h3, h4, by dsimp only; omega⟩

/-- Solvency is kept by every move whose claim is covered. -/
theorem AStep.solvent {H : Prop} {a a' : Acct} (hh : H) (h : AStep H a a')
    (hi : a.r.pending + a.r.withdrawn + a.r.fees ≤ a.bal) : a'.r.pending + a'.r.withdrawn + a'.r.fees ≤ a'.bal := by
  cases h with
  | claim ret fee g hf hg h => subst h; have := hg hh; dsimp only; omega
  | stay g h => subst h; dsimp only; omega
  | deposit p e l hp hpe hq h => subst h; dsimp only; omega
  | redeem l i u e hl hlt hq hs hi hb h => subst h; dsimp only; omega
  | withdraw v t ht hu hb h => subst h; dsimp only; omega
  | delegateOut x hx hb h => subst h; dsimp only; omega
  | undelegateOut x hx h => subst h; dsimp only; omega
  | delegateOk x g hx h => subst h; dsimp only; omega
  | delegateErr x hx h => subst h; dsimp only; omega
  | undelegateOk x g hx hs h => subst h; dsimp only; omega
  | undelegateErr x hx h => subst h; dsimp only; omega
  | withdrawIn x hx hu h => subst h; dsimp only; omega
  | whitelistOk x l g hq h => subst h; dsimp only; omega
  | claimFees hb h => subst h; dsimp only; omega
  | migrate v l hq h => subst h; dsimp only; omega
  | migratePending v h => subst h; dsimp only; omega
  | reward v h => subst h; dsimp only; omega

/-- No move lowers the reserve per LS token. -/
theorem AStep.rate {H : Prop} {a a' : Acct} (h : AStep H a a') (hi : AInv a) (hS : 0 < a.r.lsSupply) :
    a.r.reserve * a'.r.lsSupply ≤ a'.r.reserve * a.r.lsSupply := by
  have hR := hi.pos hS
  have mint : ∀ v l, LsQuote a.r v l →
      a.r.reserve * (a.r.lsSupply + l) ≤ (a.r.reserve + v) * a.r.lsSupply := by
    intro v l hq
    have := quote_price hq hR
    rw [Nat.mul_add, Nat.add_mul]; omega
  have more : ∀ v, a.r.reserve * a.r.lsSupply ≤ (a.r.reserve + v) * a.r.lsSupply :=
    fun v => Nat.mul_le_mul_right _ (Nat.le_add_right _ _)
  cases h with
  | deposit p e l hp hpe hq h => subst h; exact mint _ _ hq
  | redeem l i u e hl hlt hq hs hi hb h =>
    subst h
    dsimp only
    have h1 := redeem_price hq
    have h2 := hq.le
    have h3 := hq.1
    rw [Nat.mul_sub, Nat.sub_mul]
    have : a.r.reserve * l = l * a.r.reserve := Nat.mul_comm _ _
    omega
  | whitelistOk x l g hq h => subst h; exact mint _ _ hq
  | migrate v l hq h => subst h; exact mint _ _ hq
  | claim ret fee g hf hg h => subst h; exact more _
  | reward v h => subst h; exact more _
  | stay g h => subst h; exact Nat.le_refl _
  | withdraw v t ht hu hb h => subst h; exact Nat.le_refl _
  | delegateOut x hx hb h => subst h; exact Nat.le_refl _
  | undelegateOut x hx h => subst h; exact Nat.le_refl _
  | delegateOk x g hx h => subst h; exact Nat.le_refl _
  | delegateErr x hx h => subst h; exact Nat.le_refl _
  | undelegateOk x g hx hs h => subst h; exact Nat.le_refl _
  | undelegateErr x hx h => subst h; exact Nat.le_refl _
  | withdrawIn x hx hu h => subst h; exact Nat.le_refl _
  | claimFees hb h => subst h; exact Nat.le_refl _
  | migratePending v h => subst h; exact Nat.le_refl _

theorem reachable_ainv {w : World} (h : Reachable w) : AInv (acct w) := by
  induction h with
  | init h => rw [acct_init h]; exact ⟨rfl, id, rfl, rfl, rfl⟩
  | step op hr hs ih => exact ih.step (acct_step op (reachable_regInv hr) (reachable_issInv hr) hs)

theorem reachable_trace {P} {w w' : World} (h : Reachable w) (ht : Trace P w w') : Reachable w' := by
  induction ht with
  | nil => exact h
  | snoc op _ hs _ ih => exact .step op ih hs

theorem trace_mono {P Q : World → Op → World → Prop} {w w' : World} (hpq : ∀ a b c, P a b c → Q a b c) (ht : Trace P w w') :
    Trace Q w w' := by
  induction ht with
  | nil => exact .nil
  | snoc op _ hs hp ih => exact .snoc op ih hs (hpq _ _ _ hp)

theorem reachableBy_reachable {P} {w : World} (h : ReachableBy P w) : Reachable w := by
  obtain ⟨w0, hi, ht⟩ := h; exact reachable_trace (.init hi) ht

theorem isSum_total {K : Type} [DecidableEq K] (m : Map K Nat) (p : K → Bool) :
    IsSum (fun k => if p k then m.get 0 k else 0) (m.total p) := by
  refine ⟨m.keys, fun a ha => ?_, rfl⟩
  simp [Map.get_of_notMem m 0 a ha]

theorem isSum_ls (w : World) : IsSum (lsOf w) (w.ls.total (fun _ => true)) := by
  have := isSum_total w.ls (fun _ => true)
  simp only [if_true] at this
  exact this

theorem isSum_userNft (w : World) :
    IsSum (fun p : Nat × Addr => if p.2 = w.self then 0 else unstakeOf w p.1 p.2) (w.nft.total (notSelf w.self)) := by
  have := isSum_total w.nft (notSelf w.self)
  have he : (fun k : Nat × Addr => if notSelf w.self k = true then w.nft.get 0 k else 0) =
      (fun p : Nat × Addr => if p.2 = w.self then 0 else unstakeOf w p.1 p.2) := by
    funext ⟨n, a⟩
    by_cases h : a = w.self <;> simp [notSelf, h, unstakeOf]
  rw [he] at this; exact this

theorem isSum_figure (w : World) (f : ProviderData → Nat) : IsSum (figure f w) (dataSum f w.st.data) := by
  refine ⟨w.st.data.keys, fun a ha => ?_, ?_⟩
  · simp [figure, provider, Map.get_of_notMem _ none a ha]
  · rfl

/-- A sum is unique. -/
theorem Spec.IsSum.unique {α : Type} {f : α → Nat} {s t : Nat} (h : IsSum f s) (h' : IsSum f t) : s = t := by
  classical
  obtain ⟨S, hS, rfl⟩ := h
  obtain ⟨T, hT, rfl⟩ := h'
  have h1 : ∑ a ∈ S, f a = ∑ a ∈ S ∪ T, f a :=
    Finset.sum_subset Finset.subset_union_left (fun a _ ha => hS a ha)
  have h2 : ∑ a ∈ T, f a = ∑ a ∈ S ∪ T, f a :=
    Finset.sum_subset Finset.subset_union_right (fun a _ ha => hT a ha)
  rw [h1, h2]

end LS
