import Verif.Proofs.Basic

/-! Inversion lemmas for the pool arithmetic. -/

namespace LS

/-- What a deposit of `a` EGLD mints at reserves `r`. -/
def LsQuote (r : Reserves) (a l : Nat) : Prop :=
  0 < l ∧ ((0 < r.reserve ∧ l = a * r.lsSupply / r.reserve) ∨ (r.reserve = 0 ∧ l = a))

theorem cacheNew_ok {st : Store} {c : Cache} :
    cacheNew st = .ok c ↔ ∃ t, st.lsToken = some t ∧ c = { state := st.state, lsTokenId := t, r := st.r } := by
  unfold cacheNew
  cases h : st.lsToken with
  | none => simp
  | some t => simp; exact eq_comm

theorem getLsAmount_ok {a l : Nat} {c : Cache} : getLsAmount a c = .ok l ↔ LsQuote c.r a l := by
  unfold getLsAmount LsQuote
  simp only [bind_ok, req_ok, ite_ok, cdiv_ok, Except.ok.injEq, exists_const]
  constructor
  · rintro ⟨x, hx, hl, rfl⟩
    refine ⟨hl, ?_⟩
    rcases hx with ⟨h1, _, h2⟩ | ⟨h1, h2⟩
    · exact .inl ⟨h1, h2⟩
    · exact .inr ⟨by omega, h2.symm⟩
  · rintro ⟨hl, h⟩
    refine ⟨l, ?_, hl, rfl⟩
    rcases h with ⟨h1, h2⟩ | ⟨h1, h2⟩
    · exact .inl ⟨h1, by omega, h2⟩
    · exact .inr ⟨by omega, h2.symm⟩

theorem poolAdd_ok {a l : Nat} {c c' : Cache} :
    poolAdd a c = .ok (l, c') ↔ LsQuote c.r a l ∧
      c' = { c with r := { c.r with lsSupply := c.r.lsSupply + l, reserve := c.r.reserve + a } } := by
  unfold poolAdd
  simp only [bind_ok, getLsAmount_ok, Except.ok.injEq, Prod.mk.injEq]
  constructor
  · rintro ⟨x, hx, rfl, rfl⟩; exact ⟨hx, rfl⟩
  · rintro ⟨h, rfl⟩; exact ⟨l, h, rfl, rfl⟩

/-- What a redemption of `l` LS tokens is worth at reserves `r`. -/
def EgldQuote (r : Reserves) (l e : Nat) : Prop :=
  l ≤ r.lsSupply ∧ r.lsSupply ≠ 0 ∧ 0 < e ∧ e = l * r.reserve / r.lsSupply

theorem getEgldAmount_ok {l e : Nat} {c : Cache} : getEgldAmount l c = .ok e ↔ EgldQuote c.r l e := by
  unfold getEgldAmount EgldQuote
  simp only [bind_ok, req_ok, cdiv_ok, Except.ok.injEq, exists_const]
  constructor
  · rintro ⟨h1, x, ⟨h2, h3⟩, h4, rfl⟩; exact ⟨h1, h2, h4, h3⟩
  · rintro ⟨h1, h2, h3, h4⟩; exact ⟨h1, e, ⟨h2, h4⟩, h3, rfl⟩

theorem EgldQuote.le {r : Reserves} {l e : Nat} (h : EgldQuote r l e) : e ≤ r.reserve := by
  obtain ⟨h1, h2, _, rfl⟩ := h
  apply Nat.div_le_of_le_mul
  exact Nat.mul_le_mul_right _ h1

theorem poolRemove_ok {l e : Nat} {c c' : Cache} :
    poolRemove l c = .ok (e, c') ↔ EgldQuote c.r l e ∧
      c' = { c with r := { c.r with lsSupply := c.r.lsSupply - l, reserve := c.r.reserve - e } } := by
  unfold poolRemove
  simp only [bind_ok, getEgldAmount_ok, csub_ok, Except.ok.injEq, Prod.mk.injEq]
  constructor
  · rintro ⟨x, hx, s, ⟨_, rfl⟩, r, ⟨_, rfl⟩, rfl, rfl⟩; exact ⟨hx, rfl⟩
  · rintro ⟨h, rfl⟩; exact ⟨e, h, _, ⟨h.1, rfl⟩, _, ⟨h.le, rfl⟩, rfl, rfl⟩

theorem actionAux (mn pending payment : Nat) :
    (if canInstant pending payment mn then .ok (payment, 0)
     else if canRedeemPending pending payment mn then do
       let rest ← csub payment pending
       .ok (pending, rest)
     else partialRedeem pending payment mn : Res (Nat × Nat)) = .ok (
    if pending = payment ∨ (payment ≤ pending ∧ mn ≤ pending - payment) then (payment, 0)
    else if pending < payment ∧ mn ≤ payment - pending then (pending, payment - pending)
    else if mn < pending ∧ mn < payment then
      (min (payment - mn) (pending - mn), payment - min (payment - mn) (pending - mn))
    else (0, payment)) := by
  have hc : (canInstant pending payment mn = true) ↔
      (pending = payment ∨ (payment ≤ pending ∧ mn ≤ pending - payment)) := by simp [canInstant]
  have hr : (canRedeemPending pending payment mn = true) ↔ (pending < payment ∧ mn ≤ payment - pending) := by
    simp [canRedeemPending]
  by_cases h1 : pending = payment ∨ (payment ≤ pending ∧ mn ≤ pending - payment)
  · rw [if_pos (hc.2 h1), if_pos h1]
  rw [if_neg (mt hc.1 h1), if_neg h1]
  by_cases h2 : pending < payment ∧ mn ≤ payment - pending
  · rw [if_pos (hr.2 h2), if_pos h2]
    simp [csub, bind, Except.bind, Nat.le_of_lt h2.1]
  rw [if_neg (mt hr.1 h2), if_neg h2]
  unfold partialRedeem instantAmount
  by_cases h3 : mn < pending ∧ mn < payment
  · have e3 : ¬ (pending ≤ mn ∨ payment ≤ mn) := by omega
    have e1 : mn ≤ payment := by omega
    have e2 : mn ≤ pending := by omega
    rw [if_neg e3, if_pos h3]
    simp only [csub, e1, e2, if_true, bind, Except.bind]
    by_cases h4 : payment - mn ≤ pending - mn
    · have c1 : 0 < payment - mn ∧ payment - mn ≤ pending ∧ mn ≤ pending - (payment - mn) := by omega
      have c2 : payment - mn ≤ payment := by omega
      simp [h4, c1, c2]
    · have c1 : 0 < pending - mn ∧ pending - mn ≤ pending ∧ mn ≤ pending - (pending - mn) := by omega
      have c2 : pending - mn ≤ payment := by omega
      have c3 : min (payment - mn) (pending - mn) = pending - mn := by omega
      simp [h4, c1, c2, c3]
  · have e3 : pending ≤ mn ∨ payment ≤ mn := by omega
    rw [if_pos e3, if_neg h3]
    simp [bind, Except.bind]

/-- The pending/payment split, written out: always succeeds, and these are its three regimes. -/
theorem getActionAmount_eq (pending payment : Nat) : getActionAmount pending payment = .ok (
    if pending = payment ∨ (payment ≤ pending ∧ MIN_EGLD ≤ pending - payment) then (payment, 0)
    else if pending < payment ∧ MIN_EGLD ≤ payment - pending then (pending, payment - pending)
    else if MIN_EGLD < pending ∧ MIN_EGLD < payment then
      (min (payment - MIN_EGLD) (pending - MIN_EGLD), payment - min (payment - MIN_EGLD) (pending - MIN_EGLD))
    else (0, payment)) :=
  actionAux MIN_EGLD pending payment

/-- The two parts of the split add up, and the first fits in what is pending. -/
theorem getActionAmount_sum {pending payment i u : Nat} (h : getActionAmount pending payment = .ok (i, u)) :
    i + u = payment ∧ i ≤ pending := by
  rw [getActionAmount_eq] at h
  simp only [Except.ok.injEq] at h
  split at h
  · simp only [Prod.mk.injEq] at h; omega
  · split at h
    · simp only [Prod.mk.injEq] at h; omega
    · split at h <;> simp only [Prod.mk.injEq] at h <;> omega

theorem decreasePending_ok {c c' : Cache} {v : Nat} : decreasePending c v = .ok c' ↔
    v ≤ c.r.toUnstake ∧ (MIN_EGLD ≤ c.r.toUnstake - v ∨ c.r.toUnstake - v = 0) ∧
    c' = { c with r := { c.r with toUnstake := c.r.toUnstake - v, withdrawn := c.r.withdrawn + v } } := by
  unfold decreasePending
  simp only [bind_ok, csub_ok, req_ok, Except.ok.injEq, exists_const]
  constructor
  · rintro ⟨x, ⟨h1, rfl⟩, h2, rfl⟩; exact ⟨h1, h2, rfl⟩
  · rintro ⟨h1, h2, rfl⟩; exact ⟨_, ⟨h1, rfl⟩, h2, rfl⟩

theorem increasePending_ok {c c' : Cache} {v : Nat} : increasePending c v = .ok c' ↔
    MIN_EGLD ≤ c.r.pending + v ∧ c' = { c with r := { c.r with pending := c.r.pending + v } } := by
  unfold increasePending
  simp only [bind_ok, req_ok, Except.ok.injEq, exists_const]
  constructor
  · rintro ⟨h1, rfl⟩; exact ⟨h1, rfl⟩
  · rintro ⟨h1, rfl⟩; exact ⟨h1, rfl⟩

/-- Moving freshly minted LS tokens through the contract's account to a user. -/
def mintTo (ls : Map Addr Nat) (self dst : Addr) (l : Nat) : Map Addr Nat :=
  credit ((credit ls self l).set self (ls.get 0 self)) dst l

theorem mintLs_sendLs {w w' : World} {dst : Addr} {l : Nat} :
    sendLs (mintLs w l) dst l = .ok w' ↔ w' = { w with ls := mintTo w.ls w.self dst l } := by
  unfold sendLs mintLs mintTo
  simp only [bind_ok, debit_ok, Except.ok.injEq, get_credit, if_true, Nat.add_sub_cancel]
  constructor
  · rintro ⟨m, ⟨_, rfl⟩, rfl⟩; rfl
  · rintro rfl; exact ⟨_, ⟨by omega, rfl⟩, rfl⟩

theorem total_mintTo (ls : Map Addr Nat) (self dst : Addr) (l : Nat) :
    (mintTo ls self dst l).total (fun _ => true) = ls.total (fun _ => true) + l := by
  unfold mintTo
  rw [total_credit]
  have h1 := total_set (credit ls self l) (fun _ => true) self (ls.get 0 self)
  rw [total_credit, get_credit] at h1
  simp at h1 ⊢
  omega

theorem get_mintTo (ls : Map Addr Nat) (self dst k : Addr) (l : Nat) :
    (mintTo ls self dst l).get 0 k = ls.get 0 k + (if dst = k then l else 0) := by
  unfold mintTo
  rw [get_credit, Map.get_set, get_credit]
  by_cases h : self = k
  · subst h; by_cases h2 : dst = self <;> simp [h2]
  · by_cases h2 : dst = k <;> simp [h, h2]

/-- The cache after `process_delegation`. -/
def depositCache (c : Cache) (p e l : Nat) : Cache :=
  { c with r := { c.r with
      lsSupply := c.r.lsSupply + l, reserve := c.r.reserve + (p + e),
      toUnstake := c.r.toUnstake - p, withdrawn := c.r.withdrawn + p, pending := c.r.pending + e } }

theorem processDelegation_ok {w w' : World} {caller : Addr} {c c' : Cache} {p e : Nat} (hpe : 0 < p + e) :
    processDelegation w caller c p e = .ok (w', c') ↔
      p ≤ c.r.toUnstake ∧ (0 < p → MIN_EGLD ≤ c.r.toUnstake - p ∨ c.r.toUnstake - p = 0) ∧
      (0 < e → MIN_EGLD ≤ c.r.pending + e) ∧
      ∃ l, LsQuote c.r (p + e) l ∧ c' = depositCache c p e l ∧
        w' = emit { w with ls := mintTo w.ls w.self caller l } c' (.addLiquidity (p + e)) caller := by
  unfold processDelegation
  rcases Nat.eq_zero_or_pos p with hp | hp <;> rcases Nat.eq_zero_or_pos e with he | he
  · omega
  · subst hp
    simp only [Nat.lt_irrefl, if_false, if_true, he, bind_ok, increasePending_ok, Except.ok.injEq, Nat.zero_add,
      Prod.exists, poolAdd_ok, mintLs_sendLs, Prod.mk.injEq]
    constructor
    · rintro ⟨_, rfl, _, ⟨h1, rfl⟩, l, _, ⟨hq, rfl⟩, _, rfl, rfl, rfl⟩
      exact ⟨by omega, by simp, fun _ => h1, l, hq, by simp [depositCache], by simp⟩
    · rintro ⟨_, _, h1, l, hq, rfl, rfl⟩
      refine ⟨_, rfl, _, ⟨h1 trivial, rfl⟩, l, _, ⟨hq, rfl⟩, _, rfl, ?_, ?_⟩ <;> simp [depositCache]
  · subst he
    simp only [Nat.lt_irrefl, if_false, if_true, hp, bind_ok, decreasePending_ok, Except.ok.injEq, Nat.add_zero,
      Prod.exists, poolAdd_ok, mintLs_sendLs, Prod.mk.injEq, Nat.zero_add]
    constructor
    · rintro ⟨_, ⟨h0, h1, rfl⟩, _, rfl, l, _, ⟨hq, rfl⟩, _, rfl, rfl, rfl⟩
      exact ⟨h0, fun _ => h1, by simp, l, hq, by simp [depositCache], by simp⟩
    · rintro ⟨h0, h1, _, l, hq, rfl, rfl⟩
      refine ⟨_, ⟨h0, h1 trivial, rfl⟩, _, rfl, l, _, ⟨hq, rfl⟩, _, rfl, ?_, ?_⟩ <;> simp [depositCache]
  · simp only [if_true, hp, he, bind_ok, decreasePending_ok, increasePending_ok, Except.ok.injEq,
      Prod.exists, poolAdd_ok, mintLs_sendLs, Prod.mk.injEq, hpe]
    constructor
    · rintro ⟨_, ⟨h0, h1, rfl⟩, _, ⟨h2, rfl⟩, l, _, ⟨hq, rfl⟩, _, rfl, rfl, rfl⟩
      exact ⟨h0, fun _ => h1, fun _ => h2, l, hq, by simp [depositCache], by simp [Nat.add_comm e p]⟩
    · rintro ⟨h0, h1, h2, l, hq, rfl, rfl⟩
      refine ⟨_, ⟨h0, h1 trivial, rfl⟩, _, ⟨h2 trivial, rfl⟩, l, _, ⟨hq, rfl⟩, _, rfl, ?_, ?_⟩ <;>
        simp [depositCache, Nat.add_comm e p]

theorem payEgld_ok {w w' : World} {c : Addr} {v : Nat} :
    payEgld w c v = .ok w' ↔ ∃ m, debit w.egld c v = .ok m ∧ w' = { w with egld := credit m w.self v } := by
  unfold payEgld
  simp only [bind_ok, Except.ok.injEq]
  constructor
  · rintro ⟨m, h, rfl⟩; exact ⟨m, h, rfl⟩
  · rintro ⟨m, h, rfl⟩; exact ⟨m, h, rfl⟩

theorem sendEgld_ok {w w' : World} {c : Addr} {v : Nat} :
    sendEgld w c v = .ok w' ↔ ∃ m, debit w.egld w.self v = .ok m ∧ w' = { w with egld := credit m c v } := by
  unfold sendEgld
  simp only [bind_ok, Except.ok.injEq]
  constructor
  · rintro ⟨m, h, rfl⟩; exact ⟨m, h, rfl⟩
  · rintro ⟨m, h, rfl⟩; exact ⟨m, h, rfl⟩

/-- `delegate`, completely. -/
theorem delegate_ok {w w' : World} {caller : Addr} {v : Nat} : delegate w caller v = .ok w' ↔
    caller ≠ w.self ∧ 0 < v ∧ w.st.state = .active ∧ ∃ m t p e l,
      debit w.egld caller v = .ok m ∧ w.st.lsToken = some t ∧
      getActionAmount w.st.r.toUnstake v = .ok (p, e) ∧
      (0 < p → MIN_EGLD ≤ w.st.r.toUnstake - p ∨ w.st.r.toUnstake - p = 0) ∧
      (0 < e → MIN_EGLD ≤ w.st.r.pending + e) ∧
      LsQuote w.st.r v l ∧
      w' = commit (emit { w with egld := credit m w.self v, ls := mintTo w.ls w.self caller l }
            (depositCache ⟨w.st.state, t, w.st.r⟩ p e l) (.addLiquidity v) caller)
            (depositCache ⟨w.st.state, t, w.st.r⟩ p e l) := by
  unfold delegate
  simp only [bind_ok, requireUser, req_ok, exists_const, payEgld_ok, cacheNew_ok, requireActive, Prod.exists]
  constructor
  · rintro ⟨h1, _, ⟨m, hm, rfl⟩, _, ⟨t, ht, rfl⟩, h2, h3, p, e, hpe, w1, c1, hd, h4⟩
    have hs := getActionAmount_sum hpe
    rw [processDelegation_ok (by omega)] at hd
    obtain ⟨h5, h6, h7, l, hq, rfl, rfl⟩ := hd
    have hv : p + e = v := hs.1
    rw [hv] at hq h4
    simp only [Except.ok.injEq] at h4
    exact ⟨h1, h3, h2, m, t, p, e, l, hm, ht, hpe, h6, h7, hq, h4.symm⟩
  · rintro ⟨h1, h3, h2, m, t, p, e, l, hm, ht, hpe, h6, h7, hq, rfl⟩
    have hs := getActionAmount_sum hpe
    refine ⟨h1, _, ⟨m, hm, rfl⟩, _, ⟨t, ht, rfl⟩, h2, h3, p, e, hpe, _, _,
      (processDelegation_ok (by omega)).2 ⟨hs.2, h6, h7, l, ?_, rfl, rfl⟩, ?_⟩
    · rw [hs.1]; exact hq
    · rw [hs.1]

end LS
