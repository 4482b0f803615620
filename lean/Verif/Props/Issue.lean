import Verif.Props.Config

/-! The two tokens of the contract and how they are issued: C55. -/

namespace LS
open Spec Demo

/-- The owner's call that starts the issue of one of the two tokens. -/
def registration : TokenKind → Addr → Nat → Op
  | .ls, c, v => .registerLsToken c v
  | .unstake, c, v => .registerUnstakeToken c v

/-- The identifier of one of the two tokens, `none` before it exists. -/
def tokenId (w : World) : TokenKind → Option TokenId
  | .ls => w.st.lsToken
  | .unstake => w.st.unstakeToken

/-- The contract waits for the ESDT system contract to issue this token. -/
def Awaiting (w : World) (k : TokenKind) : Prop := ∃ x ∈ w.issues, x.kind = k

theorem issuesOf_pos {k : TokenKind} {l : List Issue} : 0 < issuesOf k l ↔ ∃ x ∈ l, x.kind = k := by
  unfold issuesOf
  rw [List.length_pos_iff_exists_mem]
  simp [List.mem_filter]

/-- **C55**, the flag in storage that blocks a second issue is set exactly while one is awaited. -/
theorem C55_flag_iff {w : World} (hr : Reachable w) (k : TokenKind) :
    Awaiting w k ↔ (match k with | .ls => w.st.lsPending | .unstake => w.st.unstakePending) = true := by
  have h0 : IssOk w.issues w.st.lsToken w.st.lsPending w.st.unstakeToken w.st.unstakePending w.self :=
    reachable_issInv hr
  unfold Awaiting
  rw [← issuesOf_pos]
  cases k with
  | ls => rw [h0.ls]; cases w.st.lsPending <;> simp
  | unstake => rw [h0.us]; cases w.st.unstakePending <;> simp

/-- **C55**, who may start an issue, and when: the owner, who pays it, while the token does not exist and no issue of it is
awaited. -/
theorem C55_start_iff {w : World} {k : TokenKind} {c : Addr} {v : Nat} (hr : Reachable w) :
    (∃ w', step w (registration k c v) = .ok w') ↔
      c ≠ w.self ∧ c = w.owner ∧ tokenId w k = none ∧ ¬ Awaiting w k ∧ v ≤ egldOf w c := by
  rw [C55_flag_iff hr k]
  cases k with
  | ls =>
    simp only [registration, step, registerLsToken_ok, tokenId, Bool.not_eq_true]
    constructor
    · rintro ⟨w', h1, h2, h3, h4, m, hm, _⟩
      exact ⟨h1, h2, h3, h4, (debit_ok.1 hm).1⟩
    · rintro ⟨h1, h2, h3, h4, h5⟩
      exact ⟨_, h1, h2, h3, h4, _, debit_ok.2 ⟨h5, rfl⟩, rfl⟩
  | unstake =>
    simp only [registration, step, registerUnstakeToken_ok, tokenId, Bool.not_eq_true]
    constructor
    · rintro ⟨w', h1, h2, h3, h4, m, hm, _⟩
      exact ⟨h1, h2, h3, h4, (debit_ok.1 hm).1⟩
    · rintro ⟨h1, h2, h3, h4, h5⟩
      exact ⟨_, h1, h2, h3, h4, _, debit_ok.2 ⟨h5, rfl⟩, rfl⟩

/-- **C55**, starting an issue: it is then awaited, the owner has paid exactly the cost, which does not stay with the contract,
and no token and no figure of the pool has changed. -/
theorem C55_start {w w' : World} {k : TokenKind} {c : Addr} {v : Nat} (h : step w (registration k c v) = .ok w') :
    w'.issues = w.issues ++ [⟨k, w.owner, v⟩] ∧ egldOf w' w.owner + v = egldOf w w.owner ∧
    (∀ a, a ≠ w.owner → egldOf w' a = egldOf w a) ∧ (∀ k', tokenId w' k' = tokenId w k') ∧ w'.st.r = w.st.r := by
  have key : ∀ m, debit w.egld c v = .ok m → c = w.owner → m.get 0 w.owner + v = w.egld.get 0 w.owner ∧
      ∀ a, a ≠ w.owner → m.get 0 a = w.egld.get 0 a := by
    intro m hm hc
    subst hc
    have hle := (debit_ok.1 hm).1
    constructor
    · rw [get_debit hm, if_pos rfl]; omega
    · intro a ha; rw [get_debit hm, if_neg (Ne.symm ha)]
  cases k with
  | ls =>
    obtain ⟨h1, h2, h3, h4, m, hm, rfl⟩ := registerLsToken_ok.1 h
    exact ⟨by rw [h2], (key m hm h2).1, (key m hm h2).2, fun k' => by cases k' <;> rfl, rfl⟩
  | unstake =>
    obtain ⟨h1, h2, h3, h4, m, hm, rfl⟩ := registerUnstakeToken_ok.1 h
    exact ⟨by rw [h2], (key m hm h2).1, (key m hm h2).2, fun k' => by cases k' <;> rfl, rfl⟩

/-- **C55**, at most one issue of each token is awaited at any time, none once the token exists, and every one was started and paid
by the account that owned the contract at that time. -/
theorem C55_one {w : World} (hr : Reachable w) :
    (∀ (i j : Nat) (x y : Issue), w.issues[i]? = some x → w.issues[j]? = some y → x.kind = y.kind → i = j) ∧
    (∀ k t, tokenId w k = some t → ¬ Awaiting w k) ∧ ∀ x ∈ w.issues, AskedByOwner w x := by
  have h0 : IssOk w.issues w.st.lsToken w.st.lsPending w.st.unstakeToken w.st.unstakePending w.self :=
    reachable_issInv hr
  refine ⟨?_, ?_, fun x hx => reachable_asked hr hx⟩
  · have key : ∀ (l : List Issue) (k : TokenKind), issuesOf k l ≤ 1 → ∀ (i j : Nat) (x y : Issue), l[i]? = some x → l[j]? = some y →
        x.kind = k → y.kind = k → i = j := by
      intro l
      induction l with
      | nil => intro k _ i j x y hx; simp at hx
      | cons z zs ih =>
        intro k hk i j x y hx hy hxk hyk
        cases i with
        | zero =>
          cases j with
          | zero => rfl
          | succ j =>
            exfalso
            simp only [List.getElem?_cons_zero, Option.some.injEq] at hx
            simp only [List.getElem?_cons_succ] at hy
            subst hx
            have : 0 < issuesOf k zs := issuesOf_pos.2 ⟨y, List.mem_of_getElem? hy, hyk⟩
            unfold issuesOf at hk this
            simp only [hxk, decide_true, List.filter_cons_of_pos, List.length_cons] at hk
            omega
        | succ i =>
          cases j with
          | zero =>
            exfalso
            simp only [List.getElem?_cons_zero, Option.some.injEq] at hy
            simp only [List.getElem?_cons_succ] at hx
            subst hy
            have : 0 < issuesOf k zs := issuesOf_pos.2 ⟨x, List.mem_of_getElem? hx, hxk⟩
            unfold issuesOf at hk this
            simp only [hyk, decide_true, List.filter_cons_of_pos, List.length_cons] at hk
            omega
          | succ j =>
            have hle : issuesOf k zs ≤ issuesOf k (z :: zs) := by
              unfold issuesOf
              rw [List.filter_cons]; split <;> simp
            simp only [List.getElem?_cons_succ] at hx hy
            rw [ih k (by omega) i j x y hx hy hxk hyk]
    intro i j x y hx hy hk
    refine key w.issues x.kind ?_ i j x y hx hy rfl hk.symm
    cases x.kind with
    | ls => rw [h0.ls]; split <;> omega
    | unstake => rw [h0.us]; split <;> omega
  · intro k t ht
    rw [C55_flag_iff hr k]
    intro hp
    cases k with
    | ls => rw [show w.st.lsToken = some t from ht] at h0; exact absurd (h0.lsn hp) (by simp)
    | unstake => rw [show w.st.unstakeToken = some t from ht] at h0; exact absurd (h0.usn hp) (by simp)

/-- **C55**, a token is issued: the awaited token now exists and has the identifier given, the other one is as it was, and no
EGLD and no figure of the pool moves. -/
theorem C55_success {w w' : World} {i : Nat} {id : TokenId} {x : Issue} (hr : Reachable w) (hx : w.issues[i]? = some x)
    (h : step w (.issued i (some id)) = .ok w') :
    tokenId w x.kind = none ∧ tokenId w' x.kind = some id ∧ ¬ Awaiting w' x.kind ∧
    (∀ k, k ≠ x.kind → tokenId w' k = tokenId w k ∧ (Awaiting w' k ↔ Awaiting w k)) ∧
    (∀ a, egldOf w' a = egldOf w a) ∧ w'.st.r = w.st.r := by
  have hr' : Reachable w' := .step _ hr h
  obtain ⟨y, E, hy, _, hE, rfl⟩ := issued_ok.1 h
  rw [hx] at hy
  cases hy
  obtain ⟨_, hw⟩ := (reachable_issInv hr).waiting hx
  rw [if_neg (by simp)] at hE
  subst hE
  refine ⟨?_, ?_, ?_, ?_, fun _ => rfl, ?_⟩
  · obtain ⟨k, u, v⟩ := x
    cases k <;> exact hw.2
  · obtain ⟨k, u, v⟩ := x
    cases k <;> rfl
  · rw [C55_flag_iff hr']
    obtain ⟨k, u, v⟩ := x
    cases k <;> exact Bool.false_ne_true
  · intro k hk
    rw [C55_flag_iff hr', C55_flag_iff hr]
    obtain ⟨k', u, v⟩ := x
    cases k <;> cases k' <;> first | exact absurd rfl hk | exact ⟨rfl, Iff.rfl⟩
  · obtain ⟨k, u, v⟩ := x
    cases k <;> rfl

/-- **C55**, an issue is refused: its whole cost is back with the account that paid it, nobody else's EGLD and no token moves, and it
is no longer awaited, so that the owner can start again with any cost they can pay. -/
theorem C55_failure {w w' : World} {i : Nat} {x : Issue} (hr : Reachable w) (hx : w.issues[i]? = some x)
    (h : step w (.issued i none) = .ok w') :
    egldOf w' x.caller = egldOf w x.caller + x.cost ∧ (∀ a, a ≠ x.caller → egldOf w' a = egldOf w a) ∧
    (∀ k, tokenId w' k = tokenId w k) ∧ ¬ Awaiting w' x.kind ∧ (∀ k, k ≠ x.kind → (Awaiting w' k ↔ Awaiting w k)) ∧
    w'.st.r = w.st.r ∧ (w.owner ≠ w.self → ∀ v, v ≤ egldOf w' w.owner → ∃ w'', step w' (registration x.kind w.owner v) = .ok w'') := by
  have hr' : Reachable w' := .step _ hr h
  obtain ⟨y, E, hy, _, hE, rfl⟩ := issued_ok.1 h
  rw [hx] at hy
  cases hy
  obtain ⟨hs, hw⟩ := (reachable_issInv hr).waiting hx
  rw [if_pos rfl] at hE
  obtain ⟨m, hm, rfl⟩ := hE
  have e1 : (credit m x.caller x.cost).get 0 x.caller = w.egld.get 0 x.caller + x.cost := by
    rw [get_credit, if_pos rfl, get_debit hm, if_neg (Ne.symm hs), get_credit, if_neg (Ne.symm hs)]
  have e2 : ∀ a, a ≠ x.caller → (credit m x.caller x.cost).get 0 a = w.egld.get 0 a := by
    intro a ha
    rw [get_credit, if_neg (Ne.symm ha), get_debit hm, get_credit]
    split <;> omega
  have e3 : ∀ k, tokenId { w with
      issues := w.issues.eraseIdx i, egld := credit m x.caller x.cost, st := setToken w.st x.kind none } k = tokenId w k := by
    intro k
    obtain ⟨k', u, v⟩ := x
    cases k <;> cases k' <;> first | rfl | exact hw.2.symm
  have e4 : ¬ Awaiting { w with
      issues := w.issues.eraseIdx i, egld := credit m x.caller x.cost, st := setToken w.st x.kind none } x.kind := by
    rw [C55_flag_iff hr']
    obtain ⟨k, u, v⟩ := x
    cases k <;> exact Bool.false_ne_true
  refine ⟨e1, e2, e3, e4, ?_, ?_, ?_⟩
  · intro k hk
    rw [C55_flag_iff hr', C55_flag_iff hr]
    obtain ⟨k', u, v⟩ := x
    cases k <;> cases k' <;> first | exact absurd rfl hk | exact Iff.rfl
  · obtain ⟨k, u, v⟩ := x
    cases k <;> rfl
  · intro ho v hv
    refine (C55_start_iff hr').2 ⟨ho, rfl, ?_, e4, hv⟩
    rw [e3]
    obtain ⟨k, u, v⟩ := x
    cases k <;> exact hw.2

/-- **C55**, no answer is lost: an awaited issue can always be answered, by a refusal or by an identifier other than that of the
other token. -/
theorem C55_answerable {w : World} {i : Nat} {x : Issue} (hx : w.issues[i]? = some x) (o : Option TokenId)
    (ho : o = none ∨ ∀ k, k ≠ x.kind → tokenId w k ≠ o) : ∃ w', step w (.issued i o) = .ok w' := by
  have hd : o = none ∨ tokenOf w.st x.kind.other ≠ o := by
    refine ho.imp_right fun h => ?_
    obtain ⟨k, u, v⟩ := x
    cases k
    · exact h .unstake (by simp)
    · exact h .ls (by simp)
  cases o with
  | none =>
    have hm := debit_ok.2 ⟨show x.cost ≤ (credit w.egld w.self x.cost).get 0 w.self by rw [get_credit, if_pos rfl]; omega, rfl⟩
    exact ⟨_, issued_ok.2 ⟨x, _, hx, hd, (if_pos rfl).mpr ⟨_, hm, rfl⟩, rfl⟩⟩
  | some id => exact ⟨_, issued_ok.2 ⟨x, w.egld, hx, hd, (if_neg (by simp)).mpr rfl, rfl⟩⟩

/-- **C55**, a token once issued keeps its identifier for ever, and the two identifiers differ. -/
theorem C55_permanent {w : World} (hr : Reachable w) :
    (∀ w', Later w w' → ∀ k t, tokenId w k = some t → tokenId w' k = some t) ∧
    ∀ t, tokenId w .ls = some t → tokenId w .unstake ≠ some t := by
  constructor
  · intro w' hl k t ht
    induction hl with
    | nil => exact ht
    | @snoc w1 w2 op htr hs _ ih =>
      have hr1 : Reachable w1 := reachable_trace hr htr
      have F := frame_step op (reachable_regInv hr1) (reachable_issInv hr1) hs
      cases k with
      | ls =>
        rcases F.lsT with h | ⟨_, _, _, _, _, _, h, _⟩
        · show w2.st.lsToken = _
          rw [h]; exact ih
        · rw [show w1.st.lsToken = some t from ih] at h; cases h
      | unstake =>
        rcases F.usT with h | ⟨_, _, _, _, _, _, h, _⟩
        · show w2.st.unstakeToken = _
          rw [h]; exact ih
        · rw [show w1.st.unstakeToken = some t from ih] at h; cases h
  · exact (reachable_regInv hr).tok

/-- A fresh contract whose owner has started both issues, at 5 and 7 EGLD, and the second was answered with a token. -/
def awaitingLs : World := run fresh [.registerLsToken 1 (E 5), .registerUnstakeToken 1 (E 7), .issued 1 (some 501)]

example : Reachable awaitingLs ∧ awaitingLs.issues = [⟨.ls, 1, E 5⟩] ∧ egldOf awaitingLs 1 = E 988 ∧
    tokenId awaitingLs .unstake = some 501 ∧ tokenId awaitingLs .ls = none ∧
    works awaitingLs (.registerLsToken 1 (E 5)) = false ∧ works awaitingLs (.registerUnstakeToken 1 (E 5)) = false ∧
    works awaitingLs (.issued 0 (some 501)) = false ∧ works awaitingLs (.issued 0 (some 500)) = true ∧
    works awaitingLs (.issued 0 none) = true ∧ egldOf (exec awaitingLs (.issued 0 none)) 1 = E 993 ∧
    works (exec awaitingLs (.issued 0 none)) (.registerLsToken 1 (E 5)) = true ∧ works fresh (.registerLsToken 11 0) = false :=
  ⟨reachable_run (.init fresh_isInit) _, by decide +kernel, by decide +kernel, by decide +kernel, by decide +kernel,
    by decide +kernel, by decide +kernel, by decide +kernel, by decide +kernel, by decide +kernel, by decide +kernel,
    by decide +kernel, by decide +kernel⟩

/-- The owner changes while an issue is awaited: a refusal pays back the account that started it, and the new owner starts again. -/
example : works awaitingLs (.changeOwner 1 11) = true ∧ works awaitingLs (.changeOwner 11 11) = false ∧
    egldOf (run awaitingLs [.changeOwner 1 11, .issued 0 none]) 1 = E 993 ∧
    works (run awaitingLs [.changeOwner 1 11, .issued 0 none]) (.registerLsToken 1 (E 5)) = false ∧
    works (run awaitingLs [.changeOwner 1 11, .issued 0 none]) (.registerLsToken 11 (E 5)) = true :=
  ⟨by decide +kernel, by decide +kernel, by decide +kernel, by decide +kernel, by decide +kernel⟩

end LS
