import Verif.Model.SelfCall
import Verif.Props.Front
import Verif.Props.Solvent
import Verif.Props.Network

/-! The contract as its own provider: C93. -/

namespace LS
open Spec Demo

/-- A history of transactions that satisfy `P`, in which calls of the contract to itself may be carried out. -/
inductive Spec.SelfTrace (P : World → Op → World → Prop) (w : World) : World → Prop
  | nil : SelfTrace P w w
  | op {w1 w2 : World} (op : Op) : SelfTrace P w w1 → step w1 op = .ok w2 → P w1 op w2 → SelfTrace P w w2
  | own {w1 w2 : World} (i : Nat) (gas : Bool) : SelfTrace P w w1 → selfServe w1 i gas = .ok w2 → SelfTrace P w w2

/-- What is asked of the transactions depends on what is read only, and is met by those that stand in for a call to itself. -/
private structure Blind (P : World → Op → World → Prop) : Prop where
  read : ∀ {w v op w' v'}, SameRead w v → P w op w' → P v op v'
  fund : ∀ {w a n w'}, P w (.fund a n) w'
  deposit : ∀ {w a n w'}, P w (.delegate a n) w'
  give : ∀ {w a n w'}, P w (.giveLs a n) w'
  fails : ∀ {w i w'}, P w (.deliver i .err) w'
  works : ∀ {w i w'}, P w (.deliver i (.ok 0 0)) w'
  starves : ∀ {w i o w'}, P w (.starve i o) w'

private theorem depositBody_ok {w w' : World} {caller : Addr} {v : Nat} : depositBody w caller v = .ok w' ↔
    0 < v ∧ w.st.state = .active ∧ ∃ t p e l, w.st.lsToken = some t ∧ getActionAmount w.st.r.toUnstake v = .ok (p, e) ∧
      (0 < p → MIN_EGLD ≤ w.st.r.toUnstake - p ∨ w.st.r.toUnstake - p = 0) ∧
      (0 < e → MIN_EGLD ≤ w.st.r.pending + e) ∧ LsQuote w.st.r v l ∧
      w' = commit (emit { w with ls := mintTo w.ls w.self caller l }
            (depositCache ⟨w.st.state, t, w.st.r⟩ p e l) (.addLiquidity v) caller)
            (depositCache ⟨w.st.state, t, w.st.r⟩ p e l) := by
  unfold depositBody
  simp only [bind_ok, requireActive, req_ok, exists_const, cacheNew_ok, Prod.exists]
  constructor
  · rintro ⟨_, ⟨t, ht, rfl⟩, h2, h3, p, e, hpe, w1, c1, hd, h4⟩
    have hs := getActionAmount_sum hpe
    rw [processDelegation_ok (by omega)] at hd
    obtain ⟨h5, h6, h7, l, hq, rfl, rfl⟩ := hd
    have hv : p + e = v := hs.1
    rw [hv] at hq h4
    simp only [Except.ok.injEq] at h4
    exact ⟨h3, h2, t, p, e, l, ht, hpe, h6, h7, hq, h4.symm⟩
  · rintro ⟨h3, h2, t, p, e, l, ht, hpe, h6, h7, hq, rfl⟩
    have hs := getActionAmount_sum hpe
    refine ⟨_, ⟨t, ht, rfl⟩, h2, h3, p, e, hpe, _, _,
      (processDelegation_ok (by omega)).2 ⟨hs.2, h6, h7, l, ?_, rfl, rfl⟩, ?_⟩
    · rw [hs.1]; exact hq
    · rw [hs.1]

private theorem TwinSt.refl {B : Prop} {C : Part → Prop} (s : Store) : TwinSt B C s s := by
  constructor <;> intros <;> first | rfl | exact fun _ _ => rfl

/-- The same world but for the ledgers, which read the same, and the events. -/
private theorem twin_ledger {w v : World} {E : Map Addr Nat} {L : Map Addr Nat} {ev : List Event}
    (hv : v = { w with egld := E, ls := L, events := ev }) (h1 : ∀ a, E.get 0 a = w.egld.get 0 a)
    (h2 : ∀ a, L.get 0 a = w.ls.get 0 a) : Twin (fun _ => True) True (fun x => unread x = false) w v := by
  subst hv
  constructor <;> intros <;> first | trivial | rfl | exact TwinSt.refl _ | exact fun _ _ => rfl | exact fun a _ => h1 a | exact fun a _ => h2 a

private theorem exec_of {w w' : World} {op : Op} (h : step w op = .ok w') : exec w op = w' := by
  unfold exec
  rw [h]

/-- The contract's own deposit is, in everything read, the deposit of somebody else who then sends the tokens to the contract. -/
private theorem deposit_covered {P : World → Op → World → Prop} (hP : Blind P) {w w1 : World} {x : Addr} {a : Nat} (hx : x ∈ w.contracts) (hs : x ≠ w.self)
    (h : depositBody { w with egld := credit w.egld w.self a } w.self a = .ok w1) :
    ∃ v, Trace P w v ∧ Twin (fun _ => True) True (fun x => unread x = false) w1 v := by
  obtain ⟨h1, h2, t, p, e, l, h3, h4, h5, h6, h7, rfl⟩ := depositBody_ok.1 h
  have f1 : step w (.fund x a) = .ok { w with egld := credit w.egld x a } := fund_ok.2 ⟨hs, rfl⟩
  have hm : debit (credit w.egld x a) x a = .ok _ := debit_ok.2 ⟨by rw [get_credit, if_pos rfl]; omega, rfl⟩
  have hl : debit (mintTo w.ls w.self x l) x l = .ok _ := debit_ok.2 ⟨by rw [get_mintTo, if_pos rfl]; omega, rfl⟩
  obtain ⟨v2, hv2⟩ : ∃ v2, v2 = commit (emit { w with
      egld := credit ((credit w.egld x a).set x ((credit w.egld x a).get 0 x - a)) w.self a, ls := mintTo w.ls w.self x l }
      (depositCache ⟨w.st.state, t, w.st.r⟩ p e l) (.addLiquidity a) x) (depositCache ⟨w.st.state, t, w.st.r⟩ p e l) := ⟨_, rfl⟩
  have f2 : step { w with egld := credit w.egld x a } (.delegate x a) = .ok v2 := by
    rw [hv2]
    exact delegate_ok.2 ⟨hs, h1, h2, _, t, p, e, l, hm, h3, h4, h5, h6, h7, rfl⟩
  have f3 : step v2 (.giveLs x l) = .ok { v2 with
      ls := credit ((mintTo w.ls w.self x l).set x ((mintTo w.ls w.self x l).get 0 x - l)) w.self l } := by
    subst hv2
    exact giveLs_ok.2 ⟨hs, hx, _, hl, rfl⟩
  refine ⟨_, ((Trace.nil.snoc _ f1 hP.fund).snoc _ f2 hP.deposit).snoc _ f3 hP.give, ?_⟩
  rw [hv2]
  have e1 := get_debit hm
  have e2 := get_debit hl
  refine twin_ledger rfl (fun k => ?_) (fun k => ?_)
  · show (credit _ w.self a).get 0 k = (credit w.egld w.self a).get 0 k
    rw [get_credit, e1 k, get_credit, get_credit]
    by_cases ha : x = k <;> by_cases hb : w.self = k <;> simp only [ha, hb, if_true, if_false] <;> omega
  · show (credit _ w.self l).get 0 k = (mintTo w.ls w.self w.self l).get 0 k
    rw [get_credit, e2 k, get_mintTo, get_mintTo]
    by_cases ha : x = k <;> by_cases hb : w.self = k <;> simp only [ha, hb, if_true, if_false] <;> omega

private theorem withdraw_covered {w w1 : World} (h : emptyWithdraw w w.self = .ok w1) : Twin (fun _ => True) True (fun x => unread x = false) w1 w := by
  unfold emptyWithdraw at h
  simp only [bind_ok, requireActive, req_ok, exists_const, cacheNew_ok] at h
  obtain ⟨_, ⟨t, ht, rfl⟩, _, h⟩ := h
  cases hu : w.st.unstakeToken with
  | none => rw [hu] at h; cases h
  | some uid =>
    rw [hu] at h
    simp only [bind_ok, withdrawLoop, Except.ok.injEq, Prod.exists, Prod.mk.injEq, sendEgld_ok] at h
    obtain ⟨_, _, _, ⟨rfl, rfl, rfl⟩, _, ⟨m, hm, rfl⟩, rfl⟩ := h
    have e := get_debit hm
    refine twin_ledger (ev := w.events) (E := w.egld) (L := w.ls) rfl (fun k => ?_) (fun k => rfl)
    show _ = (credit m w.self 0).get 0 k
    rw [get_credit, e k]
    split <;> omega

private theorem answered_twin {P : World → Op → World → Prop} (hP : Blind P) {w v w' : World} {i : Nat} {o : Outcome} {gas : Bool}
    (h : Twin (fun _ => True) True (fun x => unread x = false) w v) (ho : o = .err ∨ o = .ok 0 0) (ha : answered w i o gas = .ok w') :
    ∃ v', Trace P v v' ∧ SameRead w' v' := by
  cases gas with
  | true =>
    obtain ⟨v', hv, ht⟩ := (alike_outcome (h.deliver i o fun _ _ _ _ _ => rfl)).1 w' ha
    refine ⟨v', Trace.nil.snoc (.deliver i o) hv ?_, twin_read.2 ht⟩
    rcases ho with rfl | rfl
    · exact hP.fails
    · exact hP.works
  | false =>
    obtain ⟨v', hv, ht⟩ := (alike_outcome (h.starve i o)).1 w' ha
    exact ⟨v', Trace.nil.snoc (.starve i o) hv hP.starves, twin_read.2 ht⟩

private theorem Twin.refl {A : Addr → Prop} {B : Prop} {C : Part → Prop} (w : World) (h : A w.self) : Twin A B C w w := by
  constructor <;> intros <;> first | exact h | rfl | exact TwinSt.refl _ | exact fun _ _ => rfl

private theorem trace_append {P : World → Op → World → Prop} {u v w : World} (h1 : Trace P u v) (h2 : Trace P v w) : Trace P u w := by
  induction h2 with
  | nil => exact h1
  | snoc op _ hs hp ih => exact ih.snoc op hs hp

private theorem serve_deposit {P : World → Op → World → Prop} (hP : Blind P) {w w' : World} {i : Nat} {gas : Bool} {x : Addr} {a : Nat}
    (hx : x ∈ w.contracts) (hs : x ≠ w.self)
    (h : (match depositBody { w with egld := credit w.egld w.self a } w.self a with
      | .ok w1 => answered w1 i (.ok 0 0) gas
      | .error _ => answered w i .err gas) = .ok w') : ∃ v, Trace P w v ∧ SameRead w' v := by
  cases hd : depositBody { w with egld := credit w.egld w.self a } w.self a with
  | ok w1 =>
    rw [hd] at h
    obtain ⟨v, hv, ht⟩ := deposit_covered hP hx hs hd
    obtain ⟨v', hv', ho⟩ := answered_twin hP ht (.inr rfl) h
    exact ⟨v', trace_append hv hv', ho⟩
  | error e =>
    rw [hd] at h
    exact answered_twin hP (Twin.refl w trivial) (.inl rfl) h

private theorem serve_covered {P : World → Op → World → Prop} (hP : Blind P) {w w' : World} {i : Nat} {gas : Bool} {x : Addr}
    (hx : x ∈ w.contracts) (hs : x ≠ w.self) (h : selfServe w i gas = .ok w') : ∃ v, Trace P w v ∧ SameRead w' v := by
  unfold selfServe at h
  cases hf : w.flights[i]? with
  | none => rw [hf] at h; cases h
  | some f =>
    rw [hf] at h
    cases f with
    | delegate p a =>
      simp only at h
      split at h
      · exact serve_deposit hP hx hs h
      · cases h
    | whitelist p a u =>
      simp only at h
      split at h
      · exact serve_deposit hP hx hs h
      · cases h
    | undelegate p a =>
      simp only at h
      split at h
      · exact answered_twin hP (Twin.refl w trivial) (.inl rfl) h
      · cases h
    | withdraw p =>
      simp only at h
      split at h
      · cases hd : emptyWithdraw w w.self with
        | ok w1 =>
          rw [hd] at h
          exact answered_twin hP (withdraw_covered hd) (.inr rfl) h
        | error e =>
          rw [hd] at h
          exact answered_twin hP (Twin.refl w trivial) (.inl rfl) h
      · cases h
    | claim l => cases h

/-- Two worlds that agree in everything read stay so along a history. -/
private theorem read_trace {P : World → Op → World → Prop} (hP : Blind P) {u v u' : World} (h : SameRead u v) (ht : Trace P u u') :
    ∃ v', Trace P v v' ∧ SameRead u' v' := by
  induction ht with
  | nil => exact ⟨v, .nil, h⟩
  | snoc op _ hs hp ih =>
    obtain ⟨v1, hv1, h1⟩ := ih
    obtain ⟨v2, hv2, h2⟩ := (C86_unread h1).1 _ hs
    exact ⟨v2, hv1.snoc op hv2 (hP.read h1 hp), h2⟩

private theorem identity_trace {P : World → Op → World → Prop} {u v : World} (hr : Reachable u) (ht : Trace P u v) :
    Reachable v ∧ v.self = u.self ∧ v.contracts = u.contracts := by
  induction ht with
  | nil => exact ⟨hr, rfl, rfl⟩
  | @snoc w w1 op _ hs _ ih =>
    obtain ⟨h0, h1, h2⟩ := ih
    have hi : Same w w1 .identity := by
      refine parts_step h0 hs .identity ?_
      cases op with
      | deliver i o =>
        simp only [touched]
        cases hf : w.flights[i]? with
        | none => simp
        | some f => cases f <;> cases o <;> simp [callbackParts] <;> split <;> simp
      | owner c cmd => cases cmd <;> simp [touched, settingOf]
      | _ => simp [touched, positionParts] <;> try split <;> simp
    exact ⟨.step op h0 hs, hi.1.trans h1, hi.2.trans h2⟩

private theorem covered {P : World → Op → World → Prop} (hP : Blind P) {w w' : World} (hr : Reachable w) (h : SelfTrace P w w')
    {x : Addr} (hx : x ∈ w.contracts) (hs : x ≠ w.self) : ∃ v, Trace P w v ∧ SameRead w' v := by
  induction h with
  | nil => exact ⟨w, .nil, fun x _ => Spec.Same.refl ..⟩
  | @op w1 w2 op _ hstep hp ih =>
    obtain ⟨v, hv, ho⟩ := ih
    obtain ⟨v', hv', ht⟩ := (C86_unread ho).1 w2 hstep
    exact ⟨v', hv.snoc op hv' (hP.read ho hp), ht⟩
  | @own w1 w2 i gas _ hserve ih =>
    obtain ⟨v, hv, ho⟩ := ih
    have hid := ho .identity rfl
    obtain ⟨_, i1, i2⟩ := identity_trace hr hv
    have hi1 : w1.self = w.self := hid.1.symm.trans i1
    have hi2 : w1.contracts = w.contracts := hid.2.symm.trans i2
    obtain ⟨u, hu, hm⟩ := serve_covered hP (x := x) (by rw [hi2]; exact hx) (by rw [hi1]; exact hs) hserve
    obtain ⟨u', hu', hm'⟩ := read_trace hP ho hu
    exact ⟨u', trace_append hv hu', fun y hy => Spec.Same.trans (hm y hy) (hm' y hy)⟩

/-- **C93.** Calls of the contract to itself add nothing: whatever state is reached with them is, in everything that is ever read,
a state reached without them. -/
theorem C93_covered {w w' : World} (hr : Reachable w) (h : SelfTrace (fun _ _ _ => True) w w') {x : Addr} (hx : x ∈ w.contracts)
    (hs : x ≠ w.self) : ∃ v, Later w v ∧ SameRead w' v :=
  covered ⟨fun _ _ => trivial, trivial, trivial, trivial, trivial, trivial, trivial⟩ hr h hx hs

private theorem blind_honest : Blind HonestManager where
  read := by
    intro w v op w' v' h hp
    cases op with
    | deliver i o =>
      cases o with
      | ok g r =>
        intro ps hf
        have : v.flights = w.flights := h .calls rfl
        exact hp ps (by rw [← this]; exact hf)
      | err => trivial
    | _ => trivial
  fund := trivial
  deposit := trivial
  give := trivial
  fails := trivial
  works := fun _ _ => Nat.le_refl 0
  starves := trivial

/-- **C93.** With an honest delegation manager the balance covers pending EGLD, withdrawable EGLD and fees (C09) also when the
contract is among its own providers. -/
theorem C93_solvent {w w' : World} (hr : ReachableBy HonestManager w) (h : SelfTrace HonestManager w w') {x : Addr}
    (hx : x ∈ w.contracts) (hs : x ≠ w.self) :
    pendingEgld w' + withdrawable w' + feesReserve w' ≤ egldOf w' w'.self := by
  obtain ⟨w0, hi, ht⟩ := hr
  obtain ⟨v, hv, ho⟩ := covered blind_honest (reachable_trace (.init hi) ht) h hx hs
  have hc := C09_solvent ⟨w0, hi, trace_append ht hv⟩
  have e1 := ho .pending rfl
  have e2 := ho .withdrawable rfl
  have e3 := ho .fees rfl
  have e4 := ho .identity rfl
  have e5 := ho (.egld v.self) rfl
  simp only [Same] at e1 e2 e3 e4 e5
  rw [← e4.1]
  simp only [pendingEgld, withdrawable, feesReserve, egldOf] at *
  omega

/-! ### What it does -/

private theorem answered_tot {w w' : World} {i : Nat} {o : Outcome} {gas : Bool} {f : Flight} (hf : w.flights[i]? = some f)
    (h : answered w i o gas = .ok w') :
    tot w'.egld = tot w.egld + attached f o ∧ w'.flights = w.flights.eraseIdx i ∧ w'.issues = w.issues := by
  have h1 := tot_credit w.egld w.self (attached f o)
  cases gas with
  | true =>
    obtain ⟨g, hg, hcb⟩ := deliver_ok (show deliver w i o = .ok w' from h)
    cases hf.symm.trans hg
    rcases hcb with hcb | ⟨_, rfl⟩
    · obtain ⟨h2, h3⟩ := runCallback_tot hcb
      exact ⟨h2.trans h1, (runCallback_flights hcb).1, h3⟩
    · exact ⟨h1, rfl, rfl⟩
  | false =>
    obtain ⟨g, hg, rfl⟩ := starve_ok (show starve w i o = .ok w' from h)
    cases hf.symm.trans hg
    exact ⟨h1, rfl, rfl⟩

private theorem serve_tot {w w' : World} {i : Nat} {gas : Bool} {f : Flight} (hf : w.flights[i]? = some f)
    (h : selfServe w i gas = .ok w') :
    tot w'.egld = tot w.egld + carried f ∧ w'.flights = w.flights.eraseIdx i ∧ w'.issues = w.issues := by
  have failed : answered w i .err gas = .ok w' →
      tot w'.egld = tot w.egld + carried f ∧ w'.flights = w.flights.eraseIdx i ∧ w'.issues = w.issues := fun h => by
    have := answered_tot hf h
    cases f <;> exact this
  have deposit : ∀ a, carried f = a →
      (match depositBody { w with egld := credit w.egld w.self a } w.self a with
      | .ok w1 => answered w1 i (.ok 0 0) gas
      | .error _ => answered w i .err gas) = .ok w' →
      tot w'.egld = tot w.egld + carried f ∧ w'.flights = w.flights.eraseIdx i ∧ w'.issues = w.issues := fun a ha h => by
    cases hd : depositBody { w with egld := credit w.egld w.self a } w.self a with
    | ok w1 =>
      rw [hd] at h
      obtain ⟨e1, e2, e3⟩ : w1.egld = credit w.egld w.self a ∧ w1.flights = w.flights ∧ w1.issues = w.issues := by
        obtain ⟨_, _, t, p, e, l, _, _, _, _, _, rfl⟩ := depositBody_ok.1 hd
        exact ⟨rfl, rfl, rfl⟩
      obtain ⟨h1, h2, h3⟩ := answered_tot (f := f) (by rw [e2]; exact hf) h
      refine ⟨?_, h2.trans (by rw [e2]), h3.trans e3⟩
      rw [h1, e1, ha]
      exact tot_credit w.egld w.self a
    | error e =>
      rw [hd] at h
      exact failed h
  unfold selfServe at h
  rw [hf] at h
  cases f with
  | delegate p a =>
    simp only at h
    split at h
    · exact deposit a rfl h
    · cases h
  | whitelist p a u =>
    simp only at h
    split at h
    · exact deposit a rfl h
    · cases h
  | undelegate p a =>
    simp only at h
    split at h
    · exact failed h
    · cases h
  | withdraw p =>
    simp only at h
    split at h
    · cases hd : emptyWithdraw w w.self with
      | ok w1 =>
        rw [hd] at h
        have hw := withdraw_covered hd
        have hF : w1.flights = w.flights := (twin_read.2 hw .calls rfl).symm
        obtain ⟨h1, h2, h3⟩ := answered_tot (f := .withdraw p) (by rw [hF]; exact hf) h
        refine ⟨h1.trans ?_, h2.trans (by rw [hF]), h3.trans ?_⟩
        · exact tot_congr fun a => (twin_read.2 hw (.egld a) rfl).symm
        · exact (twin_read.2 hw .issuing rfl).symm
      | error e =>
        rw [hd] at h
        exact failed h
    · cases h
  | claim l => cases h

private theorem carried_all : ∀ l, allCarried l = fsum carried l
  | [] => rfl
  | f :: l => by rw [fsum_cons, ← carried_all l]; rfl

/-- **C93.** A call of the contract to itself neither creates nor loses EGLD: what was sent with it is in an account again. -/
theorem C93_conserved {w w' : World} {i : Nat} {gas : Bool} (h : selfServe w i gas = .ok w') {t t' : Nat}
    (ht : IsSum (egldOf w) t) (ht' : IsSum (egldOf w') t') :
    t' + allCarried w'.flights + costs w'.issues = t + allCarried w.flights + costs w.issues := by
  have e1 : t = tot w.egld := ht.unique (isSum_tot w.egld)
  have e2 : t' = tot w'.egld := ht'.unique (isSum_tot w'.egld)
  cases hf : w.flights[i]? with
  | none => unfold selfServe at h; rw [hf] at h; cases h
  | some f =>
    obtain ⟨h1, h2, h3⟩ := serve_tot hf h
    have he := fsum_eraseIdx carried hf
    rw [e1, e2, carried_all, carried_all, h1, h2, h3]
    omega

/-- The contract sends itself 1 EGLD. -/
example : let w := exec active (.whitelist 1 (E 1) 1000 41 0 0 10 800)
    allCarried w.flights = E 1 ∧ ∃ w', selfServe w 0 true = .ok w' ∧ egldOf w' 1000 = egldOf w 1000 + E 1 ∧ allCarried w'.flights = 0 := by
  refine ⟨by decide +kernel, ?_⟩
  have h : (match selfServe (exec active (.whitelist 1 (E 1) 1000 41 0 0 10 800)) 0 true with
    | .ok w' => decide (egldOf w' 1000 = egldOf (exec active (.whitelist 1 (E 1) 1000 41 0 0 10 800)) 1000 + E 1 ∧
        allCarried w'.flights = 0)
    | .error _ => false) = true := by decide +kernel
  split at h
  · next w' hw => exact ⟨w', hw, of_decide_eq_true h⟩
  · cases h

private theorem asked_back {w w' : World} {i : Nat} {gas : Bool} {p : Addr} {a : Nat} (hf : w.flights[i]? = some (.undelegate p a))
    (h : answered w i .err gas = .ok w') :
    (∀ q, figure (·.staked) w' q = figure (·.staked) w q ∧ figure (·.unstaked) w' q = figure (·.unstaked) w q) ∧
    (∀ x, egldOf w' x = egldOf w x) ∧ reserve w' = reserve w ∧ withdrawable w' = withdrawable w := by
  have hE : ∀ x, (credit w.egld w.self 0).get 0 x = w.egld.get 0 x := fun x => by
    rw [get_credit]; split <;> rfl
  cases gas with
  | true =>
    obtain ⟨g, hg, hcb⟩ := deliver_ok (show deliver w i .err = .ok w' from h)
    cases hf.symm.trans hg
    rcases hcb with hcb | ⟨_, rfl⟩
    · obtain ⟨t, d, _, h1, _, rfl⟩ := removeLiquidityCb_false_ok.1 hcb
      have h1' : w.st.data.get none p = some d := h1
      refine ⟨fun q => ?_, hE, rfl, rfl⟩
      unfold figure provider
      show (match (w.st.data.set p _).get none q with | some d => _ | none => _) = _ ∧
        (match (w.st.data.set p _).get none q with | some d => _ | none => _) = _
      rw [Map.get_set]
      by_cases hq : p = q
      · subst hq; rw [if_pos rfl, h1']; exact ⟨rfl, rfl⟩
      · rw [if_neg hq]; exact ⟨rfl, rfl⟩
    · exact ⟨fun q => ⟨rfl, rfl⟩, hE, rfl, rfl⟩
  | false =>
    obtain ⟨g, hg, rfl⟩ := starve_ok (show starve w i .err = .ok w' from h)
    cases hf.symm.trans hg
    exact ⟨fun q => ⟨rfl, rfl⟩, hE, rfl, rfl⟩

/-- **C93.** What is recorded as staked with the contract itself does not come back: a request to un-delegate it fails, and leaves
every recorded stake, all EGLD and the withdrawable EGLD as they are. -/
theorem C93_no_return {w w' : World} {i : Nat} {gas : Bool} {p : Addr} {a : Nat} (hf : w.flights[i]? = some (.undelegate p a))
    (h : selfServe w i gas = .ok w') :
    (∀ q, figure (·.staked) w' q = figure (·.staked) w q ∧ figure (·.unstaked) w' q = figure (·.unstaked) w q) ∧
    (∀ x, egldOf w' x = egldOf w x) ∧ reserve w' = reserve w ∧ withdrawable w' = withdrawable w := by
  unfold selfServe at h
  rw [hf] at h
  simp only at h
  split at h
  · exact asked_back hf h
  · cases h

/-- The contract carries out its first call, to itself. -/
def Spec.served (w : World) : World := match selfServe w 0 true with | .ok w' => w' | .error _ => w

private theorem served_trace {P : World → Op → World → Prop} {u w : World} (h : SelfTrace P u w) : SelfTrace P u (served w) := by
  unfold served
  cases hs : selfServe w 0 true with
  | ok w' => exact .own 0 true h hs
  | error e => exact h

private theorem exec_trace {u w : World} (h : SelfTrace HonestManager u w) (op : Op) (hp : ∀ w', HonestManager w op w') :
    SelfTrace HonestManager u (exec w op) := by
  unfold exec
  cases hs : step w op with
  | ok w' => exact .op op h hs (hp w')
  | error e => exact h

private theorem any_trace {P : World → Op → World → Prop} {u w : World} (h : SelfTrace P u w) : SelfTrace (fun _ _ _ => True) u w := by
  induction h with
  | nil => exact .nil
  | op op _ hs _ ih => exact ih.op op hs trivial
  | own i gas _ hs ih => exact ih.own i gas hs

/-- A manager makes the contract its own provider with 1 EGLD; the call is carried out. -/
def Spec.ownProvider : World := served (exec active (.whitelist 1 (E 1) 1000 41 0 0 10 800))

/-- The EGLD came back; it is delegated to the contract itself once more. -/
def Spec.ownTwice : World := served (exec ownProvider (.delegatePending 1 none))

private theorem active_honest : ReachableBy HonestManager active := reachableBy_honest (by decide +kernel)

private theorem ownProvider_trace : SelfTrace HonestManager active ownProvider :=
  served_trace (exec_trace .nil _ fun _ => trivial)

private theorem ownTwice_trace : SelfTrace HonestManager active ownTwice :=
  served_trace (exec_trace ownProvider_trace _ fun _ => trivial)

/-- **C93.** A contract that is its own provider books the same EGLD again with every batch: 1 EGLD came in and 1 EGLD is there, but the
reserve is 3 EGLD, 2 of them recorded as staked where nothing is staked, and of the 3 LS tokens the contract itself holds 2.  When
3 EGLD of rewards come in, the only other holder, with 1 LS token, is paid 2 EGLD of the 4. -/
theorem C93_hollow : ReachableBy HonestManager active ∧ SelfTrace HonestManager active ownTwice ∧
    egldOf ownTwice 1000 = E 1 ∧ ownTwice.flights = [] ∧ reserve ownTwice = E 3 ∧ figure (·.staked) ownTwice 1000 = E 2 ∧
    lsOf ownTwice 1000 = E 2 ∧ lsOf ownTwice 1 = E 1 ∧
    (let w := run ownTwice [.addRewards 13 (E 3), .unDelegate 1 0 [⟨500, 0, E 1⟩]]
     egldOf w 1000 = E 2 ∧ egldOf w 1 = egldOf ownTwice 1 + E 2 ∧ lsOf w 1 = 0) :=
  ⟨active_honest, ownTwice_trace, by decide +kernel, by decide +kernel, by decide +kernel, by decide +kernel, by decide +kernel,
    by decide +kernel, by decide +kernel⟩

/-- 2 EGLD recorded as staked with the contract itself are asked back, in vain. -/
example : let w := run ownTwice [.delegate 13 (E 9), .delegatePending 1 none, .unDelegate 13 0 [⟨500, 0, E 2⟩], .unDelegatePending 1 none]
    w.flights[1]? = some (.undelegate 1000 (E 2)) ∧ toUndelegate w = 0 ∧ figure (·.staked) w 1000 = E 2 ∧
    (match selfServe w 1 true with
     | .ok w' => decide (toUndelegate w' = E 2 ∧ figure (·.staked) w' 1000 = E 2)
     | .error _ => false) = true :=
  ⟨by decide +kernel, by decide +kernel, by decide +kernel, by decide +kernel⟩

example : ∃ v, Later active v ∧ SameRead ownTwice v :=
  C93_covered (reachable_run (.init fresh_isInit) _) (any_trace ownTwice_trace) (x := 2) (by decide +kernel) (by decide +kernel)

example : 0 < pendingEgld ownTwice ∧ pendingEgld ownTwice + withdrawable ownTwice + feesReserve ownTwice ≤ egldOf ownTwice 1000 :=
  ⟨by decide +kernel, C93_solvent active_honest ownTwice_trace (x := 2) (by decide +kernel) (by decide +kernel)⟩

end LS
