import Verif.Props.Providers
import Verif.Props.Accounting
import Verif.Props.Callbacks
import Verif.Props.Payout
import Verif.Spec.System

/-! The whole system, contract and providers: C52 (C51 is in Props/Solvent). -/

namespace LS
open Spec Demo

theorem sysReachable_mono {P Q : Sys → SysOp → Prop} (hpq : ∀ s op, P s op → Q s op) {s : Sys} (h : SysReachable P s) :
    SysReachable Q s := by
  induction h with
  | init hi => exact .init hi
  | step op _ hp hs ih => exact .step op ih (hpq _ _ hp) hs

theorem isSum_mono {α : Type} {f g : α → Nat} {s t : Nat} (hf : IsSum f s) (hg : IsSum g t) (h : ∀ a, f a ≤ g a) : s ≤ t := by
  classical
  obtain ⟨S, hS, rfl⟩ := hf
  obtain ⟨T, hT, rfl⟩ := hg
  rw [Finset.sum_subset Finset.subset_union_left (fun a (_ : a ∈ S ∪ T) ha => hS a ha),
    Finset.sum_subset Finset.subset_union_right (fun a (_ : a ∈ S ∪ T) ha => hT a ha)]
  exact Finset.sum_le_sum fun a _ => h a

/-- Histories of the system are histories of the contract with an honest manager. -/
theorem honest_trace {s : Sys} (hr : SysReachable HonestSys s) :
    ReachableBy HonestManager s.w ∧ ∀ ps g r, (.claim ps, some (.ok g r)) ∈ s.msgs → r ≤ g := by
  have hmono : ∀ {s}, SysReachable HonestSys s → SysReachable InOrder s := fun h => sysReachable_mono (fun _ _ h => h.1) h
  induction hr with
  | @init w hi => exact ⟨⟨w, hi, .nil⟩, fun _ _ _ h => by simp at h⟩
  | @step s s' op hr hp hs ih =>
    obtain ⟨⟨w0, hi, ht⟩, hc⟩ := ih
    have hinv := sysInv (hmono hr)
    cases op with
    | call op =>
      have hs : sysCall s op = .ok s' := hs
      unfold sysCall at hs
      cases hdl : isDeliver op with
      | true => rw [hdl] at hs; cases hs
      | false =>
        rw [hdl] at hs
        obtain ⟨w', hw, hs⟩ := bind_ok.1 hs
        cases hs
        refine ⟨⟨w0, hi, .snoc op ht hw ?_⟩, fun ps g r h => ?_⟩
        · cases op with
          | deliver i o => cases hdl
          | _ => trivial
        · have h : _ ∈ s.msgs ++ _ := h
          rcases List.mem_append.1 h with h | h
          · exact hc _ _ _ h
          · obtain ⟨f, _, hf⟩ := List.mem_map.1 h
            cases hf
    | serve i o =>
      have hs1 : serve s i o = .ok s' := hs
      unfold serve at hs1
      cases he : s.msgs[i]? with
      | none => rw [he] at hs1; cases hs1
      | some e =>
        obtain ⟨f, a⟩ := e
        rw [he] at hs1
        cases a with
        | some o' => cases hs1
        | none =>
          have key : s'.w = s.w ∧ s'.msgs = s.msgs.set i (f, some o) := by
            cases ht : target f with
            | none => simp only [ht] at hs1; cases hs1; exact ⟨rfl, rfl⟩
            | some q =>
              simp only [ht] at hs1
              obtain ⟨b, hb, hs1⟩ := bind_ok.1 hs1
              cases hs1; exact ⟨rfl, rfl⟩
          refine ⟨⟨w0, hi, by rw [key.1]; exact ht⟩, fun ps g r h => ?_⟩
          rw [key.2] at h
          rcases List.mem_or_eq_of_mem_set h with h | h
          · exact hc _ _ _ h
          · cases h
            exact hp.2 i g r ps rfl he
    | lose i => exact hp.1.elim
    | answer i =>
      have hs1 : answer s i = .ok s' := hs
      unfold answer at hs1
      cases he : s.msgs[i]? with
      | none => rw [he] at hs1; cases hs1
      | some e =>
        obtain ⟨f, a⟩ := e
        rw [he] at hs1
        cases a with
        | none => cases hs1
        | some o =>
          obtain ⟨w', hw, hs1⟩ := bind_ok.1 hs1
          cases hs1
          have hfl : s.w.flights[i]? = some f := by rw [← hinv.msgs, List.getElem?_map, he]; rfl
          refine ⟨⟨w0, hi, .snoc _ ht hw ?_⟩, fun ps g r h => hc ps g r (List.mem_of_mem_eraseIdx h)⟩
          cases o with
          | err => trivial
          | ok g r =>
            intro ps hps
            rw [hfl] at hps; cases hps
            exact hc ps g r (List.mem_of_getElem? he)

/-- A check of `HonestSys`. -/
def honestSys (s : Sys) (op : SysOp) : Bool :=
  inOrder s op && match op with
    | .serve i (.ok g r) => match s.msgs[i]? with
      | some (.claim _, none) => decide (r ≤ g)
      | _ => true
    | _ => true

theorem honestSys_sound {s : Sys} {op : SysOp} (h : honestSys s op = true) : HonestSys s op := by
  unfold honestSys at h
  rw [Bool.and_eq_true] at h
  refine ⟨inOrder_sound h.1, fun i g r ps hop hm => ?_⟩
  subst hop
  have h2 := h.2
  simp only [hm] at h2
  exact of_decide_eq_true h2

/-- Running a list of steps, dropping those that fail, are out of order or dishonest. -/
def honestRun (s : Sys) (ops : List SysOp) : Sys := ops.foldl (fun s op => if honestSys s op then sysExec s op else s) s

theorem honestRun_reachable : ∀ {ops : List SysOp} {s : Sys}, SysReachable HonestSys s → SysReachable HonestSys (honestRun s ops)
  | [], _, h => h
  | op :: ops, s, h => by
    show SysReachable HonestSys (honestRun (if honestSys s op then sysExec s op else s) ops)
    refine honestRun_reachable ?_
    cases ho : honestSys s op with
    | false => exact h
    | true => exact sysExec_reachable h (honestSys_sound ho)

/-! ### C52 -/

theorem Spec.SysTrace.trans {P : Sys → SysOp → Prop} {a b c : Sys} (h : SysTrace P a b) (h' : SysTrace P b c) : SysTrace P a c := by
  induction h' with
  | nil => exact h
  | snoc op _ hp hs ih => exact .snoc op ih hp hs

theorem Spec.SysTrace.reachable {P Q : Sys → SysOp → Prop} (hpq : ∀ s op, P s op → Q s op) {a b : Sys} (h : SysTrace P a b)
    (ha : SysReachable Q a) : SysReachable Q b := by
  induction h with
  | nil => exact ha
  | snoc op _ hp hs ih => exact .step op ih (hpq _ _ hp) hs

/-- What collecting leaves alone. -/
structure Coll (w w' : World) : Prop where
  self : w'.self = w.self
  owner : w'.owner = w.owner
  epoch : w'.epoch = w.epoch
  nft : w'.nft = w.nft
  attrs : w'.attrs = w.attrs
  state : w'.st.state = w.st.state
  ls : w'.st.lsToken = w.st.lsToken
  us : w'.st.unstakeToken = w.st.unstakeToken
  mgr : w'.st.managers = w.st.managers
  dl : w'.st.delegList = w.st.delegList
  q : w'.st.r.toUnstake = w.st.r.toUnstake
  sum : w'.st.r.withdrawn + w'.st.r.toUnbond = w.st.r.withdrawn + w.st.r.toUnbond
  fig : ∀ p, figure (·.unstaked) w' p ≤ figure (·.unstaked) w p

theorem Coll.trans {a b c : World} (h : Coll a b) (h' : Coll b c) : Coll a c :=
  ⟨h'.self.trans h.self, h'.owner.trans h.owner, h'.epoch.trans h.epoch, h'.nft.trans h.nft, h'.attrs.trans h.attrs,
    h'.state.trans h.state, h'.ls.trans h.ls, h'.us.trans h.us, h'.mgr.trans h.mgr, h'.dl.trans h.dl, h'.q.trans h.q,
    h'.sum.trans h.sum, fun p => Nat.le_trans (h'.fig p) (h.fig p)⟩

/-- The callback of a `withdrawPending` answered with all that was unbonding. -/
theorem collect_world {w : World} {E : Map Addr Nat} {p : Addr} {t : TokenId} {d : ProviderData} (ht : w.st.lsToken = some t)
    (hd : w.st.data.get none p = some d) (htot : d.unstaked ≤ w.st.r.toUnbond) :
    ∃ w', step { w with egld := E, flights := [.withdraw p] } (.deliver 0 (.ok d.unstaked 0)) = .ok w' ∧
      Coll w w' ∧ figure (·.unstaked) w' p = 0 := by
  have hfd : figure (·.unstaked) w p = d.unstaked := by unfold figure provider; rw [hd]
  by_cases h0 : d.unstaked = 0
  · refine ⟨_, deliver_of_cb (f := .withdraw p) rfl (withdrawTokensCb_ok.2 (.inl ⟨h0, rfl⟩)), ?_, ?_⟩
    · exact ⟨rfl, rfl, rfl, rfl, rfl, rfl, rfl, rfl, rfl, rfl, rfl, rfl, fun _ => Nat.le_refl _⟩
    · show figure (·.unstaked) w p = 0
      rw [hfd, h0]
  · refine ⟨_, deliver_of_cb (f := .withdraw p) rfl (withdrawTokensCb_ok.2
      (.inr ⟨by omega, t, d, ht, hd, Nat.le_refl _, htot, rfl⟩)), ?_, ?_⟩
    · refine ⟨rfl, rfl, rfl, rfl, rfl, rfl, rfl, rfl, rfl, rfl, rfl, ?_, fun q => ?_⟩
      · show w.st.r.withdrawn + d.unstaked + (w.st.r.toUnbond - d.unstaked) = _
        have : d.unstaked ≤ w.st.r.toUnbond := htot
        omega
      · rw [figure_recOf, figure_recOf]
        unfold recOf
        show (Map.get none (w.st.data.set p _) q).elim 0 _ ≤ _
        rw [Map.get_set]
        by_cases hq : p = q
        · subst hq; rw [if_pos rfl, hd]; exact Nat.sub_le _ _
        · rw [if_neg hq]
    · rw [figure_recOf]
      unfold recOf
      show (Map.get none (w.st.data.set p _) p).elim 0 _ = 0
      rw [Map.get_set, if_pos rfl]
      exact Nat.sub_self _

private theorem collect_one {s : Sys} {m p : Addr} (hr : SysReachable HonestSys s) (hm0 : s.msgs = []) (hm : m ≠ s.w.self)
    (hmg : isManager s.w m = true) (ha : s.w.st.state = .active) (ht : s.w.st.lsToken ≠ none) (hp : p ∈ s.w.st.delegList) :
    ∃ s', SysTrace (Collecting m) s s' ∧ s'.msgs = [] ∧ Coll s.w s'.w ∧ figure (·.unstaked) s'.w p = 0 := by
  have hr1 : SysReachable InOrder s := sysReachable_mono (fun _ _ h => h.1) hr
  have hinv := sysInv hr1
  have hreg : RegOk s.w.st.lsToken s.w.st.unstakeToken s.w.st.delegList s.w.st.undelegList s.w.st.data s.w.flights s.w.dead :=
    reachable_regInv hinv.reach
  have hf0 : s.w.flights = [] := by rw [← hinv.msgs, hm0]; rfl
  obtain ⟨t, ht⟩ := Option.ne_none_iff_exists'.1 ht
  obtain ⟨d, hd⟩ := Option.ne_none_iff_exists'.1 (hreg.recd p hp)
  have hb := (C38_records_match hr1 hp (by rw [hm0]; intro e he; cases he)).2
  have hfd : figure (·.unstaked) s.w p = d.unstaked := by unfold figure provider; rw [hd]
  rw [hfd] at hb
  have htot := (C44_unbonding_total hinv.reach).le p
  rw [hfd] at htot
  obtain ⟨E, hE⟩ : ∃ E, debit s.w.egld s.w.self 0 = .ok E := ⟨_, by unfold debit; rw [if_pos (Nat.zero_le _)]⟩
  have h1 : sysStep s (.call (.withdrawPending m p)) =
      .ok { s with w := { s.w with egld := E, flights := [.withdraw p] }, msgs := [(.withdraw p, none)] } := by
    show sysCall s (.withdrawPending m p) = _
    have : step s.w (.withdrawPending m p) = .ok { s.w with egld := E, flights := [.withdraw p] } := by
      show withdrawPending s.w m p = _
      unfold withdrawPending
      simp only [bind_ok, requireUser_ok, requireActive_ok, requireManager_ok, req_ok, exists_const, cacheNew_ok,
        registerPromise_ok, Except.ok.injEq]
      exact ⟨hm, _, ⟨t, ht, rfl⟩, hmg, ha, by rw [hd]; simp, _, ⟨E, hE, rfl⟩, by simp [hf0, commit]⟩
    unfold sysCall
    rw [this, hm0, hf0]
    rfl
  have h2 : sysStep { s with w := { s.w with egld := E, flights := [.withdraw p] }, msgs := [(.withdraw p, none)] }
      (.serve 0 (.ok d.unstaked 0)) = .ok { s with
        w := { s.w with egld := E, flights := [.withdraw p] }, msgs := [(.withdraw p, some (.ok d.unstaked 0))],
        books := s.books.set p { booksOf s p with unbonding := 0 } } := by
    show (serveOne (booksOf s p) (.withdraw p) (.ok d.unstaked 0)).bind _ = _
    have : serveOne (booksOf s p) (.withdraw p) (.ok d.unstaked 0) = .ok { booksOf s p with unbonding := 0 } := by
      show (csub (booksOf s p).unbonding d.unstaked).bind _ = _
      rw [hb, csub, if_pos (Nat.le_refl _), Nat.sub_self]
      rfl
    rw [this]
    rfl
  obtain ⟨w', hw', hc, hz⟩ := collect_world (E := E) ht hd htot
  have h3 : sysStep { s with
        w := { s.w with egld := E, flights := [.withdraw p] }, msgs := [(.withdraw p, some (.ok d.unstaked 0))],
        books := s.books.set p { booksOf s p with unbonding := 0 } } (.answer 0) =
      .ok { w := w', msgs := [], books := s.books.set p { booksOf s p with unbonding := 0 } } := by
    show (step _ (.deliver 0 (.ok d.unstaked 0))).bind _ = _
    rw [hw']
    rfl
  refine ⟨_, .snoc _ (.snoc _ (.snoc _ .nil ?_ h1) ?_ h2) ?_ h3, rfl, hc, hz⟩
  · exact ⟨⟨trivial, fun i g r ps h => by cases h⟩, fun c h => by cases h; exact ⟨p, rfl⟩⟩
  · exact ⟨⟨fun j hj => absurd hj (Nat.not_lt_zero _), fun i g r ps h h' => by cases h; cases h'⟩, fun c h => by cases h⟩
  · exact ⟨⟨fun j hj => absurd hj (Nat.not_lt_zero _), fun i g r ps h h' => by cases h⟩, fun c h => by cases h⟩

private theorem collect_all {m : Addr} : ∀ {l : List Addr} {s : Sys}, SysReachable HonestSys s → s.msgs = [] → m ≠ s.w.self →
    isManager s.w m = true → s.w.st.state = .active → s.w.st.lsToken ≠ none → (∀ p ∈ l, p ∈ s.w.st.delegList) →
    ∃ s', SysTrace (Collecting m) s s' ∧ s'.msgs = [] ∧ Coll s.w s'.w ∧ ∀ p ∈ l, figure (·.unstaked) s'.w p = 0
  | [], s, _, h0, _, _, _, _, _ =>
    ⟨s, .nil, h0, ⟨rfl, rfl, rfl, rfl, rfl, rfl, rfl, rfl, rfl, rfl, rfl, rfl, fun _ => Nat.le_refl _⟩, fun _ h => by cases h⟩
  | p :: l, s, hr, h0, hm, hmg, ha, ht, hl => by
    obtain ⟨s1, ht1, hm1, hc1, hz1⟩ := collect_one hr h0 hm hmg ha ht (hl p (List.mem_cons_self ..))
    obtain ⟨s2, ht2, hm2, hc2, hz2⟩ := collect_all (l := l) (ht1.reachable (fun _ _ h => h.1) hr) hm1 (by rw [hc1.self]; exact hm)
      (by unfold isManager at hmg ⊢; rw [hc1.mgr, hc1.owner]; exact hmg) (by rw [hc1.state]; exact ha) (by rw [hc1.ls]; exact ht)
      (fun q hq => by rw [hc1.dl]; exact hl q (List.mem_cons_of_mem _ hq))
    refine ⟨s2, ht1.trans ht2, hm2, hc1.trans hc2, fun q hq => ?_⟩
    rcases List.mem_cons.1 hq with rfl | hq
    · have := hc2.fig q
      omega
    · exact hz2 q hq

/-- Payments covered token by token are covered in total. -/
theorem totalPaid_le_sum {f : Nat × Addr → Nat} {t : Nat} {c : Addr} {ps : List Payment} (hs : IsSum f t)
    (h : ∀ n, paidWith n ps ≤ f (n, c)) : totalPaid ps ≤ t := by
  classical
  have h1 : IsSum (fun x : Nat × Addr => if x.2 = c then paidWith x.1 ps else 0) (totalPaid ps) := by
    clear h hs
    induction ps with
    | nil => exact isSum_zero.congr fun x => by simp [paidWith]
    | cons p ps ih =>
      refine ((isSum_single (p.nonce, c) p.amount).add ih).congr fun x => ?_
      obtain ⟨n, a⟩ := x
      by_cases ha : a = c
      · subst ha; simp [paidWith]
      · have : ¬ c = a := fun e => ha e.symm
        simp [ha, this]
  refine isSum_mono h1 hs fun x => ?_
  obtain ⟨n, a⟩ := x
  by_cases ha : a = c
  · subst ha; simpa using h n
  · simp [ha]

/-- Once nothing is unbonding at the listed providers, nothing is in flight and the queue is empty, every holder of matured
unstake tokens can be paid in full. -/
theorem exit_world {w w' : World} (hby : ReachableBy HonestManager w') (hfl : w'.flights = []) (hdead : ∀ f ∈ w'.dead, ¬ Settling f)
    (hc : Coll w w') (hz : ∀ p ∈ w.st.delegList, figure (·.unstaked) w' p = 0) (hq : toUndelegate w = 0)
    (ha : w.st.state = .active) (hl : w.st.lsToken ≠ none) (hu : w.st.unstakeToken ≠ none) :
    (∃ u, IsSum (userTokens w') u ∧ u + w'.burntUnstake = withdrawable w') ∧ ∀ c ps, c ≠ w.self →
      (∀ p ∈ ps, w.st.unstakeToken = some p.token ∧ 0 < p.amount ∧ ∃ e, maturityOf w p.nonce = some e ∧ e ≤ w.epoch) →
      (∀ n, paidWith n ps ≤ unstakeOf w n c) →
      ∃ w'', step w' (.withdraw c 0 ps) = .ok w'' ∧ egldOf w'' c = egldOf w' c + totalPaid ps := by
  have hreach := reachableBy_reachable hby
  have hreg : RegOk w'.st.lsToken w'.st.unstakeToken w'.st.delegList w'.st.undelegList w'.st.data w'.flights w'.dead :=
    reachable_regInv hreach
  obtain ⟨x, u, hx, hut, hU⟩ := C07_unstake_tokens_covered hreach
  have hx0 : x = 0 := by
    refine hx.unique (isSum_zero.congr fun p => ?_)
    by_cases hp : p ∈ w'.st.delegList
    · rw [hc.dl] at hp; exact (hz p hp).symm
    · unfold figure provider
      cases hg : w'.st.data.get none p with
      | none => rfl
      | some d => exact (hreg.zero p d hg hp).2.1.symm
  have hund : allUndelegations (unsettled w') = 0 := by
    unfold unsettled
    rw [hfl, List.nil_append]
    generalize w'.dead = l at hdead
    induction l with
    | nil => rfl
    | cons f l ih =>
      have ih := ih fun g hg => hdead g (List.mem_cons_of_mem _ hg)
      have hf := hdead f (List.mem_cons_self ..)
      cases f with
      | undelegate p a => exact absurd trivial hf
      | _ => exact ih
  have hq' : toUndelegate w' = 0 := by unfold toUndelegate at *; rw [hc.q]; exact hq
  rw [hx0, hund, hq'] at hU
  simp only [Nat.zero_add] at hU
  have hmat : ∀ n, maturityOf w' n = maturityOf w n := fun n => by unfold maturityOf; rw [hc.attrs]
  have hnft : ∀ n a, unstakeOf w' n a = unstakeOf w n a := fun n a => by unfold unstakeOf; rw [hc.nft]
  refine ⟨⟨u, hut, hU⟩, fun c ps hcs hps hh => ?_⟩
  have hle : totalPaid ps ≤ withdrawable w' := by
    have hheld : ∀ n, paidWith n ps ≤ userTokens w' (n, c) := by
      intro n
      unfold userTokens
      rw [if_neg (by rw [hc.self]; exact hcs)]
      rw [hnft]; exact hh n
    have := totalPaid_le_sum hut hheld
    omega
  have hpref : ∀ ps1 p ps2, ps = ps1 ++ p :: ps2 → totalPaid ps1 < withdrawable w' := by
    intro ps1 p ps2 he
    have hp := (hps p (by rw [he]; simp)).2.1
    have : totalPaid ps = totalPaid ps1 + (p.amount + totalPaid ps2) := by
      rw [he, totalPaid_eq, totalPaid_eq, totalPaid_eq]; simp [amtSum]
    omega
  obtain ⟨w'', hw''⟩ := (C50_withdraw_iff hby).2 ⟨by rw [hc.state]; exact ha, by rw [hc.ls]; exact hl, by rw [hc.us]; exact hu,
    by rw [hc.self]; exact hcs, fun p hp => by rw [hc.us, hmat, hc.epoch]; exact hps p hp, fun n => by rw [hnft]; exact hh n, hpref⟩
  refine ⟨w'', hw'', ?_⟩
  obtain ⟨_, y, hy, _, _, _, he, _⟩ := C11_withdraw_one_to_one hreach hw''
  rw [Nat.min_eq_left hle] at hy
  omega
/-- **C52.** When nothing is in flight and the un-delegation queue is empty, everybody can exit: any manager can collect from the
providers, by `withdrawPending` calls alone, so much that afterwards every holder of matured unstake tokens, whoever comes
first, is paid in full. -/
theorem C52_exit {s : Sys} {m : Addr} (hr : SysReachable HonestSys s) (h0 : s.msgs = []) (hq : toUndelegate s.w = 0)
    (ha : s.w.st.state = .active) (hl : s.w.st.lsToken ≠ none) (hu : s.w.st.unstakeToken ≠ none)
    (hm : m ≠ s.w.self) (hmg : m ∈ s.w.st.managers ∨ m = s.w.owner) :
    ∃ s', SysTrace (Collecting m) s s' ∧ s'.w.epoch = s.w.epoch ∧ (∀ n a, unstakeOf s'.w n a = unstakeOf s.w n a) ∧
      (∀ n, maturityOf s'.w n = maturityOf s.w n) ∧ (∃ u, IsSum (userTokens s'.w) u ∧ u + s'.w.burntUnstake = withdrawable s'.w) ∧
      ∀ c ps, c ≠ s.w.self →
        (∀ p ∈ ps, s.w.st.unstakeToken = some p.token ∧ 0 < p.amount ∧ ∃ e, maturityOf s.w p.nonce = some e ∧ e ≤ s.w.epoch) →
        (∀ n, paidWith n ps ≤ unstakeOf s.w n c) →
        ∃ w', step s'.w (.withdraw c 0 ps) = .ok w' ∧ egldOf w' c = egldOf s'.w c + totalPaid ps := by
  have hmg' : isManager s.w m = true := by
    unfold isManager
    rcases hmg with h | h
    · simp [h]
    · simp [h]
  obtain ⟨s', htr, hm', hc, hz⟩ := collect_all (l := s.w.st.delegList) hr h0 hm hmg' ha hl (fun _ h => h)
  have hr' := htr.reachable (Q := HonestSys) (fun _ _ h => h.1) hr
  have hr1 : SysReachable InOrder s' := sysReachable_mono (fun _ _ h => h.1) hr'
  have hinv := sysInv hr1
  have hby := (honest_trace hr').1
  obtain ⟨hU, hpay⟩ := exit_world hby (by rw [← hinv.msgs, hm']; rfl) (C38_none_failed hr1) hc hz hq ha hl hu
  exact ⟨s', htr, hc.epoch, fun n a => by unfold unstakeOf; rw [hc.nft], fun n => by unfold maturityOf; rw [hc.attrs], hU, hpay⟩

/-- All answers of `busyOps` arrived and the unstake tokens matured; nothing has been collected. -/
def matured : Sys := honestRun ⟨fresh, [], []⟩ (busyOps ++ [.answer 0, .answer 0, .answer 0, .answer 0, .call (.advance 40)])

/-- Non-vacuity of `C52_exit`: users hold matured tokens, all EGLD for them is still at the providers. -/
example : SysReachable HonestSys matured ∧ matured.msgs = [] ∧ toUndelegate matured.w = 0 ∧ matured.w.st.state = .active ∧
    withdrawable matured.w = 0 ∧ 0 < (booksOf matured 21).unbonding ∧ 0 < (booksOf matured 22).unbonding ∧
    unstakeOf matured.w 1 11 = E 90 ∧ unstakeOf matured.w 1 12 = E 50 ∧
    ((maturityOf matured.w 1).any fun e => decide (e ≤ matured.w.epoch)) = true :=
  ⟨honestRun_reachable (.init fresh_isInit), by decide +kernel, by decide +kernel, by decide +kernel, by decide +kernel,
    by decide +kernel, by decide +kernel, by decide +kernel, by decide +kernel, by decide +kernel⟩

end LS
