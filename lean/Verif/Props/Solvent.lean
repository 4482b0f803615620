import Verif.Props.System
import Verif.Props.Ledger
import Verif.Proofs.Egld

/-! Contract and providers together are solvent, whatever order answers arrive in and whichever callbacks are lost: C51. -/

namespace LS
open Spec Demo

/-! ### Inversion of the steps of the system -/

theorem sys_call {s s' : Sys} {op : Op} : sysStep s (.call op) = .ok s' ↔ isDeliver op = false ∧ ∃ w', step s.w op = .ok w' ∧
    s' = { s with w := w', msgs := s.msgs ++ (w'.flights.drop s.w.flights.length).map (·, none) } := by
  show (if isDeliver op then _ else _) = _ ↔ _
  cases hd : isDeliver op with
  | true => simp
  | false => simp only [Bool.false_eq_true, if_false, bind_ok, Except.ok.injEq, true_and, eq_comm (a := s')]

theorem sys_answer {s s' : Sys} {i : Nat} : sysStep s (.answer i) = .ok s' ↔ ∃ f o w', s.msgs[i]? = some (f, some o) ∧
    step s.w (.deliver i o) = .ok w' ∧ s' = { s with w := w', msgs := s.msgs.eraseIdx i } := by
  show answer s i = _ ↔ _
  unfold answer
  cases hm : s.msgs[i]? with
  | none => simp
  | some e =>
    obtain ⟨f, a⟩ := e
    cases a with
    | none => simp
    | some o => simp [bind_ok, eq_comm (a := s')]

theorem sys_lose {s s' : Sys} {i : Nat} : sysStep s (.lose i) = .ok s' ↔ ∃ f o w', s.msgs[i]? = some (f, some o) ∧
    step s.w (.starve i o) = .ok w' ∧ s' = { s with w := w', msgs := s.msgs.eraseIdx i } := by
  show lose s i = _ ↔ _
  unfold lose
  cases hm : s.msgs[i]? with
  | none => simp
  | some e =>
    obtain ⟨f, a⟩ := e
    cases a with
    | none => simp
    | some o => simp [bind_ok, eq_comm (a := s')]

theorem sys_serve {s s' : Sys} {i : Nat} {o : Outcome} : sysStep s (.serve i o) = .ok s' ↔ ∃ f, s.msgs[i]? = some (f, none) ∧
    ((∃ p b, target f = some p ∧ serveOne (booksOf s p) f o = .ok b ∧
        s' = { s with msgs := s.msgs.set i (f, some o), books := s.books.set p b }) ∨
      target f = none ∧ s' = { s with msgs := s.msgs.set i (f, some o) }) := by
  show serve s i o = _ ↔ _
  unfold serve
  cases hm : s.msgs[i]? with
  | none => simp
  | some e =>
    obtain ⟨f, a⟩ := e
    cases a with
    | some o => simp
    | none =>
      cases ht : target f with
      | none => simp [ht, eq_comm (a := s')]
      | some p => simp [ht, bind_ok, eq_comm (a := s')]

/-! ### Figures -/

/-- Stake, unbonding EGLD and delegations under way, as the contract has them on record. -/
def recSum (m : Map Addr (Option ProviderData)) : Nat := dataSum (·.staked) m + dataSum (·.unstaked) m + dataSum (·.pStake) m

theorem recSum_set {m : Map Addr (Option ProviderData)} {p : Addr} {d : ProviderData} (d' : ProviderData) (h : m.get none p = some d) :
    recSum (m.set p (some d')) + (d.staked + d.unstaked + d.pStake) = recSum m + (d'.staked + d'.unstaked + d'.pStake) := by
  have h1 := dataSum_update (·.staked) (d' := d') h
  have h2 := dataSum_update (·.unstaked) (d' := d') h
  have h3 := dataSum_update (·.pStake) (d' := d') h
  unfold recSum; omega

theorem recSum_drop (m : Map Addr (Option ProviderData)) (p : Addr) : recSum (m.set p none) ≤ recSum m := by
  have h1 := dataSum_set (·.staked) m p none
  have h2 := dataSum_set (·.unstaked) m p none
  have h3 := dataSum_set (·.pStake) m p none
  simp only [Option.elim_none] at h1 h2 h3
  unfold recSum; omega

/-- EGLD of a promise that is the first delegation of a new provider. -/
def firstAmt : Flight → Nat
  | .whitelist _ a _ => a
  | _ => 0

/-- EGLD on its way with a message, rewards apart. -/
def apart : Flight × Option Outcome → Nat
  | (.claim _, _) => 0
  | e => onTheWay e

/-- Sum of a figure over messages. -/
def msum (g : Flight × Option Outcome → Nat) (l : List (Flight × Option Outcome)) : Nat := (l.map g).sum

theorem msum_append (g) (l l') : msum g (l ++ l') = msum g l + msum g l' := by simp [msum]

theorem msum_eraseIdx (g) : ∀ {l : List (Flight × Option Outcome)} {i : Nat} {e : Flight × Option Outcome}, l[i]? = some e →
    msum g (l.eraseIdx i) + g e = msum g l
  | [], i, e, h => by simp at h
  | x :: l, 0, e, h => by simp only [List.getElem?_cons_zero, Option.some.injEq] at h; subst h; simp [msum]; omega
  | x :: l, i + 1, e, h => by
    have := msum_eraseIdx g (l := l) (i := i) (e := e) (by simpa using h)
    simp only [msum, List.eraseIdx_cons_succ, List.map_cons, List.sum_cons] at this ⊢; omega

theorem msum_set (g) : ∀ {l : List (Flight × Option Outcome)} {i : Nat} {e e' : Flight × Option Outcome}, l[i]? = some e →
    msum g (l.set i e') + g e = msum g l + g e'
  | [], i, e, e', h => by simp at h
  | x :: l, 0, e, e', h => by simp only [List.getElem?_cons_zero, Option.some.injEq] at h; subst h; simp [msum]; omega
  | x :: l, i + 1, e, e', h => by
    have := msum_set g (l := l) (i := i) (e := e) (e' := e') (by simpa using h)
    simp only [msum, List.set_cons_succ, List.map_cons, List.sum_cons] at this ⊢; omega

theorem apart_le (l : List (Flight × Option Outcome)) : msum apart l ≤ allOnTheWay l := by
  induction l with
  | nil => exact Nat.le_refl _
  | cons e l ih =>
    have : apart e ≤ onTheWay e := by
      obtain ⟨f, o⟩ := e
      cases f <;> first | exact Nat.le_refl _ | exact Nat.zero_le _
    simp only [msum, List.map_cons, List.sum_cons, allOnTheWay] at ih ⊢; omega

/-- EGLD at the providers. -/
def bookSum (m : Map Addr Books) : Nat := m.sum ⟨0, 0⟩ (fun _ b => b.stake + b.unbonding)

theorem isSum_held (s : Sys) : IsSum (held s) (bookSum s.books) := by
  refine ⟨s.books.keys, fun a ha => ?_, rfl⟩
  unfold held booksOf
  rw [Map.get_of_notMem _ _ a ha]
  rfl

theorem bookSum_set (m : Map Addr Books) (p : Addr) (b : Books) :
    bookSum (m.set p b) + ((m.get ⟨0, 0⟩ p).stake + (m.get ⟨0, 0⟩ p).unbonding) = bookSum m + (b.stake + b.unbonding) :=
  Map.sum_set (fun _ (b : Books) => b.stake + b.unbonding) ⟨0, 0⟩ m p b (fun _ => rfl)

theorem allDelegations_append (l l' : List Flight) : allDelegations (l ++ l') = allDelegations l + allDelegations l' := by
  induction l with
  | nil => simp [allDelegations]
  | cons f l ih => cases f <;> simp [allDelegations, ih]; omega

/-! ### One step -/

/-- What may leave the messages when an answer arrives, against what the contract books for it. -/
def settles (w : World) : Flight → Outcome → Int
  | .claim ps, o => unbooked w (.claim ps) o
  | .whitelist p a u, o => (brought (.whitelist p a u) o : Int) - a
  | f, o => brought f o

theorem recSum_deliver {w w' : World} {i : Nat} {f : Flight} {o : Outcome} (hr : Reachable w) (hf : w.flights[i]? = some f)
    (hs : deliver w i o = .ok w') : (recSum w'.st.data : Int) + settles w f o ≤ recSum w.st.data + unbooked w f o := by
  obtain ⟨f', hf', hcb⟩ := deliver_ok hs
  rw [hf] at hf'; cases hf'
  have hfail := callback_fails (o := o) hr hf
  rcases hcb with hcb | ⟨he, rfl⟩
  swap
  · have hF := hfail.1 he
    show (recSum w.st.data : Int) + _ ≤ _
    cases f <;> cases o <;> simp only [CallbackFails] at hF <;> simp [settles, unbooked, brought, hF]
  have hF : ¬ CallbackFails w f o := fun h => by
    obtain ⟨e, he⟩ := hfail.2 h
    rw [he] at hcb; cases hcb
  cases f with
  | delegate p a =>
    cases o with
    | ok e r =>
      obtain ⟨_, d, h1, h2, rfl⟩ := addLiquidityCb_true_ok.1 hcb
      have hx := recSum_set { d with staked := d.staked + a, pStake := d.pStake - a } (m := w.st.data) h1
      show (recSum (w.st.data.set p (some _)) : Int) + _ ≤ (recSum w.st.data : Int) + _
      simp only [settles, unbooked, brought] at hx ⊢
      omega
    | err =>
      obtain ⟨t, d, _, h1, h2, rfl⟩ := addLiquidityCb_false_ok.1 hcb
      have hx := recSum_set { d with eligible := false, pStake := d.pStake - a } (m := w.st.data) h1
      show (recSum (w.st.data.set p (some _)) : Int) + _ ≤ (recSum w.st.data : Int) + _
      simp only [settles, unbooked, brought] at hx ⊢
      omega
  | undelegate p a =>
    cases o with
    | ok e r =>
      obtain ⟨t, d, _, h1, h2, h3, rfl⟩ := removeLiquidityCb_true_ok.1 hcb
      have hx := recSum_set { d with staked := d.staked - a, unstaked := d.unstaked + a, pUnstake := d.pUnstake - a } (m := w.st.data) h1
      show (recSum (w.st.data.set p (some _)) : Int) + _ ≤ (recSum w.st.data : Int) + _
      simp only [settles, unbooked, brought] at hx ⊢
      omega
    | err =>
      obtain ⟨t, d, _, h1, h2, rfl⟩ := removeLiquidityCb_false_ok.1 hcb
      have hx := recSum_set { d with pUnstake := d.pUnstake - a } (m := w.st.data) h1
      show (recSum (w.st.data.set p (some _)) : Int) + _ ≤ (recSum w.st.data : Int) + _
      simp only [settles, unbooked, brought] at hx ⊢
      omega
  | withdraw p =>
    cases o with
    | ok v r =>
      simp only [CallbackFails] at hF
      rcases withdrawTokensCb_ok.1 hcb with ⟨h0, rfl⟩ | ⟨hpos, t, d, _, h1, h2, h3, rfl⟩
      · show (recSum w.st.data : Int) + _ ≤ (recSum w.st.data : Int) + _
        simp only [settles, unbooked, brought, if_neg hF]
        omega
      · have hx := recSum_set { d with unstaked := d.unstaked - v } (m := w.st.data) h1
        show (recSum (w.st.data.set p (some _)) : Int) + _ ≤ (recSum w.st.data : Int) + _
        simp only [settles, unbooked, brought, if_neg hF] at hx ⊢
        omega
    | err =>
      rcases withdrawTokensCb_ok.1 hcb with ⟨_, rfl⟩ | ⟨hpos, t, d, _, h1, h2, h3, rfl⟩
      · exact Int.le_refl _
      · exact absurd hpos (by simp)
  | claim ps =>
    have hst : w'.st.data = w.st.data := by
      cases o with
      | ok e r => rcases claimRewardsCb_ok.1 hcb with ⟨h0, rfl⟩ | ⟨_, t, fee, _, _, hle, rfl⟩ <;> rfl
      | err =>
        simp only [runCallback, claimRewardsCb, Except.ok.injEq] at hcb
        subst hcb; rfl
    rw [hst]
    exact Int.le_refl _
  | whitelist p a u =>
    cases o with
    | ok e r =>
      obtain ⟨t, d, l, _, h1, hq, rfl⟩ := whitelistCb_true_ok.1 hcb
      have hx := recSum_set { d with staked := d.staked + a } (m := w.st.data) h1
      show (recSum (w.st.data.set p (some _)) : Int) + _ ≤ (recSum w.st.data : Int) + _
      simp only [settles, unbooked, brought] at hx ⊢
      omega
    | err =>
      simp only [CallbackFails] at hF
      obtain ⟨_, m, hm, rfl⟩ := whitelistCb_false_ok.1 hcb
      have hx := recSum_drop w.st.data p
      show (recSum (w.st.data.set p none) : Int) + _ ≤ (recSum w.st.data : Int) + _
      simp only [settles, unbooked, brought, if_neg hF]
      omega

/-- What a new promise takes along. -/
theorem msum_new (l : List Flight) : msum apart (l.map (·, none)) = allDelegations l + fsum firstAmt l := by
  induction l with
  | nil => rfl
  | cons f l ih =>
    simp only [msum, List.map_cons, List.sum_cons, fsum] at ih ⊢
    rw [ih]
    cases f <;> simp only [apart, onTheWay, allDelegations, firstAmt] <;> omega

/-- Contract and providers: what the records say the providers hold, or were sent, is there. -/
structure SolvInv (s : Sys) : Prop where
  reach : Reachable s.w
  msgs : s.msgs.map Prod.fst = s.w.flights
  claims : ∀ e ∈ s.msgs, ∀ ps g r, e = (.claim ps, some (.ok g r)) → r ≤ g
  cover : (recSum s.w.st.data : Int) + fsum firstAmt s.w.flights ≤ spare s.w + bookSum s.books + msum apart s.msgs

theorem solv_flight {s : Sys} (h : SolvInv s) {i : Nat} {f : Flight} {a : Option Outcome} (hm : s.msgs[i]? = some (f, a)) :
    s.w.flights[i]? = some f := by
  rw [← h.msgs, List.getElem?_map, hm]; rfl

theorem solv_call {s s' : Sys} {op : Op} (h : SolvInv s) (hs : sysStep s (.call op) = .ok s') : SolvInv s' := by
  obtain ⟨hd, w', hw, rfl⟩ := sys_call.1 hs
  obtain ⟨hrec, hdead, l, hl⟩ := call_frame h.reach hd hw
  have hr' : Reachable w' := .step op h.reach hw
  have hdrop : w'.flights.drop s.w.flights.length = l := by rw [hl, List.drop_left]
  refine ⟨hr', ?_, ?_, ?_⟩
  · show (s.msgs ++ _).map Prod.fst = w'.flights
    rw [hdrop, List.map_append, h.msgs, hl, List.map_map]
    congr 1
    exact List.map_id l
  · intro e he ps g r heq
    have he : e ∈ s.msgs ++ (w'.flights.drop s.w.flights.length).map (·, none) := he
    rcases List.mem_append.1 he with he | he
    · exact h.claims e he ps g r heq
    · obtain ⟨f, _, hf⟩ := List.mem_map.1 he
      rw [heq] at hf
      cases hf
  · show (recSum w'.st.data : Int) + fsum firstAmt w'.flights ≤ spare w' + bookSum s.books + msum apart (s.msgs ++ _)
    rw [hdrop, msum_append, msum_new, hl, fsum_append]
    have hst : dataSum (·.staked) w'.st.data = dataSum (·.staked) s.w.st.data :=
      (isSum_figure w' (·.staked)).unique ((isSum_figure s.w (·.staked)).congr fun p => by
        rw [figure_recOf, figure_recOf]; exact (congrArg Books.stake (hrec p)).symm)
    have hun : dataSum (·.unstaked) w'.st.data = dataSum (·.unstaked) s.w.st.data :=
      (isSum_figure w' (·.unstaked)).unique ((isSum_figure s.w (·.unstaked)).congr fun p => by
        rw [figure_recOf, figure_recOf]; exact (congrArg Books.unbonding (hrec p)).symm)
    have hps : dataSum (·.pStake) w'.st.data = dataSum (·.pStake) s.w.st.data + allDelegations l := by
      have h1 : dataSum (·.pStake) w'.st.data = _ := pStake_total (reachable_regInv hr')
      have h2 : dataSum (·.pStake) s.w.st.data = _ := pStake_total (reachable_regInv h.reach)
      rw [h1, h2]
      unfold unsettled
      rw [hl, hdead]
      simp only [allDelegations_append]
      omega
    have hsp := C75_ledger h.reach hw
    have hlo : 0 ≤ leftOver s.w op := by
      cases op with
      | deliver i o => cases hd
      | starve i o => cases hd
      | withdraw c v ps => exact Int.natCast_nonneg _
      | giveEgld c v => exact Int.natCast_nonneg _
      | _ => exact Int.le_refl _
    have hc := h.cover
    unfold recSum at hc ⊢
    rw [hst, hun, hps]
    omega

theorem solv_answer {s s' : Sys} {i : Nat} (h : SolvInv s) (hs : sysStep s (.answer i) = .ok s') : SolvInv s' := by
  obtain ⟨f, o, w', hm, hw, rfl⟩ := sys_answer.1 hs
  have hf := solv_flight h hm
  have hfl : w'.flights = s.w.flights.eraseIdx i := by
    obtain ⟨f', hf', hcb | ⟨_, rfl⟩⟩ := deliver_ok hw
    · exact (runCallback_flights hcb).1
    · rfl
  refine ⟨.step _ h.reach hw, ?_, fun e he => h.claims e (List.mem_of_mem_eraseIdx he), ?_⟩
  · show (s.msgs.eraseIdx i).map Prod.fst = w'.flights
    rw [map_eraseIdx, h.msgs, hfl]
  · show (recSum w'.st.data : Int) + fsum firstAmt w'.flights ≤ spare w' + bookSum s.books + msum apart (s.msgs.eraseIdx i)
    have hsp := C75_ledger h.reach hw
    simp only [leftOver, hf] at hsp
    have hrec := recSum_deliver h.reach hf hw
    have h1 := msum_eraseIdx apart hm
    have h2 := fsum_eraseIdx firstAmt hf
    have hc := h.cover
    have hle : (apart (f, some o) : Int) ≤ settles s.w f o + firstAmt f := by
      cases f with
      | claim ps =>
        cases o with
        | err => exact Int.le_refl _
        | ok g r =>
          have := h.claims _ (List.mem_of_getElem? hm) ps g r rfl
          simp only [apart, settles, unbooked, firstAmt]
          split <;> omega
      | whitelist p a u => cases o <;> simp only [apart, onTheWay, settles, brought, firstAmt] <;> omega
      | _ => cases o <;> simp [apart, onTheWay, settles, brought, firstAmt]
    rw [hfl]
    omega

theorem solv_lose {s s' : Sys} {i : Nat} (h : SolvInv s) (hs : sysStep s (.lose i) = .ok s') : SolvInv s' := by
  obtain ⟨f, o, w', hm, hw, rfl⟩ := sys_lose.1 hs
  have hf := solv_flight h hm
  have hr' : Reachable w' := .step _ h.reach hw
  have hsp := C75_ledger h.reach hw
  simp only [leftOver, hf] at hsp
  obtain ⟨f', hf', rfl⟩ := starve_ok hw
  rw [hf] at hf'; cases hf'
  refine ⟨hr', ?_, fun e he => h.claims e (List.mem_of_mem_eraseIdx he), ?_⟩
  · show (s.msgs.eraseIdx i).map Prod.fst = s.w.flights.eraseIdx i
    rw [map_eraseIdx, h.msgs]
  · show (recSum s.w.st.data : Int) + fsum firstAmt (s.w.flights.eraseIdx i) ≤
      spare { arrive s.w i f o with dead := s.w.dead ++ [f] } + bookSum s.books + msum apart (s.msgs.eraseIdx i)
    have h1 := msum_eraseIdx apart hm
    have h2 := fsum_eraseIdx firstAmt hf
    have hc := h.cover
    have hle : apart (f, some o) ≤ brought f o := by
      cases f <;> cases o <;> simp [apart, onTheWay, brought]
    omega

theorem solv_serve {s s' : Sys} {i : Nat} {o : Outcome} (h : SolvInv s) (hp : TrueClaims s (.serve i o))
    (hs : sysStep s (.serve i o) = .ok s') : SolvInv s' := by
  obtain ⟨f, hm, hcase⟩ := sys_serve.1 hs
  have hmap : (s.msgs.set i (f, some o)).map Prod.fst = s.w.flights := by
    rw [List.map_set, h.msgs]
    obtain ⟨hi, hg⟩ := List.getElem?_eq_some_iff.1 (solv_flight h hm)
    rw [← hg]
    exact List.set_getElem_self hi
  have hcl : ∀ e ∈ s.msgs.set i (f, some o), ∀ ps g r, e = (.claim ps, some (.ok g r)) → r ≤ g := by
    intro e he ps g r heq
    rcases List.mem_or_eq_of_mem_set he with he | he
    · exact h.claims e he ps g r heq
    · rw [heq] at he
      cases he
      exact hp i g r ps rfl hm
  have h1 := msum_set apart (e' := (f, some o)) hm
  have hc := h.cover
  rcases hcase with ⟨p, b, ht, hb, rfl⟩ | ⟨ht, rfl⟩
  · refine ⟨h.reach, hmap, hcl, ?_⟩
    show (recSum s.w.st.data : Int) + fsum firstAmt s.w.flights ≤ spare s.w + bookSum (s.books.set p b) + msum apart (s.msgs.set i (f, some o))
    have h2 := bookSum_set s.books p b
    have hle : apart (f, none) + ((booksOf s p).stake + (booksOf s p).unbonding) ≤ apart (f, some o) + (b.stake + b.unbonding) := by
      cases f <;> cases o <;> simp only [serveOne, Except.ok.injEq, bind_ok, csub_ok] at hb <;>
        simp only [apart, onTheWay] <;> (try subst hb) <;> (try dsimp only) <;> (try omega)
      all_goals (obtain ⟨a, ⟨h3, rfl⟩, rfl⟩ := hb; dsimp only; omega)
    unfold booksOf at hle
    omega
  · refine ⟨h.reach, hmap, hcl, ?_⟩
    show (recSum s.w.st.data : Int) + fsum firstAmt s.w.flights ≤ spare s.w + bookSum s.books + msum apart (s.msgs.set i (f, some o))
    have : apart (f, none) = 0 := by
      cases f with
      | claim ps => rfl
      | _ => cases ht
    omega

theorem solvInv {s : Sys} (hr : SysReachable TrueClaims s) : SolvInv s := by
  induction hr with
  | @init w hi =>
    have hd : w.st.data = [] ∧ w.flights = [] := by
      obtain ⟨self, owner, contracts, epoch, funds, acc, fees, rpe, mr, ms, ma, ub, _, _, rfl⟩ := isInit_eq hi
      exact ⟨rfl, rfl⟩
    refine ⟨.init hi, by rw [hd.2]; rfl, fun e he => absurd he List.not_mem_nil, ?_⟩
    show (recSum w.st.data : Int) + fsum firstAmt w.flights ≤ _
    rw [hd.1, hd.2, spare_init hi]
    exact Int.le_refl _
  | step op hr hp hs ih =>
    cases op with
    | call op => exact solv_call ih hs
    | serve i o => exact solv_serve ih hp hs
    | answer i => exact solv_answer ih hs
    | lose i => exact solv_lose ih hs

/-- **C51.** What the contract owes, the reserve (to holders of LS tokens), the unstake tokens and the fees, is covered by EGLD
that exists: in the contract's account, held by the providers for it, or on its way between them.  Requests may be served and answers
arrive in any order, and any callback may run out of gas.  (Reserve credited by `migrate` is covered by EGLD that arrives with
`migratePending`.) -/
theorem C51_system_solvent {s : Sys} (hr : SysReachable TrueClaims s) :
    ∃ h u, IsSum (held s) h ∧ IsSum (userTokens s.w) u ∧
      reserve s.w + (u + s.w.burntUnstake) + feesReserve s.w + s.w.migratedPending ≤
        egldOf s.w s.w.self + h + allOnTheWay s.msgs + s.w.migratedVirtual := by
  have hinv := solvInv hr
  obtain ⟨x, u, hx, hu, hU⟩ := C07_unstake_tokens_covered hinv.reach
  obtain ⟨y, hy, hR⟩ := C08_reserve_backed hinv.reach
  refine ⟨bookSum s.books, u, isSum_held s, hu, ?_⟩
  have hc := hinv.cover
  have hX : dataSum (·.unstaked) s.w.st.data = x := (isSum_figure s.w (·.unstaked)).unique hx
  have hY : dataSum (·.staked) s.w.st.data = y := (isSum_figure s.w (·.staked)).unique hy
  have hZ : dataSum (·.pStake) s.w.st.data = allDelegations (unsettled s.w) := pStake_total (reachable_regInv hinv.reach)
  have hA := apart_le s.msgs
  unfold recSum spare at hc
  omega

/-- Two delegations and two un-delegations on their way (`busyOps`), then rewards claimed and sent by the manager, another
deposit sent out, and a redemption. -/
def travelling : Sys := honestRun ⟨fresh, [], []⟩ (busyOps ++ [.call (.claimRewards 1), .serve 4 (.ok (E 2) (E 2)),
  .call (.delegate 13 (E 20)), .call (.delegatePending 1 none), .answer 0, .call (.unDelegate 11 0 [⟨500, 0, E 5⟩])])

/-- Non-vacuity of `C51_system_solvent`: EGLD is in the contract, at the providers and on its way at the same time. -/
example : SysReachable TrueClaims travelling ∧ 0 < reserve travelling.w ∧ 0 < held travelling 21 ∧ 0 < held travelling 22 ∧
    E 2 < allOnTheWay travelling.msgs ∧ 0 < unstakeOf travelling.w 1 11 :=
  ⟨sysReachable_mono (fun _ _ h => h.2) (honestRun_reachable (.init fresh_isInit)), by decide +kernel, by decide +kernel,
    by decide +kernel, by decide +kernel, by decide +kernel⟩

/-- A check of `TrueClaims`. -/
def trueClaims (s : Sys) : SysOp → Bool
  | .serve i (.ok g r) => match s.msgs[i]? with
    | some (.claim _, none) => decide (r ≤ g)
    | _ => true
  | _ => true

theorem trueClaims_sound {s : Sys} {op : SysOp} (h : trueClaims s op = true) : TrueClaims s op := by
  intro i g r ps hop hm
  subst hop
  simp only [trueClaims, hm] at h
  exact of_decide_eq_true h

/-- Running a list of steps in any order, dropping those that fail or report rewards that do not come. -/
def trueRun (s : Sys) (ops : List SysOp) : Sys := ops.foldl (fun s op => if trueClaims s op then sysExec s op else s) s

theorem trueRun_reachable : ∀ {ops : List SysOp} {s : Sys}, SysReachable TrueClaims s → SysReachable TrueClaims (trueRun s ops)
  | [], _, h => h
  | op :: ops, s, h => by
    show SysReachable TrueClaims (trueRun (if trueClaims s op then sysExec s op else s) ops)
    refine trueRun_reachable ?_
    cases ho : trueClaims s op with
    | false => exact h
    | true => exact sysExec_reachable h (trueClaims_sound ho)

/-- Two delegations and two un-delegations served, then: one of the un-delegations arrives first, the other is lost, a delegation is
lost, the rewards of the manager are lost, a deposit is sent out and refused. -/
def scattered : Sys := trueRun ⟨fresh, [], []⟩ (busyOps ++ [.call (.claimRewards 1), .serve 4 (.ok (E 2) (E 2)), .answer 2, .lose 2,
  .lose 0, .lose 1, .call (.delegate 13 (E 20)), .call (.delegatePending 1 none), .serve 1 .err])

/-- Non-vacuity: an answer overtook another, callbacks were lost with the EGLD they brought, and there is EGLD everywhere. -/
example : SysReachable TrueClaims scattered ∧ 0 < reserve scattered.w ∧ 0 < held scattered 21 ∧ 0 < held scattered 22 ∧
    scattered.w.dead.length = 4 ∧ E 2 ≤ egldOf scattered.w scattered.w.self ∧ 0 < allOnTheWay scattered.msgs :=
  ⟨trueRun_reachable (.init fresh_isInit), by decide +kernel, by decide +kernel, by decide +kernel, by decide +kernel,
    by decide +kernel, by decide +kernel⟩

/-- A deposit, and rewards reported by the delegation manager that it does not send. -/
def boasted : Sys := anyRun ⟨fresh, [], []⟩ (busyOps.take 13 ++ [.call (.claimRewards 1), .serve 0 (.ok 0 (E 2)), .answer 0])

/-- **C51**, the manager's word is needed: after rewards that were reported but not sent, the contract owes more than there is. -/
theorem C51_claims_needed : ∃ s : Sys, SysReachable (fun _ _ => True) s ∧ ∀ h, IsSum (held s) h →
    egldOf s.w s.w.self + h + allOnTheWay s.msgs + s.w.migratedVirtual < reserve s.w + feesReserve s.w := by
  refine ⟨boasted, anyRun_reachable (.init fresh_isInit), fun h hh => ?_⟩
  rw [hh.unique (isSum_held boasted)]
  decide +kernel

end LS
