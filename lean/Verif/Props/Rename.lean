import Verif.Proofs.RenameAll
import Verif.Props.Front

/-! No account is privileged by its address: C118. -/

namespace LS

open Spec Demo

/-- **C118.** For any other choice of names: the transaction with the other names, in the world with the other names, fails with the same
error or has the same result with the other names. -/
theorem C118_renamed {f : Addr → Addr} (hf : Renaming f) (w : World) (op : Op) :
    step (renWorld f w) (renOp f op) = (step w op).map (renWorld f) := by
  obtain ⟨h1, h2⟩ := alike_outcome (ren_step hf w op)
  cases hs : step w op with
  | ok w' =>
    obtain ⟨v, hv, rfl⟩ := h1 w' hs
    exact hv
  | error e => exact h2 e hs

/-- **C118.** The same over any history. -/
theorem C118_history {f : Addr → Addr} (hf : Renaming f) (ops : List Op) (w : World) :
    run (renWorld f w) (ops.map (renOp f)) = renWorld f (run w ops) := by
  induction ops generalizing w with
  | nil => rfl
  | cons op ops ih =>
    have h : exec (renWorld f w) (renOp f op) = renWorld f (exec w op) := by
      unfold exec
      rw [C118_renamed hf]
      cases step w op <;> rfl
    show run (exec (renWorld f w) (renOp f op)) (ops.map (renOp f)) = _
    rw [h]
    exact ih _

/-- **C118.** What can be reached can be reached with other names. -/
theorem C118_reachable {f : Addr → Addr} (hf : Renaming f) {w : World} (hw : Reachable w) : Reachable (renWorld f w) :=
  ren_reachable hf hw

/-- Two accounts exchanged. -/
def Spec.exchange (a b x : Addr) : Addr := if x = a then b else if x = b then a else x

/-- The accounts that a call on its way is about. -/
def Spec.calledFor : Flight → List Addr
  | .delegate c _ | .undelegate c _ | .withdraw c => [c]
  | .claim l => l
  | .whitelist c _ u => [c, u]

/-- The account has no role: it is not the contract, its owner or a manager, no smart contract, not the accumulator, not set for the
migration, no provider and no admin of one, and no call and no issue on its way is about it; it is neither the zero address nor that of
the delegation manager. -/
structure Spec.Ordinary (w : World) (a : Addr) : Prop where
  address : a ≠ 0 ∧ a ≠ DELEGATION_MANAGER
  self : a ≠ w.self
  owner : a ≠ w.owner
  managers : a ∉ w.st.managers
  contracts : a ∉ w.contracts
  accumulator : a ≠ w.st.accumulator
  migration : w.st.migrationSc ≠ some a
  served : a ∉ w.st.delegList ∧ a ∉ w.st.undelegList
  provider : provider w a = none
  admin : ∀ p d, Spec.provider w p = some d → d.admin ≠ a
  calls : ∀ x ∈ w.flights, a ∉ calledFor x
  issues : ∀ x ∈ w.issues, x.caller ≠ a

/-- Two accounts without a role that hold the same. -/
structure Spec.Peers (w : World) (a b : Addr) : Prop where
  left : Ordinary w a
  right : Ordinary w b
  egld : egldOf w a = egldOf w b
  ls : lsOf w a = lsOf w b
  unstakes : ∀ n, unstakeOf w n a = unstakeOf w n b

private theorem exchange_exchange (a b x : Addr) : exchange a b (exchange a b x) = x := by
  unfold exchange
  by_cases h1 : x = a
  · subst h1
    by_cases h2 : b = x
    · rw [if_pos rfl, if_pos h2, h2]
    · rw [if_pos rfl, if_neg h2, if_pos rfl]
  · by_cases h2 : x = b
    · subst h2; rw [if_neg h1, if_pos rfl, if_pos rfl]
    · rw [if_neg h1, if_neg h2, if_neg h1, if_neg h2]

private theorem exchange_else {a b x : Addr} (h1 : a ≠ x) (h2 : b ≠ x) : exchange a b x = x := by
  unfold exchange; rw [if_neg fun h => h1 h.symm, if_neg fun h => h2 h.symm]

private theorem exchange_list {a b : Addr} {l : List Addr} (h1 : a ∉ l) (h2 : b ∉ l) : l.map (exchange a b) = l := by
  conv => rhs; rw [← List.map_id l]
  exact List.map_congr_left fun x hx => exchange_else (fun h => h1 (h ▸ hx)) fun h => h2 (h ▸ hx)

private theorem exchange_renaming {a b : Addr} (ha : a ≠ 0 ∧ a ≠ DELEGATION_MANAGER) (hb : b ≠ 0 ∧ b ≠ DELEGATION_MANAGER) :
    Renaming (exchange a b) where
  inj x y h := by rw [← exchange_exchange a b x, h, exchange_exchange]
  zero := exchange_else ha.1 hb.1
  manager := exchange_else ha.2 hb.2

private theorem exchange_get {V : Type} {a b : Addr} {g : V → V} {d : V} (hd : g d = d) (m : Map Addr V) (x : Addr) :
    Map.get d (renMap (exchange a b) g m) x = g (Map.get d m (exchange a b x)) := by
  have h := renMap_get (f := exchange a b) (g := g) (fun x y h => by rw [← exchange_exchange a b x, h, exchange_exchange]) hd m
    (exchange a b x)
  rwa [exchange_exchange] at h

private theorem exchange_nft {a b : Addr} (m : Map (Nat × Addr) Nat) (n : Nat) (x : Addr) :
    Map.get 0 (renMap (fun k : Nat × Addr => (k.1, exchange a b k.2)) id m) (n, x) = Map.get 0 m (n, exchange a b x) := by
  have h := ren_nft_get (f := exchange a b) (fun x y h => by rw [← exchange_exchange a b x, h, exchange_exchange]) m n (exchange a b x)
  rwa [exchange_exchange] at h

private theorem exchange_flight {a b : Addr} {x : Flight} (h1 : a ∉ calledFor x) (h2 : b ∉ calledFor x) :
    renFlight (exchange a b) x = x := by
  cases x with
  | claim l => exact congrArg Flight.claim (exchange_list h1 h2)
  | whitelist c y u =>
    simp only [calledFor, List.mem_cons, List.not_mem_nil, or_false, not_or] at h1 h2
    simp only [renFlight, exchange_else h1.1 h2.1, exchange_else h1.2 h2.2]
  | delegate c y =>
    simp only [calledFor, List.mem_singleton] at h1 h2
    simp only [renFlight, exchange_else h1 h2]
  | undelegate c y =>
    simp only [calledFor, List.mem_singleton] at h1 h2
    simp only [renFlight, exchange_else h1 h2]
  | withdraw c =>
    simp only [calledFor, List.mem_singleton] at h1 h2
    simp only [renFlight, exchange_else h1 h2]

private theorem map_self {α : Type} {g : α → α} {l : List α} (h : ∀ x ∈ l, g x = x) : l.map g = l := by
  conv => rhs; rw [← List.map_id l]
  exact List.map_congr_left h

/-- Nothing changes when peers are exchanged, apart from the records of the past. -/
theorem peers_same {w : World} {a b : Addr} (h : Peers w a b) : SameRead w (renWorld (exchange a b) w) := by
  have hl := h.left
  have hr := h.right
  have hd : ∀ p, provider (renWorld (exchange a b) w) p = provider w p := by
    intro p
    have e : provider (renWorld (exchange a b) w) p = (provider w (exchange a b p)).map (renData (exchange a b)) :=
      exchange_get (g := Option.map (renData (exchange a b))) rfl w.st.data p
    rw [e]
    by_cases h1 : p = a
    · subst h1
      have : exchange p b p = b := if_pos rfl
      rw [this, hl.provider, hr.provider]; rfl
    · by_cases h2 : p = b
      · subst h2
        have : exchange a p p = a := by unfold exchange; rw [if_neg h1, if_pos rfl]
        rw [this, hl.provider, hr.provider]; rfl
      · rw [exchange_else (fun e => h1 e.symm) fun e => h2 e.symm]
        cases hp : provider w p with
        | none => rfl
        | some d =>
          have := exchange_else (hl.admin p d hp).symm (hr.admin p d hp).symm
          simp only [Option.map_some, renData, this]
  have hm : ∀ (m : Map Addr Nat), m.get 0 a = m.get 0 b → ∀ x, Map.get 0 (renMap (exchange a b) id m) x = Map.get 0 m x := by
    intro m e x
    rw [exchange_get (g := id) rfl]
    unfold exchange
    by_cases h1 : x = a
    · subst h1; rw [if_pos rfl]; exact e.symm
    · by_cases h2 : x = b
      · subst h2; rw [if_neg h1, if_pos rfl]; exact e
      · rw [if_neg h1, if_neg h2]; rfl
  intro x hx
  cases x with
  | identity => exact ⟨exchange_else hl.self hr.self, exchange_list hl.contracts hr.contracts⟩
  | owner => exact exchange_else hl.owner hr.owner
  | issuing =>
    refine map_self fun x hx => ?_
    simp only [renIssue, exchange_else (hl.issues x hx).symm (hr.issues x hx).symm]
  | accumulator => exact exchange_else hl.accumulator hr.accumulator
  | managers => exact exchange_list hl.managers hr.managers
  | migrationSc =>
    show w.st.migrationSc.map _ = w.st.migrationSc
    have h1 := hl.migration
    have h2 := hr.migration
    cases hs : w.st.migrationSc with
    | none => rfl
    | some m =>
      rw [hs] at h1 h2
      exact congrArg some (exchange_else (fun e => h1 (e ▸ rfl)) fun e => h2 (e ▸ rfl))
  | delegOrder => exact exchange_list hl.served.1 hr.served.1
  | undelegOrder => exact exchange_list hl.served.2 hr.served.2
  | calls => exact map_self fun x hx => exchange_flight (hl.calls x hx) (hr.calls x hx)
  | egld x => exact hm w.egld h.egld x
  | ls x => exact hm w.ls h.ls x
  | unstakes n x =>
    refine (exchange_nft w.nft n x).trans ?_
    show unstakeOf w n (exchange a b x) = unstakeOf w n x
    unfold exchange
    by_cases h1 : x = a
    · subst h1; rw [if_pos rfl]; exact (h.unstakes n).symm
    · by_cases h2 : x = b
      · subst h2; rw [if_neg h1, if_pos rfl]; exact h.unstakes n
      · rw [if_neg h1, if_neg h2]
  | listed p => exact congrArg Option.isSome (hd p)
  | admin p => exact congrArg (Option.map (·.admin)) (hd p)
  | terms p => exact congrArg (Option.map termsOf) (hd p)
  | eligible p => exact congrArg (Option.map (·.eligible)) (hd p)
  | staked p => simp only [Same, figure, hd p]
  | unstaked p => simp only [Same, figure, hd p]
  | inFlightStake p => simp only [Same, figure, hd p]
  | inFlightUnstake p => simp only [Same, figure, hd p]
  | _ => first | rfl | exact ⟨rfl, rfl⟩ | exact Bool.noConfusion hx

/-- **C118.** Two accounts without a role that hold the same are treated alike: whatever is tried with the one, or with both, fails with the
same error when the two are exchanged, or has the same result with the two exchanged. -/
theorem C118_peers {w : World} {a b : Addr} (h : Peers w a b) (op : Op) :
    (∀ w', step w op = .ok w' →
      ∃ v', step w (renOp (exchange a b) op) = .ok v' ∧ SameRead v' (renWorld (exchange a b) w')) ∧
    (∀ e, step w op = .error e → step w (renOp (exchange a b) op) = .error e) := by
  have hf := exchange_renaming h.left.address h.right.address
  have hs : SameRead (renWorld (exchange a b) w) w := fun x hx => (peers_same h x hx).symm
  obtain ⟨h1, h2⟩ := C86_unread (op := renOp (exchange a b) op) hs
  constructor
  · intro w' hw
    obtain ⟨v', hv, ht⟩ := h1 (renWorld (exchange a b) w') (by rw [C118_renamed hf, hw]; rfl)
    exact ⟨v', hv, fun x hx => (ht x hx).symm⟩
  · intro e he
    exact h2 e (by rw [C118_renamed hf, he]; rfl)

/-- **C118.** The same over any history: in the end the one has what the other would have, and everybody else has the same. -/
theorem C118_equal {w : World} {a b : Addr} (h : Peers w a b) (ops : List Op) :
    let u := run w ops
    let v := run w (ops.map (renOp (exchange a b)))
    egldOf v b = egldOf u a ∧ lsOf v b = lsOf u a ∧ (∀ n, unstakeOf v n b = unstakeOf u n a) ∧
    egldOf v a = egldOf u b ∧ lsOf v a = lsOf u b ∧ (∀ n, unstakeOf v n a = unstakeOf u n b) ∧
    (∀ c, c ≠ a → c ≠ b → egldOf v c = egldOf u c ∧ lsOf v c = lsOf u c ∧ ∀ n, unstakeOf v n c = unstakeOf u n c) ∧
    supply v = supply u ∧ reserve v = reserve u ∧ pendingEgld v = pendingEgld u ∧ toUndelegate v = toUndelegate u := by
  intro u v
  have hf := exchange_renaming h.left.address h.right.address
  have hs : SameRead (renWorld (exchange a b) u) v := by
    have := C86_history (fun x hx => (peers_same h x hx).symm : SameRead (renWorld (exchange a b) w) w) (ops.map (renOp (exchange a b)))
    rwa [C118_history hf] at this
  have he : ∀ x, egldOf v x = egldOf u (exchange a b x) := fun x => Eq.trans (hs (.egld x) rfl) (exchange_get (g := id) rfl u.egld x)
  have hl : ∀ x, lsOf v x = lsOf u (exchange a b x) := fun x => Eq.trans (hs (.ls x) rfl) (exchange_get (g := id) rfl u.ls x)
  have hn : ∀ n x, unstakeOf v n x = unstakeOf u n (exchange a b x) := fun n x => Eq.trans (hs (.unstakes n x) rfl) (exchange_nft u.nft n x)
  have ha : exchange a b a = b := if_pos rfl
  have hb : exchange a b b = a := by
    have := exchange_exchange a b a
    rwa [ha] at this
  refine ⟨by rw [he, hb], by rw [hl, hb], fun n => by rw [hn, hb], by rw [he, ha], by rw [hl, ha], fun n => by rw [hn, ha], ?_,
    hs .supply rfl, hs .reserve rfl, hs .pending rfl, hs .queue rfl⟩
  intro c h1 h2
  have hc : exchange a b c = c := exchange_else h1.symm h2.symm
  exact ⟨by rw [he, hc], by rw [hl, hc], fun n => by rw [hn, hc]⟩

private theorem dataEntry_mem {V : Type} {m : Map Addr (Option V)} {k : Addr} {d : V} (h : m.get none k = some d) : (k, some d) ∈ m := by
  induction m with
  | nil => exact absurd h nofun
  | cons e m ih =>
    obtain ⟨k', v⟩ := e
    rw [Map.get] at h
    by_cases hk : k' = k
    · rw [if_pos hk] at h; subst hk; subst h; exact List.mem_cons_self ..
    · rw [if_neg hk] at h; exact List.mem_cons_of_mem _ (ih h)

private theorem ordinary_of {w : World} {a : Addr} (h : (a ≠ 0 ∧ a ≠ DELEGATION_MANAGER) ∧ a ≠ w.self ∧ a ≠ w.owner ∧ a ∉ w.st.managers ∧
    a ∉ w.contracts ∧ a ≠ w.st.accumulator ∧ w.st.migrationSc ≠ some a ∧ (a ∉ w.st.delegList ∧ a ∉ w.st.undelegList) ∧
    provider w a = none ∧ (∀ e ∈ w.st.data, ∀ d ∈ e.2, d.admin ≠ a) ∧ (∀ x ∈ w.flights, a ∉ calledFor x) ∧
    ∀ x ∈ w.issues, x.caller ≠ a) : Ordinary w a := by
  obtain ⟨h1, h2, h3, h4, h5, h6, h7, h8, h9, h10, h11, h12⟩ := h
  exact ⟨h1, h2, h3, h4, h5, h6, h7, h8, h9, fun p d hd => h10 _ (dataEntry_mem hd) d rfl, h11, h12⟩

/-- Users 12 and 13 with the same EGLD, while delegations are on their way. -/
def twoUsers : World := run providers [.delegate 11 (E 100), .delegatePending 1 none]

theorem twoUsers_peers : Peers twoUsers 12 13 :=
  ⟨ordinary_of (by decide +kernel), ordinary_of (by decide +kernel), by decide +kernel, by decide +kernel, fun n => by
    have : twoUsers.nft = [] := by decide +kernel
    simp only [unstakeOf, this]; rfl⟩

/-- User 12 deposits 30 EGLD, redeems a part while 13 deposits less, and fails to redeem more than it has; or 13 does so, and 12 deposits
less. -/
def theirDeeds : List Op := [.delegate 12 (E 30), .delegate 13 (E 2), .unDelegate 12 0 [⟨500, 0, E 20⟩], .unDelegate 12 0 [⟨500, 0, E 20⟩]]

example : Reachable twoUsers ∧ Peers twoUsers 12 13 ∧ twoUsers.flights ≠ [] ∧
    theirDeeds.map (renOp (exchange 12 13)) =
      [.delegate 13 (E 30), .delegate 12 (E 2), .unDelegate 13 0 [⟨500, 0, E 20⟩], .unDelegate 13 0 [⟨500, 0, E 20⟩]] ∧
    works (run twoUsers (theirDeeds.take 2)) (theirDeeds.getD 2 .upgrade) = true ∧
    works (run twoUsers (theirDeeds.take 3)) (theirDeeds.getD 3 .upgrade) = false ∧
    lsOf (run twoUsers theirDeeds) 12 = E 10 ∧ lsOf (run twoUsers theirDeeds) 13 = E 2 :=
  ⟨reachable_run providers_reachable _, twoUsers_peers, by decide +kernel, by decide +kernel, by decide +kernel, by decide +kernel,
    by decide +kernel, by decide +kernel⟩

/-- Other names for everybody, the contract included: addresses 1 higher, apart from the two that the code writes out. -/
def shifted (a : Addr) : Addr := if a = 0 ∨ DELEGATION_MANAGER ≤ a then a else if a + 1 = DELEGATION_MANAGER then 1 else a + 1

private theorem shift_inj (m a b : Nat) (h : (if a = 0 ∨ m ≤ a then a else if a + 1 = m then 1 else a + 1) =
    (if b = 0 ∨ m ≤ b then b else if b + 1 = m then 1 else b + 1)) : a = b := by
  split at h <;> split at h <;> (try split at h) <;> (try split at h) <;> omega

theorem shifted_renaming : Renaming shifted where
  inj a b h := shift_inj DELEGATION_MANAGER a b h
  zero := rfl
  manager := if_pos (.inr (Nat.le_refl _))

/-- The whole example from deployment to a withdrawal that is ready, with other names. -/
example : Reachable (renWorld shifted ready) ∧ (renWorld shifted ready).owner = 2 ∧ (renWorld shifted ready).st.delegList = [22, 23] ∧
    works (renWorld shifted ready) (.withdraw 12 0 [⟨501, 1, E 1⟩]) = true ∧
    works (renWorld shifted ready) (.withdraw 11 0 [⟨501, 1, E 1⟩]) = false := by
  refine ⟨C118_reachable shifted_renaming ready_reachable, by decide +kernel, by decide +kernel, by decide +kernel, by decide +kernel⟩

end LS
