import Verif.Props.Front

/-! What the settings have an influence on: C117. -/

namespace LS

open Spec Demo

/-- Transactions at no point of which one of the settings `X` is consulted. -/
def Spec.Aside (X : Part → Prop) : World → List Op → Prop
  | _, [] => True
  | w, op :: ops => (∀ x, X x → consults w op x = false) ∧ Spec.Aside X (exec w op) ops

private theorem twin_apart {X : Part → Prop} (hX : ∀ x, X x → setting x = true) {w v : World} :
    SameApart X w v ↔ Twin (fun _ => True) True (fun x => ¬X x) w v := by
  have hc : ∀ x, ¬X x ↔ concerns (fun _ => True) True (fun x => ¬X x) x := by
    intro x
    have h := hX x
    cases x <;> simp [concerns, unread, setting] at h ⊢ <;> exact h
  exact ⟨fun h => twin_of trivial fun x hx => h x ((hc x).2 hx), fun h x hx => h.same x ((hc x).1 hx)⟩

/-- **C117.** In two worlds that differ in some settings only, every transaction that consults none of these - of users, managers, the
owner, and every answer of a provider - succeeds in both, with the same change of everything else, or fails in both with the same
error. -/
theorem C117_apart {X : Part → Prop} (hX : ∀ x, X x → setting x = true) {w v : World} {op : Op} (h : SameApart X w v)
    (hop : ∀ x, X x → consults w op x = false) :
    (∀ w', step w op = .ok w' → ∃ v', step v op = .ok v' ∧ SameApart X w' v') ∧
    (∀ e, step w op = .error e → step v op = .error e) := by
  have ht := (twin_apart hX).1 h
  obtain ⟨h1, h2⟩ := alike_outcome (ht.step (op := op) (fun _ _ => trivial) fun x hx hXx => by
    rw [hop x hXx] at hx; exact Bool.noConfusion hx)
  refine ⟨fun w' hw => ?_, h2⟩
  obtain ⟨v', hv, h3⟩ := h1 w' hw
  exact ⟨v', hv, (twin_apart hX).2 h3⟩

/-- **C117.** The same over any history in which the settings are not consulted. -/
theorem C117_history {X : Part → Prop} (hX : ∀ x, X x → setting x = true) (ops : List Op) {w v : World} (h : SameApart X w v)
    (hops : Aside X w ops) : SameApart X (run w ops) (run v ops) := by
  induction ops generalizing w v with
  | nil => exact h
  | cons op ops ih =>
    obtain ⟨h1, h2⟩ := C117_apart hX h hops.1
    refine ih ?_ hops.2
    unfold exec
    cases hs : step w op with
    | ok w' =>
      obtain ⟨v', hv, h3⟩ := h1 w' hs
      rw [hv]
      exact h3
    | error e =>
      rw [h2 e hs]
      exact h

/-- **C117.** Deposits, withdrawals, gifts of rewards, transfers, and all answers of providers but those to calls for rewards do not depend
on any setting. -/
theorem C117_free {w v : World} {op : Op} (h : SameApart (fun x => setting x = true) w v)
    (hop : (∃ c x, op = .delegate c x) ∨ (∃ c x ps, op = .withdraw c x ps) ∨ (∃ c x, op = .addRewards c x) ∨
      (∃ a b x, op = .transferLs a b x) ∨ (∃ a b n x, op = .transferNft a b n x) ∨
      (∃ i o, op = .deliver i o ∧ ∀ l, w.flights[i]? ≠ some (.claim l))) :
    (∀ w', step w op = .ok w' → ∃ v', step v op = .ok v' ∧ SameApart (fun x => setting x = true) w' v') ∧
    (∀ e, step w op = .error e → step v op = .error e) := by
  refine C117_apart (fun _ hx => hx) h fun x hx => ?_
  rcases hop with ⟨c, y, rfl⟩ | ⟨c, y, ps, rfl⟩ | ⟨c, y, rfl⟩ | ⟨a, b, y, rfl⟩ | ⟨a, b, n, y, rfl⟩ | ⟨i, o, rfl, hl⟩
  iterate 5 cases x <;> first | rfl | exact Bool.noConfusion hx
  cases o with
  | err => cases x <;> first | rfl | exact Bool.noConfusion hx
  | ok g r =>
    cases x <;> first | exact Bool.noConfusion hx | rfl | skip
    simp only [consults]

/-- The setting has an influence on the transaction: in two worlds that differ in this setting only, something else comes out
different. -/
def Spec.Matters (x : Part) (op : Op) : Prop :=
  ∃ w v y, Reachable w ∧ Reachable v ∧ SameApart (· = x) w v ∧ consults w op x = true ∧ y ≠ x ∧ ¬Same (exec w op) (exec v op) y

private theorem matters_of {w : World} (hr : Reachable w) (set : Op) {x : Part} {op : Op} (hw : works w set = true)
    (ht : touched w set = [x]) (hc : consults w op x = true) (y : Part) (hy : y ≠ x)
    (hd : ¬Same (exec w op) (exec (exec w set) op) y) : Matters x op := by
  refine ⟨w, exec w set, y, hr, reachable_exec hr set, fun z hz => ?_, hc, hy, hd⟩
  exact parts_step hr (step_exec hw) z (by rw [ht, List.mem_singleton]; exact hz)

/-- Other weights: all on the number of nodes. -/
def onlyNodes : ScoringConfig := { ScoringConfig.default with stakeWeight := 0, apyWeight := 0, nodesWeight := 100 }

/-- **C117.** The table of settings consulted is exact: every kind of transaction in it comes out differently for some change of the
setting. -/
theorem C117_exact :
    (∃ c v ps, Matters .unbondPeriod (.unDelegate c v ps)) ∧ (∃ c, Matters .accumulator (.claimFees c true)) ∧
    (∃ c v o, Matters .migrationSc (.migrate c v o)) ∧ (∃ c v, Matters .migrationSc (.migratePending c v)) ∧
    (∃ c, Matters .maxSelected (.delegatePending c none)) ∧ (∃ c, Matters .scoring (.delegatePending c none)) ∧
    (∃ c, Matters .maxSelected (.unDelegatePending c none)) ∧ (∃ c, Matters .scoring (.unDelegatePending c none)) ∧
    (∃ c v p a t k n y, Matters .maxAddresses (.whitelist c v p a t k n y)) ∧ (∃ i g r, Matters .feeRate (.deliver i (.ok g r))) ∧
    (∃ c, Matters .managers (.delegatePending c none)) ∧ (∃ c, Matters .managers (.unDelegatePending c none)) ∧
    (∃ c p, Matters .managers (.withdrawPending c p)) ∧ (∃ c, Matters .managers (.claimRewards c)) ∧
    (∃ c cfg, Matters .managers (.setScoringConfig c cfg)) ∧ (∃ c v p a t k n y, Matters .managers (.whitelist c v p a t k n y)) ∧
    (∃ c p a, Matters .managers (.changeAdmin c p a)) ∧ (∃ c p t k n y e, Matters .managers (.changeParams c p t k n y e)) := by
  refine ⟨⟨11, 0, [⟨500, 0, E 40⟩], ?_⟩, ⟨11, ?_⟩, ⟨3, E 5, 12, ?_⟩, ⟨3, E 5, ?_⟩, ⟨1, ?_⟩, ⟨1, ?_⟩, ⟨1, ?_⟩, ⟨1, ?_⟩,
    ⟨1, E 1, 23, 43, 0, 0, 10, 800, ?_⟩, ⟨0, E 10, E 10, ?_⟩, ⟨5, ?_⟩, ⟨5, ?_⟩, ⟨5, 21, ?_⟩, ⟨5, ?_⟩, ⟨5, onlyNodes, ?_⟩,
    ⟨13, E 1, 23, 43, 0, 0, 10, 800, ?_⟩, ⟨5, 21, 44, ?_⟩, ⟨5, 21, 0, 0, 7, 700, true, ?_⟩⟩
  · exact matters_of settled_reachable (.owner 1 (.unbondPeriod 5)) (by decide +kernel) rfl rfl (.attributes 1) nofun (by decide +kernel)
  · exact matters_of settled_reachable (.owner 1 (.accumulator 3)) (by decide +kernel) rfl rfl (.egld 3) nofun (by decide +kernel)
  · exact matters_of settled_reachable (.setMigrationSc 1 3) (by decide +kernel) rfl rfl .supply nofun (by decide +kernel)
  · exact matters_of settled_reachable (.setMigrationSc 1 3) (by decide +kernel) rfl rfl .pending nofun (by decide +kernel)
  · exact matters_of deposited_reachable (.owner 1 (.maxSelected 1)) (by decide +kernel) rfl rfl .calls nofun (by decide +kernel)
  · exact matters_of deposited_reachable (.setScoringConfig 1 onlyNodes) (by decide +kernel) rfl rfl .calls nofun (by decide +kernel)
  · exact matters_of redeemed_reachable (.owner 1 (.maxSelected 1)) (by decide +kernel) rfl rfl .calls nofun (by decide +kernel)
  · exact matters_of redeemed_reachable (.setScoringConfig 1 onlyNodes) (by decide +kernel) rfl rfl .calls nofun (by decide +kernel)
  · exact matters_of providers_reachable (.owner 1 (.maxAddresses 1)) (by decide +kernel) rfl rfl .calls nofun (by decide +kernel)
  · exact matters_of (reachable_exec settled_reachable (.claimRewards 1)) (.owner 1 (.fees 900)) (by decide +kernel) rfl
      (by decide +kernel) .fees nofun (by decide +kernel)
  · exact matters_of deposited_reachable (.owner 1 (.addManagers [5])) (by decide +kernel) rfl (by decide +kernel) .calls nofun
      (by decide +kernel)
  · exact matters_of redeemed_reachable (.owner 1 (.addManagers [5])) (by decide +kernel) rfl (by decide +kernel) .calls nofun
      (by decide +kernel)
  · exact matters_of settled_reachable (.owner 1 (.addManagers [5])) (by decide +kernel) rfl (by decide +kernel) .calls nofun
      (by decide +kernel)
  · exact matters_of settled_reachable (.owner 1 (.addManagers [5])) (by decide +kernel) rfl (by decide +kernel) .calls nofun
      (by decide +kernel)
  · exact matters_of settled_reachable (.owner 1 (.addManagers [5])) (by decide +kernel) rfl (by decide +kernel) .scoring nofun
      (by decide +kernel)
  · exact matters_of providers_reachable (.owner 1 (.addManagers [13])) (by decide +kernel) rfl (by decide +kernel) .calls nofun
      (by decide +kernel)
  · exact matters_of providers_reachable (.owner 1 (.addManagers [5])) (by decide +kernel) rfl (by decide +kernel) (.admin 21) nofun
      (by decide +kernel)
  · exact matters_of providers_reachable (.owner 1 (.addManagers [5])) (by decide +kernel) rfl (by decide +kernel) (.terms 21) nofun
      (by decide +kernel)

/-- The fee rate raised and the accumulator changed, or not: a deposit, a redemption, a batch of the manager and a withdrawal have the same
effect. -/
example : let v := run settled [.owner 1 (.fees 9000), .owner 1 (.accumulator 3)]
    let ops := [Op.delegate 12 (E 3), .unDelegate 11 0 [⟨500, 0, E 2⟩], .delegatePending 1 none, .unDelegate 12 0 [⟨500, 0, E 1⟩], .advance 70]
    v.st.feeRate ≠ settled.st.feeRate ∧ SameApart (fun x => x = .feeRate ∨ x = .accumulator) settled v ∧
    Aside (fun x => x = .feeRate ∨ x = .accumulator) settled ops ∧
    (List.range ops.length).all (fun i => works (run settled (ops.take i)) (ops.getD i .upgrade)) = true := by
  refine ⟨by decide +kernel, fun x hx => ?_, ?_, by decide +kernel⟩
  · have h1 := parts_step settled_reachable (step_exec (op := .owner 1 (.fees 9000)) (by decide +kernel)) x
      (by simp only [touched, settingOf, List.mem_singleton]; exact fun h => hx (.inl h))
    have h2 := parts_step (reachable_exec settled_reachable _) (step_exec (w := exec settled (.owner 1 (.fees 9000)))
      (op := .owner 1 (.accumulator 3)) (by decide +kernel)) x
      (by simp only [touched, settingOf, List.mem_singleton]; exact fun h => hx (.inr h))
    exact h1.trans h2
  · refine ⟨?_, ?_, ?_, ?_, ?_, trivial⟩ <;> rintro x (rfl | rfl) <;> rfl

end LS
