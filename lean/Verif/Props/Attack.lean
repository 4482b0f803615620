import Verif.Props.Live
import Verif.Props.Batch
import Verif.Props.Turns
import Verif.Props.Parts

/-!
# The blockades, from every state that admits them

`C35_false` and `C36_false` exhibit one state each.  Here the same two attacks are proved to be open in **every** reachable state
with the figures they need, so that the conditions under which the pool can be blocked are stated by the theorems and not by the
examples.
-/

namespace LS
open Spec Demo

/-- **C35, for every pool without LS tokens.**  Once the LS token is registered, and as long as none has been minted (or after
everybody has left), any account with any amount of EGLD closes the pool to deposits for ever, in any of its states. -/
theorem C35_anybody {w : World} (hr : Reachable w) (ht : w.st.lsToken ≠ none) (h0 : supply w = 0) {c : Addr} {v : Nat}
    (hc : c ≠ w.self) (hv : 0 < v) (hb : v ≤ egldOf w c) :
    ∃ w', step w (.addRewards c v) = .ok w' ∧
      ∀ w'', Later w' w'' → ∀ x a, ¬ ∃ w3, step w'' (.delegate x a) = .ok w3 := by
  obtain ⟨t, ht⟩ := Option.ne_none_iff_exists'.1 ht
  have hs : step w (.addRewards c v) = .ok _ := addRewards_ok.2 ⟨hc, t, _, ht, debit_ok.2 ⟨hb, rfl⟩, rfl⟩
  refine ⟨_, hs, fun w'' hl => ?_⟩
  refine (bricked_forever (.step _ hr hs) ⟨?_, ?_⟩ hl).2
  · exact h0
  · show 0 < w.st.r.reserve + v
    omega

example : Reachable active ∧ active.st.lsToken ≠ none ∧ supply active = 0 ∧ 11 ≠ active.self ∧ 1 ≤ egldOf active 11 :=
  ⟨active_reachable, by decide +kernel⟩

/-- One transaction does not lower the reserve of a bricked pool. -/
theorem bricked_keeps {H : Prop} {a a' : Acct} (h : AStep H a a') (h1 : a.r.lsSupply = 0) (h2 : 0 < a.r.reserve) :
    a.r.reserve ≤ a'.r.reserve := by
  have noquote : ∀ v l, ¬ LsQuote a.r v l := by
    rintro v l ⟨hl, ⟨_, h⟩ | ⟨h, _⟩⟩
    · rw [h1, Nat.mul_zero, Nat.zero_div] at h; omega
    · omega
  cases h with
  | deposit p e l hp hpe hq h => exact absurd hq (noquote _ _)
  | redeem l i u e hl hlt hq hs hi hb h => exact absurd hq.1 (by omega)
  | whitelistOk x l g hq h => exact absurd hq (noquote _ _)
  | migrate v l hq h => exact absurd hq (noquote _ _)
  | claim ret fee g hf hg h => subst h; dsimp only; omega
  | reward v h => subst h; dsimp only; omega
  | stay g h | withdraw v t ht hu hb h | delegateOut x hx hb h | undelegateOut x hx h | delegateOk x g hx h | delegateErr x hx h
  | undelegateOk x g hx hs h | undelegateErr x hx h | withdrawIn x hx hu h | claimFees hb h | migratePending v h =>
    subst h; exact Nat.le_refl _

/-- **C35, what is lost with it.**  The reserve of such a pool belongs to nobody and never will: it never gets smaller, nobody has
LS tokens, nobody gets any, and nobody can redeem any. -/
theorem C35_trapped {w w' : World} (hr : Reachable w) (h0 : supply w = 0) (h1 : 0 < reserve w) (hl : Later w w') :
    reserve w ≤ reserve w' ∧ supply w' = 0 ∧ (∀ a, lsOf w' a = 0) ∧ ∀ c v ps, ¬ ∃ w3, step w' (.unDelegate c v ps) = .ok w3 := by
  have hr' := reachable_trace hr hl
  have hB := (bricked_forever hr ⟨h0, h1⟩ hl).1
  have hz : ∀ a, lsOf w' a = 0 := fun a => by have := ls_le_supply hr' a; have := hB.1; omega
  refine ⟨?_, hB.1, hz, ?_⟩
  · clear hz hB hr'
    induction hl with
    | nil => exact Nat.le_refl _
    | @snoc w1 w2 op ht hs _ ih =>
      have hb := (bricked_forever hr ⟨h0, h1⟩ ht).1
      exact Nat.le_trans ih (bricked_keeps
        (acct_step op (reachable_regInv (reachable_trace hr ht)) (reachable_issInv (reachable_trace hr ht)) hs) hb.1 hb.2)
  · rintro c v ps ⟨w3, hs⟩
    obtain ⟨t, l, i, u, n, _, hps, _, _, _, hls, _⟩ := C02_unDelegate_pays_pro_rata hs
    obtain ⟨_, _, _, l', t', _, _, _, _, _, _, _, _, hps', _, hl', _⟩ := unDelegate_ok hs
    have := hz c
    rw [hps] at hps'
    simp only [List.cons.injEq, Payment.mk.injEq] at hps'
    omega

/-- A hundred EGLD of rewards before the first deposit. -/
example : Reachable (run active [.fund 99 (E 100), .addRewards 99 (E 100)]) ∧
    supply (run active [.fund 99 (E 100), .addRewards 99 (E 100)]) = 0 ∧
    reserve (run active [.fund 99 (E 100), .addRewards 99 (E 100)]) = E 100 :=
  ⟨reachable_run active_reachable _, by decide +kernel, by decide +kernel⟩

/-- The provider at the front of the rotation that is open for stake and has more than its cap: every batch of delegations
stops at it. -/
def Spec.Blocks (w : World) (p : Addr) : Prop :=
  (∃ l, w.st.delegList = p :: l) ∧
  ∃ d, provider w p = some d ∧ d.eligible = true ∧ d.cap ≠ 0 ∧ d.cap < netStake w p

theorem C36_blocks {w : World} {p : Addr} (h : Blocks w p) (c : Addr) (o : Option Nat) :
    ¬ ∃ w', step w (.delegatePending c o) = .ok w' := by
  obtain ⟨⟨l, hl⟩, d, hd, h1, h2, h3⟩ := h
  refine delegatePending_poisoned hl hd h1 h2 ?_ c o
  unfold netStake figure at h3
  rw [hd] at h3
  exact h3

/-- **C36, for every provider in its turn.**  The admin of the provider at the front of the rotation can stop every batch of
delegations, of any amount and by any manager, as soon as two units of EGLD are staked there: declare a cap of one. -/
theorem C36_in_turn {w : World} {p : Addr} {l : List Addr} {d : ProviderData} (hl : w.st.delegList = p :: l)
    (hd : provider w p = some d) (ha : d.admin ≠ w.self) (hn : 1 < netStake w p) :
    ∃ w', step w (.changeParams d.admin p 0 1 d.nrNodes d.apy true) = .ok w' ∧ Blocks w' p ∧
      ∀ c o, ¬ ∃ w'', step w' (.delegatePending c o) = .ok w'' := by
  let d' : ProviderData := { d with totalStaked := 0, cap := 1, nrNodes := d.nrNodes, apy := d.apy, eligible := true }
  have hs : step w (.changeParams d.admin p 0 1 d.nrNodes d.apy true) =
      .ok { w with st := { w.st with data := w.st.data.set p (some d') } } :=
    changeParams_ok.2 ⟨ha, .inl (Nat.zero_le _), d, hd, .inl rfl, rfl⟩
  have hg : (w.st.data.set p (some d')).get none p = some d' := by rw [Map.get_set, if_pos rfl]
  have hB : Blocks { w with st := { w.st with data := w.st.data.set p (some d') } } p := by
    refine ⟨⟨l, hl⟩, d', hg, rfl, Nat.one_ne_zero, ?_⟩
    unfold provider at hd
    unfold netStake figure provider at hn ⊢
    dsimp only
    rw [hg]
    rw [hd] at hn
    exact hn
  exact ⟨_, hs, hB, fun c o => C36_blocks hB c o⟩

example : ∃ d, Reachable settled ∧ settled.st.delegList = [21, 22] ∧ provider settled 21 = some d ∧ d.admin ≠ settled.self ∧
    1 < netStake settled 21 := ⟨(settled.st.data.get none 21).get (by decide +kernel), settled_reachable, by decide +kernel⟩

/-- **C36, how a blockade ends.**  It outlasts every transaction but three kinds: another declaration for the same provider, a
delegation to it that fails, and whatever lowers its stake.  No other provider, no depositor and no passage of time ends it. -/
theorem C36_lasts {w w' : World} {p : Addr} {op : Op} (hr : Reachable w) (hB : Blocks w p) (hs : step w op = .ok w') :
    Blocks w' p ∨ (∃ c ts cap n apy e, op = .changeParams c p ts cap n apy e) ∨
      (∃ i a, op = .deliver i .err ∧ w.flights[i]? = some (.delegate p a)) ∨ netStake w' p < netStake w p := by
  have hr0 : RegOk w.st.lsToken w.st.unstakeToken w.st.delegList w.st.undelegList w.st.data w.flights w.dead := reachable_regInv hr
  by_cases h1 : ∃ c ts cap n apy e, op = .changeParams c p ts cap n apy e
  · exact .inr (.inl h1)
  by_cases h2 : ∃ i a, op = .deliver i .err ∧ w.flights[i]? = some (.delegate p a)
  · exact .inr (.inr (.inl h2))
  by_cases h3 : netStake w' p < netStake w p
  · exact .inr (.inr (.inr h3))
  have hno : ∀ c o, op ≠ .delegatePending c o := by
    rintro c o rfl
    exact C36_blocks hB c o ⟨w', hs⟩
  obtain ⟨⟨l, hl⟩, d, hd, he, hc, hlt⟩ := hB
  have hp : p ∈ w.st.delegList := by rw [hl]; exact List.mem_cons_self
  have hkey : .terms p ∉ touched w op ∧ .eligible p ∉ touched w op := by
    cases op with
    | deliver i o =>
      simp only [touched]
      cases hf : w.flights[i]? with
      | none => simp
      | some f =>
        cases f with
        | whitelist q v u =>
          have hq : p ≠ q := fun h => (hr0.wl2 q v u (List.mem_of_getElem? hf)).1 (h ▸ hp)
          cases o <;> simp only [callbackParts]
          · simp
          · split <;> simp [hq]
        | delegate q a =>
          cases o with
          | ok r x => simp [callbackParts]
          | err =>
            have hq : p ≠ q := fun h => h2 ⟨i, a, rfl, h ▸ hf⟩
            simp [callbackParts, hq]
        | _ => cases o <;> simp [callbackParts]
    | whitelist c v q ad ts cap n apy =>
      have hq : p ≠ q := fun h => hr0.recd p hp (h ▸ (whitelist_ok hs).2.2.2.2.1)
      simp [touched, hq]
    | changeParams c q ts cap n apy e =>
      have hq : p ≠ q := fun h => h1 ⟨c, ts, cap, n, apy, e, by rw [h]⟩
      simp [touched, hq]
    | owner c cmd => cases cmd <;> simp [touched, settingOf]
    | _ => simp [touched, positionParts] <;> try split <;> simp
  have ht : (provider w' p).map termsOf = (provider w p).map termsOf := C64_only_its_parts hr hs _ hkey.1
  have hel : (provider w' p).map (·.eligible) = (provider w p).map (·.eligible) := C64_only_its_parts hr hs _ hkey.2
  left
  constructor
  · rcases (C32_nothing_else hr hs).1 hno with h | ⟨q, _, h, _⟩
    · exact ⟨l, h.trans hl⟩
    · exact ⟨l ++ [q], by rw [h, hl, List.cons_append]⟩
  · rw [hd] at ht hel
    cases hd' : provider w' p with
    | none => rw [hd'] at ht; simp at ht
    | some d' =>
      rw [hd'] at ht hel
      simp only [Option.map_some, Option.some.injEq, termsOf, Prod.mk.injEq] at ht hel
      refine ⟨d', rfl, hel.trans he, ?_, ?_⟩
      · rw [ht.2.1]; exact hc
      · rw [ht.2.1]; omega

/-- The blockade of the first provider of `settled`, with what does not end it and what does. -/
example : let w := run settled [.changeParams 41 21 0 1 10 800 true]
    Reachable w ∧ w.st.delegList = [21, 22] ∧ netStake w 21 = 38672954215174376577 ∧
    works w (.delegate 11 (E 50)) = true ∧ works (run w [.delegate 11 (E 50)]) (.delegatePending 1 none) = false ∧
    works (run w [.delegate 11 (E 50), .changeParams 1 21 0 0 10 800 true]) (.delegatePending 1 none) = true :=
  ⟨reachable_run settled_reachable _, by decide +kernel⟩

end LS
