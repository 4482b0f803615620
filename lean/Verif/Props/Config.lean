import Verif.Props.Access

/-! Outgoing calls, settings, views and deployment: C46, C47, C48, C49. -/

namespace LS
open Spec Demo

/-! ### C46 -/

/-- The calls to providers and to the delegation manager that a transaction may send. -/
def MaySend (w : World) (op : Op) : Flight → Prop
  | .delegate p a => (∃ c o, op = .delegatePending c o) ∧ p ∈ w.st.delegList ∧ oneEgld ≤ a
  | .undelegate p a => (∃ c o, op = .unDelegatePending c o) ∧ p ∈ w.st.undelegList ∧ oneEgld ≤ a
  | .withdraw p => (∃ c, op = .withdrawPending c p) ∧ provider w p ≠ none
  | .claim ps => (∃ c, op = .claimRewards c) ∧ ps = w.st.delegList ∧ ps ≠ []
  | .whitelist p v u => (∃ ad ts cap n apy, op = .whitelist u v p ad ts cap n apy) ∧ provider w p = none ∧ oneEgld ≤ v

/-- **C46.** A transaction sends the calls it may send, to registered providers only, and nothing else; calls already sent are
only removed by the arrival of their answer. -/
theorem C46_calls {w w' : World} {op : Op} (hr : Reachable w) (h : step w op = .ok w') :
    ∃ sent, (w'.flights = w.flights ++ sent ∨
        (sent = [] ∧ ∃ i o, (op = .deliver i o ∨ op = .starve i o) ∧ i < w.flights.length ∧ w'.flights = w.flights.eraseIdx i)) ∧
      ∀ f ∈ sent, MaySend w op f := by
  have hfs := fstep (reachable_regInv hr) h
  have hr0 : RegOk w.st.lsToken w.st.unstakeToken w.st.delegList w.st.undelegList w.st.data w.flights w.dead :=
    reachable_regInv hr
  cases op with
  | delegatePending c o =>
    obtain ⟨_, _, _, t, amt, sels, left, E, D, _, _, _, hsub, htar, _, _, _, _, _, rfl⟩ := delegatePending_ok h
    refine ⟨_, .inl rfl, fun f hf => ?_⟩
    obtain ⟨s, hs, rfl⟩ := List.mem_map.1 hf
    exact ⟨⟨c, o, rfl⟩, hsub.subset (List.mem_map_of_mem hs), (htar s hs).choose_spec.2.2.1⟩
  | unDelegatePending c o =>
    obtain ⟨_, _, _, t, amt, sels, left, E, D, _, _, _, hsub, htar, _, _, _, _, rfl⟩ := unDelegatePending_ok h
    refine ⟨_, .inl rfl, fun f hf => ?_⟩
    obtain ⟨s, hs, rfl⟩ := List.mem_map.1 hf
    exact ⟨⟨c, o, rfl⟩, hsub.subset (List.mem_map_of_mem hs), (htar s hs).choose_spec.2.1⟩
  | withdrawPending c q =>
    obtain ⟨_, _, _, _, hp, E, _, rfl⟩ := withdrawPending_ok h
    refine ⟨_, .inl rfl, fun f hf => ?_⟩
    rw [List.mem_singleton] at hf
    subst hf
    exact ⟨⟨c, rfl⟩, hp⟩
  | claimRewards c =>
    obtain ⟨_, _, _, _, hp, E, _, rfl⟩ := claimRewards_ok h
    refine ⟨_, .inl rfl, fun f hf => ?_⟩
    rw [List.mem_singleton] at hf
    subst hf
    exact ⟨⟨c, rfl⟩, rfl, hp⟩
  | whitelist c v q ad ts cap n apy =>
    obtain ⟨_, _, _, _, hn, _, hv, _, E, _, _, _, rfl⟩ := whitelist_ok h
    refine ⟨_, .inl rfl, fun f hf => ?_⟩
    rw [List.mem_singleton] at hf
    subst hf
    exact ⟨⟨ad, ts, cap, n, apy, rfl⟩, hn, hv⟩
  | deliver i o =>
    obtain ⟨f, hf, _⟩ := deliver_ok h
    have hlt := (List.getElem?_eq_some_iff.1 hf).1
    generalize w'.flights = fl at hfs ⊢
    generalize w'.dead = dd at hfs
    cases hfs with
    | same => exact ⟨[], .inl (List.append_nil _).symm, fun f hf => absurd hf (List.not_mem_nil)⟩
    | settled j o' f' w1 hop hf' hcb => cases hop; exact ⟨[], .inr ⟨rfl, i, o, .inl rfl, hlt, rfl⟩, fun f hf => absurd hf (List.not_mem_nil)⟩
    | died j o' f' e hop hf' hcb => cases hop; exact ⟨[], .inr ⟨rfl, i, o, .inl rfl, hlt, rfl⟩, fun f hf => absurd hf (List.not_mem_nil)⟩
    | delegated c o sels hop => cases hop
    | undelegated c o sels hop => cases hop
    | withdrawn c p hop => cases hop
    | claimed c hop => cases hop
    | whitelisted c v p ad ts cap n apy hop => cases hop
    | starved j o' f' hop => cases hop
  | starve i o =>
    obtain ⟨f, hf, rfl⟩ := starve_ok h
    exact ⟨[], .inr ⟨rfl, i, o, .inr rfl, (List.getElem?_eq_some_iff.1 hf).1, rfl⟩, fun f hf => absurd hf (List.not_mem_nil)⟩
  | _ =>
    generalize w'.flights = fl at hfs ⊢
    generalize w'.dead = dd at hfs
    cases hfs with
    | same => exact ⟨[], .inl (List.append_nil _).symm, fun f hf => absurd hf (List.not_mem_nil)⟩
    | delegated c o sels hop => cases hop
    | undelegated c o sels hop => cases hop
    | withdrawn c p hop => cases hop
    | claimed c hop => cases hop
    | whitelisted c v p ad ts cap n apy hop => cases hop
    | settled j o' f' w1 hop => cases hop
    | died j o' f' e hop => cases hop
    | starved j o' f' hop => cases hop

/-- **C46**, in every reachable state: EGLD in flight goes only to providers on the lists. -/
theorem C46_targets {w : World} (hr : Reachable w) {p : Addr} {a : Nat}
    (h : .delegate p a ∈ w.flights ∨ .undelegate p a ∈ w.flights) :
    p ∈ w.st.delegList ∧ p ∈ w.st.undelegList ∧ provider w p ≠ none ∧ oneEgld ≤ a := by
  have hr0 : RegOk w.st.lsToken w.st.unstakeToken w.st.delegList w.st.undelegList w.st.data w.flights w.dead :=
    reachable_regInv hr
  have h1 := hr0.flt p a h
  exact ⟨h1, (hr0.same p).1 h1, hr0.recd p h1, hr0.pos p a h⟩

/-- **C46**, reward claims: `claimRewards` sends one call naming every provider at which anything is staked, unbonding or in
flight, each once, and changes nothing else. -/
theorem C46_claimRewards {w w' : World} {c : Addr} (hr : Reachable w) (h : step w (.claimRewards c) = .ok w') :
    ∃ ps, w'.flights = w.flights ++ [.claim ps] ∧ ps ≠ [] ∧ ps.Nodup ∧ (∀ p, p ∈ ps ↔ p ∈ w.st.delegList) ∧
      (∀ p, 0 < figure (·.staked) w p ∨ 0 < figure (·.unstaked) w p ∨ 0 < figure (·.pStake) w p ∨ 0 < figure (·.pUnstake) w p →
        p ∈ ps) ∧
      w'.st = w.st ∧ (∀ a, egldOf w' a = egldOf w a) ∧ w'.ls = w.ls ∧ w'.nft = w.nft := by
  have hr0 : RegOk w.st.lsToken w.st.unstakeToken w.st.delegList w.st.undelegList w.st.data w.flights w.dead :=
    reachable_regInv hr
  obtain ⟨_, _, _, _, hne, E, hE, rfl⟩ := claimRewards_ok h
  refine ⟨_, rfl, hne, hr0.nd1, fun _ => Iff.rfl, fun p hp => ?_, rfl, hE, rfl, rfl⟩
  by_contra hn
  unfold figure at hp
  cases hd : provider w p with
  | none => rw [hd] at hp; simp at hp
  | some d =>
    rw [hd] at hp
    have := hr0.zero p d hd hn
    dsimp only at hp
    omega

/-- **C46**, withdrawals from providers: one call to the named provider, nothing else changes. -/
theorem C46_withdrawPending {w w' : World} {c p : Addr} (h : step w (.withdrawPending c p) = .ok w') :
    w'.flights = w.flights ++ [.withdraw p] ∧ provider w p ≠ none ∧ w'.st = w.st ∧ (∀ a, egldOf w' a = egldOf w a) ∧
    w'.ls = w.ls ∧ w'.nft = w.nft := by
  obtain ⟨_, _, _, _, hp, E, hE, rfl⟩ := withdrawPending_ok h
  exact ⟨rfl, hp, rfl, hE, rfl, rfl⟩

/-- **C46**, whitelisting: the payment, at least one EGLD, travels to the new provider, whose record starts empty; the
provider joins no list yet, and nothing else changes. -/
theorem C46_whitelist {w w' : World} {c : Addr} {v : Nat} {p ad : Addr} {ts cap : Nat} {n apy : UInt64}
    (h : step w (.whitelist c v p ad ts cap n apy) = .ok w') :
    w'.flights = w.flights ++ [.whitelist p v c] ∧ oneEgld ≤ v ∧ provider w p = none ∧
    provider w' p = some ⟨ad, ts, cap, n, apy, 0, 0, true, 0, 0⟩ ∧ (∀ q, q ≠ p → provider w' q = provider w q) ∧
    egldOf w' c + v = egldOf w c ∧ (∀ a, a ≠ c → egldOf w' a = egldOf w a) ∧
    w'.st = { w.st with data := w'.st.data } ∧ w'.ls = w.ls ∧ w'.nft = w.nft := by
  obtain ⟨_, _, _, _, hn, _, hv, _, E, h1, h2, h3, rfl⟩ := whitelist_ok h
  have hg : ∀ q, (w.st.data.set p (some (⟨ad, ts, cap, n, apy, 0, 0, true, 0, 0⟩ : ProviderData))).get none q = _ :=
    fun q => Map.get_set ..
  refine ⟨rfl, hv, hn, ?_, fun q hq => ?_, h2, fun a ha => ?_, rfl, rfl, rfl⟩
  · have := hg p
    rw [if_pos rfl] at this
    exact this
  · have := hg q
    rw [if_neg hq.symm] at this
    exact this
  · by_cases hs : a = w.self
    · subst hs; exact h1
    · exact h3 a hs ha

example : Reachable settled ∧ works settled (.claimRewards 1) = true ∧
    (exec settled (.claimRewards 1)).flights = [.claim [21, 22]] ∧ 0 < figure (·.staked) settled 21 ∧
    works settled (.withdrawPending 1 21) = true ∧ works settled (.withdrawPending 1 99) = false ∧
    works settled (.whitelist 1 (E 1) 23 43 0 0 10 800) = true ∧ works settled (.whitelist 1 (E 1) 22 43 0 0 10 800) = false :=
  ⟨settled_reachable, by decide +kernel, by decide +kernel, by decide +kernel, by decide +kernel, by decide +kernel,
    by decide +kernel, by decide +kernel⟩

/-! ### C47 -/

/-- What each of the owner's settings means: the settings after it. -/
inductive Sets (s : Store) : OwnerCmd → Store → Prop
  | on : Sets s .stateActive { s with state := .active }
  | off : Sets s .stateInactive { s with state := .inactive }
  | accumulator (a : Addr) : Sets s (.accumulator a) { s with accumulator := a }
  | fees (v : Nat) : Sets s (.fees v) { s with feeRate := v }
  | rounds (v : UInt64) : Sets s (.minimumRounds v) { s with minimumRounds := v }
  | addresses (v : Nat) (h : v ≠ 0) : Sets s (.maxAddresses v) { s with maxDelegationAddresses := v }
  | selected (v : Nat) (h : v ≠ 0) : Sets s (.maxSelected v) { s with maxSelectedProviders := v }
  | unbond (v : UInt64) : Sets s (.unbondPeriod v) { s with unbondPeriod := v }
  | add (l m : List Addr) (h : ∀ a, a ∈ m ↔ a ∈ s.managers ∨ a ∈ l) : Sets s (.addManagers l) { s with managers := m }
  | remove (x : Addr) (m : List Addr) (h : ∀ a, a ∈ m ↔ a ∈ s.managers ∧ a ≠ x) :
      Sets s (.removeManager x) { s with managers := m }

/-- **C47.** Each of the owner's setters takes effect exactly as stated and touches nothing else. -/
theorem C47_setters {w w' : World} {c : Addr} {cmd : OwnerCmd} (hr : Reachable w) (h : step w (.owner c cmd) = .ok w') :
    c = w.owner ∧ Sets w.st cmd w'.st ∧ w' = { w with st := w'.st } := by
  obtain ⟨_, rfl, st, h1, rfl⟩ := ownerCmd_ok.1 h
  refine ⟨rfl, ?_, rfl⟩
  cases cmd <;> simp only [applyOwnerCmd, bind_ok, req_ok, exists_const, Except.ok.injEq] at h1
  case stateActive => subst h1; exact .on
  case stateInactive => subst h1; exact .off
  case accumulator => subst h1; exact .accumulator _
  case fees => subst h1; exact .fees _
  case minimumRounds => subst h1; exact .rounds _
  case maxAddresses => obtain ⟨h0, rfl⟩ := h1; exact .addresses _ (by omega)
  case maxSelected => obtain ⟨h0, rfl⟩ := h1; exact .selected _ (by omega)
  case unbondPeriod => subst h1; exact .unbond _
  case addManagers => subst h1; exact .add _ _ fun a => mem_foldInsert
  case removeManager => subst h1; exact .remove _ _ fun a => mem_swapRemove (reachable_managers hr)

/-- **C47**, they are always available to the owner (limits of zero excepted). -/
theorem C47_setters_available {w : World} (cmd : OwnerCmd) (ho : w.owner ≠ w.self) (h1 : cmd ≠ .maxAddresses 0)
    (h2 : cmd ≠ .maxSelected 0) : ∃ w', step w (.owner w.owner cmd) = .ok w' := by
  have : ∃ st, applyOwnerCmd w.st cmd = .ok st := by
    cases cmd <;> try exact ⟨_, rfl⟩
    case maxAddresses v =>
      have : 1 ≤ v := by rcases v with _ | v; exact absurd rfl h1; omega
      simp only [applyOwnerCmd, bind_ok, req_ok, exists_const, Except.ok.injEq]
      exact ⟨_, this, rfl⟩
    case maxSelected v =>
      have : 1 ≤ v := by rcases v with _ | v; exact absurd rfl h2; omega
      simp only [applyOwnerCmd, bind_ok, req_ok, exists_const, Except.ok.injEq]
      exact ⟨_, this, rfl⟩
  obtain ⟨st, hst⟩ := this
  exact ⟨_, ownerCmd_ok.2 ⟨ho, rfl, st, hst, rfl⟩⟩

/-- **C47**, the scoring configuration: set exactly as given, by a manager or the owner. -/
theorem C47_scoring {w w' : World} {c : Addr} {cfg : ScoringConfig} (h : step w (.setScoringConfig c cfg) = .ok w') :
    IsManagerOf w c ∧ w' = { w with st := { w.st with scoring := some cfg } } := by
  obtain ⟨_, hm, _, rfl⟩ := setScoringConfig_ok.1 h
  exact ⟨isManager_iff.1 hm, rfl⟩

/-- **C47**, a removed manager has no manager's rights any more (unless they are the owner). -/
theorem C47_removed {w w' : World} {c x : Addr} (hr : Reachable w) (h : step w (.owner c (.removeManager x)) = .ok w')
    (hx : x ≠ w.owner) : ¬ IsManagerOf w' x := by
  obtain ⟨_, hs, hw⟩ := C47_setters hr h
  have ho : w'.owner = w.owner := by rw [hw]
  generalize hst : w'.st = st at hs
  cases hs with
  | remove _ m hm =>
    rintro (hm' | hm')
    · rw [hst] at hm'
      exact ((hm x).1 hm').2 rfl
    · exact hx (hm'.trans ho)

example : Reachable settled ∧ works settled (.owner 1 (.addManagers [11, 12])) = true ∧
    (let w := run settled [.owner 1 (.addManagers [11, 12])]
     works w (.claimRewards 11) = true ∧ works (run w [.owner 1 (.removeManager 11)]) (.claimRewards 11) = false ∧
     works (run w [.owner 1 (.removeManager 11)]) (.claimRewards 12) = true) ∧
    works settled (.owner 1 (.maxSelected 0)) = false :=
  ⟨settled_reachable, by decide +kernel, ⟨by decide +kernel, by decide +kernel, by decide +kernel⟩, by decide +kernel⟩

/-! ### C48 -/

/-- **C48.** `getExchangeRate` always answers: one EGLD per LS token when there are none, and otherwise what one whole LS
token (10^18 units) redeems for. -/
theorem C48_exchange_rate (w : World) :
    ∃ r, viewExchangeRate w = .ok r ∧ (supply w = 0 → r = oneEgld) ∧
      (0 < supply w → r = egldFor (supply w) (reserve w) oneEgld) := by
  unfold viewExchangeRate
  by_cases h : w.st.r.lsSupply = 0
  · rw [if_pos h]
    exact ⟨_, rfl, fun _ => rfl, fun h' => absurd h (Nat.ne_of_gt h')⟩
  · rw [if_neg h]
    refine ⟨_, cdiv_ok.2 ⟨h, rfl⟩, fun h' => absurd h' h, fun _ => ?_⟩
    unfold egldFor oneEgld supply reserve
    rw [Nat.mul_comm]

/-- **C48**, against quotes: the value of `l` LS tokens computed from the published rate is at most what they redeem for,
and short of it by no more than the rounding. -/
theorem C48_rate_and_quotes {w : World} {r l : Nat} (h : viewExchangeRate w = .ok r) (hS : 0 < supply w) :
    l * r / oneEgld ≤ egldFor (supply w) (reserve w) l ∧
    egldFor (supply w) (reserve w) l ≤ (l * r + l) / oneEgld := by
  obtain ⟨r', h1, _, h2⟩ := C48_exchange_rate w
  rw [h] at h1
  cases h1
  have h2 := h2 hS
  unfold egldFor at h2 ⊢
  have hO : 0 < oneEgld := by unfold oneEgld; omega
  generalize oneEgld = O at *
  generalize supply w = S at *
  generalize reserve w = R at *
  have hlo : r * S ≤ O * R := by rw [h2]; exact Nat.div_mul_le_self _ _
  have hhi : O * R < (r + 1) * S := by
    have := Nat.lt_div_mul_add (a := O * R) hS
    rw [← h2] at this
    rw [Nat.succ_mul]; exact this
  constructor
  · rw [Nat.le_div_iff_mul_le hS]
    have h3 : l * r / O * O ≤ l * r := Nat.div_mul_le_self _ _
    apply Nat.le_of_mul_le_mul_right _ hO
    calc l * r / O * S * O = l * r / O * O * S := Nat.mul_right_comm _ _ _
      _ ≤ l * r * S := Nat.mul_le_mul_right _ h3
      _ = l * (r * S) := Nat.mul_assoc _ _ _
      _ ≤ l * (O * R) := Nat.mul_le_mul_left _ hlo
      _ = l * R * O := by rw [Nat.mul_comm O R, Nat.mul_assoc]
  · rw [Nat.le_div_iff_mul_le hO]
    have h3 : l * R / S * S ≤ l * R := Nat.div_mul_le_self _ _
    apply Nat.le_of_mul_le_mul_right _ hS
    calc l * R / S * O * S = l * R / S * S * O := Nat.mul_right_comm _ _ _
      _ ≤ l * R * O := Nat.mul_le_mul_right _ h3
      _ = l * (O * R) := by rw [Nat.mul_assoc, Nat.mul_comm R O]
      _ ≤ l * ((r + 1) * S) := Nat.mul_le_mul_left _ (Nat.le_of_lt hhi)
      _ = (l * r + l) * S := by rw [← Nat.mul_assoc, Nat.mul_succ]

/-- The reserve never falls below the supply. -/
theorem AStep.cover {H : Prop} {a a' : Acct} (h : AStep H a a') (hi : AInv a) (hc : a.r.lsSupply ≤ a.r.reserve) :
    a'.r.lsSupply ≤ a'.r.reserve := by
  rcases Nat.eq_zero_or_pos a.r.lsSupply with h0 | h0
  · have mint : ∀ v l, LsQuote a.r v l → a.r.lsSupply + l ≤ a.r.reserve + v := by
      rintro v l ⟨hl, ⟨_, hq⟩ | ⟨_, hq⟩⟩
      · rw [h0] at hq; simp at hq; omega
      · omega
    cases h with
    | stay g h => subst h; exact hc
    | deposit p e l hp hpe hq h => subst h; exact mint _ _ hq
    | redeem l i u e hl hlt hq => exact absurd h0 hq.2.1
    | withdraw v t ht hu hb h => subst h; exact hc
    | delegateOut x hx hb h => subst h; exact hc
    | undelegateOut x hx h => subst h; exact hc
    | delegateOk x g hx h => subst h; exact hc
    | delegateErr x hx h => subst h; exact hc
    | undelegateOk x g hx hs h => subst h; exact hc
    | undelegateErr x hx h => subst h; exact hc
    | withdrawIn x hx hu h => subst h; exact hc
    | claim ret fee g hf hg h => subst h; dsimp only; omega
    | whitelistOk x l g hq h => subst h; exact mint _ _ hq
    | claimFees hb h => subst h; exact hc
    | migrate v l hq h => subst h; exact mint _ _ hq
    | migratePending v h => subst h; exact hc
    | reward v h => subst h; dsimp only; omega
  · have hrate := h.rate hi h0
    apply Nat.le_of_mul_le_mul_right _ h0
    calc a'.r.lsSupply * a.r.lsSupply ≤ a'.r.lsSupply * a.r.reserve := Nat.mul_le_mul_left _ hc
      _ = a.r.reserve * a'.r.lsSupply := Nat.mul_comm _ _
      _ ≤ a'.r.reserve * a.r.lsSupply := hrate

/-- **C48**, a floor: the reserve is never smaller than the supply, so an LS token is always worth at least one EGLD, and any
quote for `l` LS tokens is at least `l`. -/
theorem C48_at_least_one {w : World} (hr : Reachable w) :
    supply w ≤ reserve w ∧ (∀ r, viewExchangeRate w = .ok r → oneEgld ≤ r) ∧
    (∀ l q v, viewLsValue w l = .ok (q, v) → l ≤ q) ∧ (∀ a l v, 0 < supply w → viewEgldPosition w a = .ok (l, v) → l ≤ a) := by
  have hc : supply w ≤ reserve w := by
    induction hr with
    | init h =>
      obtain ⟨self, owner, contracts, epoch, funds, acc, fees, rpe, mr, ms, ma, ub, _, _, rfl⟩ := isInit_eq h
      exact Nat.le_refl 0
    | @step w w' op hr hs ih => exact (acct_step op (reachable_regInv hr) (reachable_issInv hr) hs).cover (reachable_ainv hr) ih
  have hq : ∀ l, 0 < supply w → l ≤ egldFor (supply w) (reserve w) l := by
    intro l hS
    unfold egldFor
    rw [Nat.le_div_iff_mul_le hS]
    exact Nat.mul_le_mul_left _ hc
  refine ⟨hc, fun r h => ?_, fun l q v h => ?_, fun a l v hS h => ?_⟩
  · obtain ⟨r', h1, h2, h3⟩ := C48_exchange_rate w
    rw [h] at h1
    cases h1
    rcases Nat.eq_zero_or_pos (supply w) with h0 | h0
    · rw [h2 h0]
    · rw [h3 h0]; exact hq _ h0
  · obtain ⟨_, ⟨_, h0, _, rfl⟩, _⟩ := viewLsValue_ok.1 h
    exact hq l (Nat.pos_of_ne_zero h0)
  · obtain ⟨_, ⟨_, hl | hl⟩, _⟩ := viewEgldPosition_ok.1 h
    · obtain ⟨hR, rfl⟩ := hl
      apply Nat.div_le_of_le_mul
      rw [Nat.mul_comm]
      exact Nat.mul_le_mul_right _ hc
    · rw [hl.2]

/-- **C48**, the published rate never falls while LS tokens exist. -/
theorem C48_rate_never_falls {w w' : World} {r r' : Nat} (hr : Reachable w) (hS : 0 < supply w) (h : Trace Alive w w')
    (h1 : viewExchangeRate w = .ok r) (h2 : viewExchangeRate w' = .ok r') : r ≤ r' := by
  obtain ⟨x, e1, _, h3⟩ := C48_exchange_rate w
  obtain ⟨x', e2, _, h3'⟩ := C48_exchange_rate w'
  rw [h1] at e1
  rw [h2] at e2
  cases e1
  cases e2
  have hS' : 0 < supply w' := by
    cases h with
    | nil => exact hS
    | snoc op _ _ hp => exact hp.2
  rw [h3 hS, h3' hS']
  exact (C03_rate_never_falls hr hS h oneEgld).2

/-- **C48**, the provider views answer exactly for registered providers, with the figures of the record; over all providers
the unbonding figures add up to the published unbonding total. -/
theorem C48_provider_views {w : World} (hr : Reachable w) :
    (∀ p x, viewStaked w p = .ok x ↔ provider w p ≠ none ∧ x = figure (·.staked) w p) ∧
    (∀ p x, viewUnstaked w p = .ok x ↔ provider w p ≠ none ∧ x = figure (·.unstaked) w p) ∧
    IsSum (fun p => match viewUnstaked w p with | .ok x => x | .error _ => 0) (unbonding w) := by
  have h1 : ∀ p x, viewUnstaked w p = .ok x ↔ provider w p ≠ none ∧ x = figure (·.unstaked) w p := by
    intro p x
    unfold viewUnstaked figure provider getData
    cases w.st.data.get none p with
    | none => simp [bind, Except.bind]
    | some d => simp [bind, Except.bind, eq_comm]
  refine ⟨fun p x => ?_, h1, ?_⟩
  · unfold viewStaked figure provider getData
    cases w.st.data.get none p with
    | none => simp [bind, Except.bind]
    | some d => simp [bind, Except.bind, eq_comm]
  · have : (fun p => match viewUnstaked w p with | .ok x => x | .error _ => 0) = figure (·.unstaked) w := by
      funext p
      cases hv : viewUnstaked w p with
      | ok x => exact ((h1 p x).1 hv).2
      | error e =>
        unfold viewUnstaked getData at hv
        unfold figure provider
        cases hd : w.st.data.get none p with
        | none => rfl
        | some d => rw [hd] at hv; simp [bind, Except.bind] at hv
    rw [this]
    exact C44_unbonding_total hr

example : Reachable returned ∧ 0 < supply returned ∧ viewExchangeRate fresh = .ok (E 1) ∧
    viewExchangeRate (exec settled (.addRewards 13 (E 30))) = .ok (E 1 * 18872 / 15200) ∧
    (viewStaked returned 21).toOption ≠ none ∧ (viewStaked returned 99).toOption = none :=
  ⟨returned_reachable, by decide +kernel, by decide +kernel, by decide +kernel, by decide +kernel, by decide +kernel⟩

/-! ### C49 -/

/-- **C49.** Deployment succeeds exactly when both limits are positive; the contract then starts inactive, with exactly the
configuration given, no tokens, no managers, no providers, empty queues, nothing in circulation and nothing in flight. -/
theorem C49_deployment {self owner : Addr} {contracts : List Addr} {epoch : UInt64} {funds : Map Addr Nat} {acc : Addr}
    {fees : Nat} {rpe mr : UInt64} {ms ma : Nat} {ub : UInt64} :
    ((∃ w, initWorld self owner contracts epoch funds acc fees rpe mr ms ma ub = .ok w) ↔ ms ≠ 0 ∧ ma ≠ 0) ∧
    ∀ w, initWorld self owner contracts epoch funds acc fees rpe mr ms ma ub = .ok w →
      w.self = self ∧ w.owner = owner ∧ w.epoch = epoch ∧ w.st.state = .inactive ∧
      w.st.accumulator = acc ∧ w.st.feeRate = fees ∧ w.st.roundsPerEpoch = rpe ∧ w.st.minimumRounds = mr ∧
      w.st.maxSelectedProviders = ms ∧ w.st.maxDelegationAddresses = ma ∧ w.st.unbondPeriod = ub ∧
      w.st.lsToken = none ∧ w.st.lsPending = false ∧ w.st.unstakeToken = none ∧ w.st.unstakePending = false ∧
      w.st.scoring = none ∧ w.st.managers = [] ∧ w.st.migrationSc = none ∧
      w.st.delegList = [] ∧ w.st.undelegList = [] ∧ (∀ p, provider w p = none) ∧
      supply w = 0 ∧ reserve w = 0 ∧ feesReserve w = 0 ∧ withdrawable w = 0 ∧ pendingEgld w = 0 ∧ toUndelegate w = 0 ∧
      unbonding w = 0 ∧ egldOf w self = 0 ∧ (∀ a, a ≠ self → egldOf w a = funds.get 0 a) ∧
      (∀ a, lsOf w a = 0) ∧ (∀ n a, unstakeOf w n a = 0) ∧ w.flights = [] ∧ w.issues = [] ∧ w.events = [] := by
  unfold initWorld
  simp only [bind_ok, req_ok, exists_const, Except.ok.injEq]
  constructor
  · constructor
    · rintro ⟨w, h1, h2, _⟩; exact ⟨by omega, by omega⟩
    · rintro ⟨h1, h2⟩; exact ⟨_, by omega, by omega, rfl⟩
  · rintro w ⟨h1, h2, rfl⟩
    refine ⟨rfl, rfl, rfl, rfl, rfl, rfl, rfl, rfl, rfl, rfl, rfl, rfl, rfl, rfl, rfl, rfl, rfl, rfl, rfl, rfl, fun _ => rfl, rfl, rfl,
      rfl, rfl, rfl, rfl, rfl, ?_, fun a ha => ?_, fun _ => rfl, fun _ _ => rfl, rfl, rfl, rfl⟩
    · show Map.get 0 (funds.filter fun e => decide (e.1 ≠ self)) self = 0
      induction funds with
      | nil => rfl
      | cons e es ih =>
        rw [List.filter_cons]
        split
        · next h =>
          have : e.1 ≠ self := by simpa using h
          obtain ⟨k, v⟩ := e
          simp only [Map.get]
          rw [if_neg this]; exact ih
        · exact ih
    · show Map.get 0 (funds.filter fun e => decide (e.1 ≠ self)) a = funds.get 0 a
      induction funds with
      | nil => rfl
      | cons e es ih =>
        rw [List.filter_cons]
        obtain ⟨k, v⟩ := e
        split
        · next h =>
          simp only [Map.get]
          split
          · rfl
          · exact ih
        · next h =>
          have : k = self := by simpa using h
          simp only [Map.get]
          rw [if_neg (by rw [this]; exact ha.symm)]; exact ih

/-- **C49**, before it is set up: as long as the LS token has not been issued the pool is empty, and nobody but the owner, the
managers the owner has named and the provider admins these have named can change the contract's storage, apart from the
answers to the issues the owner has started. -/
theorem C49_before_setup {w : World} (hr : Reachable w) (ht : w.st.lsToken = none) :
    (supply w = 0 ∧ reserve w = 0 ∧ feesReserve w = 0 ∧ withdrawable w = 0 ∧ pendingEgld w = 0 ∧ toUndelegate w = 0 ∧
      unbonding w = 0 ∧ ∀ a, lsOf w a = 0) ∧
    ∀ op w', step w op = .ok w' → w'.st = w.st ∨
      (∃ c, callerOf op = some c ∧ (IsManagerOf w c ∨ ∃ p d, provider w p = some d ∧ d.admin = c)) ∨
      ∃ i o x, op = .issued i o ∧ w.issues[i]? = some x ∧ AskedByOwner w x := by
  have hr0 : RegOk w.st.lsToken w.st.unstakeToken w.st.delegList w.st.undelegList w.st.data w.flights w.dead :=
    reachable_regInv hr
  constructor
  · have hz : supply w = 0 ∧ reserve w = 0 ∧ feesReserve w = 0 ∧ withdrawable w = 0 ∧ pendingEgld w = 0 ∧ toUndelegate w = 0 ∧
      unbonding w = 0 := by
      clear hr0
      induction hr with
      | init h =>
        obtain ⟨self, owner, contracts, epoch, funds, acc, fees, rpe, mr, ms, ma, ub, _, _, rfl⟩ := isInit_eq h
        exact ⟨rfl, rfl, rfl, rfl, rfl, rfl, rfl⟩
      | @step w w' op hr hs ih =>
        have hf := frame_step op (reachable_regInv hr) (reachable_issInv hr) hs
        have h0 : w.st.lsToken = none := by
          rcases hf.lsT with h | ⟨_, _, _, _, _, _, h, _⟩
          · rw [← h]; exact ht
          · exact h
        have hq := hf.quiet h0
        unfold supply reserve feesReserve withdrawable pendingEgld toUndelegate unbonding at *
        rw [hq]
        exact ih h0
    refine ⟨hz.1, hz.2.1, hz.2.2.1, hz.2.2.2.1, hz.2.2.2.2.1, hz.2.2.2.2.2.1, hz.2.2.2.2.2.2, fun a => ?_⟩
    have := ls_le_supply hr a
    rw [hz.1] at this
    omega
  · intro op w' h
    have ha := C25_privileged_calls h
    by_cases hi : ∃ i o, op = .issued i o
    · obtain ⟨i, o, rfl⟩ := hi
      obtain ⟨x, _, hx, _⟩ := issued_ok.1 h
      exact .inr (.inr ⟨i, o, x, rfl, hx, reachable_asked hr (List.mem_of_getElem? hx)⟩)
    have key0 : (w'.st = w.st ∨ ∃ c, callerOf op = some c ∧ (IsManagerOf w c ∨ ∃ p d, provider w p = some d ∧ d.admin = c)) →
      (w'.st = w.st ∨ (∃ c, callerOf op = some c ∧ (IsManagerOf w c ∨ ∃ p d, provider w p = some d ∧ d.admin = c)) ∨
      ∃ i o x, op = .issued i o ∧ w.issues[i]? = some x ∧ AskedByOwner w x) := fun h => h.imp_right .inl
    apply key0
    have key : w.st.lsToken ≠ none → w'.st = w.st ∨
      ∃ c, callerOf op = some c ∧ (IsManagerOf w c ∨ ∃ p d, provider w p = some d ∧ d.admin = c) := fun hn => absurd ht hn
    have key' : ∀ t, w.st.lsToken = some t → w'.st = w.st ∨
      ∃ c, callerOf op = some c ∧ (IsManagerOf w c ∨ ∃ p d, provider w p = some d ∧ d.admin = c) :=
      fun t hn => by rw [ht] at hn; cases hn
    by_cases hc : callerOf op = none
    · by_cases hd : ∃ i o, op = .deliver i o
      · obtain ⟨i, o, rfl⟩ := hd
        left
        obtain ⟨f, hf, hcb | ⟨_, rfl⟩⟩ := deliver_ok h
        swap
        · rfl
        have hn : ∀ t, (arrive w i f o).st.lsToken ≠ some t := fun t h => by
          have h : w.st.lsToken = some t := h
          rw [ht] at h; cases h
        have hn' : ¬ (arrive w i f o).st.lsToken ≠ none := fun h => h ht
        have hw : ∀ q v, withdrawTokensCb (arrive w i f o) q v = .ok w' → w'.st = w.st := by
          intro q v h
          rcases withdrawTokensCb_ok.1 h with ⟨_, rfl⟩ | ⟨_, t, _, h, _⟩
          · rfl
          · exact absurd h (hn t)
        cases f with
        | delegate q a =>
          cases o with
          | ok g r => exact absurd (addLiquidityCb_true_ok.1 hcb).1 hn'
          | err => obtain ⟨t, _, h, _⟩ := addLiquidityCb_false_ok.1 hcb; exact absurd h (hn t)
        | undelegate q a =>
          cases o with
          | ok g r => obtain ⟨t, _, h, _⟩ := removeLiquidityCb_true_ok.1 hcb; exact absurd h (hn t)
          | err => obtain ⟨t, _, h, _⟩ := removeLiquidityCb_false_ok.1 hcb; exact absurd h (hn t)
        | withdraw q =>
          cases o with
          | ok g r => exact hw q g hcb
          | err => exact hw q 0 hcb
        | claim ps =>
          cases o with
          | ok g r =>
            rcases claimRewardsCb_ok.1 hcb with ⟨_, rfl⟩ | ⟨_, t, _, h, _⟩
            · rfl
            · exact absurd h (hn t)
          | err => simp only [runCallback, claimRewardsCb, Except.ok.injEq] at hcb; subst hcb; rfl
        | whitelist q a u =>
          cases o with
          | ok g r => obtain ⟨t, _, _, h, _⟩ := whitelistCb_true_ok.1 hcb; exact absurd h (hn t)
          | err => exact absurd (whitelistCb_false_ok.1 hcb).1 hn'
      · exact .inl (C25_neutral h hc (fun i o ho => hd ⟨i, o, ho⟩) (fun i o ho => hi ⟨i, o, ho⟩))
    · cases op with
      | delegate c v => obtain ⟨_, _, _, m, t, p, e, l, _, h, _⟩ := delegate_ok.1 h; exact key' t h
      | unDelegate c v ps => obtain ⟨_, _, _, l, t, m0, m1, m2, e, i, u, w1, w2, _, h, _⟩ := unDelegate_ok h; exact key' t h
      | withdraw c v ps => obtain ⟨_, _, _, uid, t, m0, m, E, N, _, h, _⟩ := withdraw_ok hr0.tok h; exact key' t h
      | addRewards c v => obtain ⟨_, t, m, h, _⟩ := addRewards_ok.1 h; exact key' t h
      | claimFees c a => obtain ⟨_, _, _, _, h, _⟩ := claimFees_ok h; exact key h
      | migrate c v o => obtain ⟨_, _, _, _, t, l, h, _⟩ := migrate_ok.1 h; exact key' t h
      | migratePending c v => obtain ⟨_, _, _, _, t, m, h, _⟩ := migratePending_ok.1 h; exact key' t h
      | changeParams c q ts cap n apy e =>
        exact .inr ⟨c, rfl, ha.imp_right fun ⟨d, h⟩ => ⟨q, d, h⟩⟩
      | delegatePending c o => exact .inr ⟨c, rfl, .inl ha⟩
      | unDelegatePending c o => exact .inr ⟨c, rfl, .inl ha⟩
      | withdrawPending c q => exact .inr ⟨c, rfl, .inl ha⟩
      | claimRewards c => exact .inr ⟨c, rfl, .inl ha⟩
      | whitelist c v q ad ts cap n apy => exact .inr ⟨c, rfl, .inl ha⟩
      | changeAdmin c q a => exact .inr ⟨c, rfl, .inl ha⟩
      | setMigrationSc c a => exact .inr ⟨c, rfl, .inl (.inr ha)⟩
      | registerLsToken c v => exact .inr ⟨c, rfl, .inl (.inr ha)⟩
      | registerUnstakeToken c v => exact .inr ⟨c, rfl, .inl (.inr ha)⟩
      | owner c cmd => exact .inr ⟨c, rfl, .inl (.inr ha)⟩
      | changeOwner c d => exact .inr ⟨c, rfl, .inl (.inr ha)⟩
      | setScoringConfig c cfg => exact .inr ⟨c, rfl, .inl ha⟩
      | _ => exact absurd rfl hc

/-- A fresh contract, and one where the owner has begun to configure it: users are refused, the owner is not. -/
example : IsInit fresh ∧ fresh.st.lsToken = none ∧ works fresh (.delegate 11 (E 5)) = false ∧
    works fresh (.addRewards 11 (E 5)) = false ∧ works fresh (.owner 1 .stateActive) = true ∧
    (run fresh [.owner 1 .stateActive, .owner 1 (.addManagers [12])]).st.managers = [12] ∧
    works (run fresh [.owner 1 .stateActive, .owner 1 (.addManagers [12])]) (.delegate 11 (E 5)) = false :=
  ⟨fresh_isInit, by decide +kernel, by decide +kernel, by decide +kernel, by decide +kernel, by decide +kernel, by decide +kernel⟩

end LS
