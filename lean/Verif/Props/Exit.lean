import Verif.Proofs.Exit
import Verif.Props.Live
import Verif.Props.Positions

/-! C70: leaving, from LS tokens to EGLD, through the network of contract and mocks. -/

namespace LS
open Spec Demo

/-- **C70**, the queue: as C58, but with redemptions still queued.  When the queue is empty, or holds at least one EGLD that the first
provider with stake can give, a manager asks it back, waits and collects, and then every holder of unstake tokens matured by then,
whoever comes first, is paid in full; meanwhile nobody's balances change. -/
theorem C70_queue_exit {n : Net} {m : Addr} {e : UInt64} (hr : NetReachable n) (h0 : n.msgs = []) (ha : n.w.st.state = .active)
    (hl : n.w.st.lsToken ≠ none) (hu : n.w.st.unstakeToken ≠ none) (hm : MayManage n.w m) (hb : CanBatch n.w)
    (hq : toUndelegate n.w = 0 ∨ oneEgld ≤ toUndelegate n.w ∧ FirstCanGive n.w (toUndelegate n.w)) (hF : Funded n)
    (he : n.w.epoch.toNat + 10 ≤ e.toNat) :
    ∃ n', NetTrace (AskingBack m e) n n' ∧ n'.w.epoch = e ∧ n'.w.self = n.w.self ∧ toUndelegate n'.w = 0 ∧
      (∀ a, a ≠ n.w.self → egldOf n'.w a = egldOf n.w a) ∧ (∀ a, lsOf n'.w a = lsOf n.w a) ∧
      (∀ k a, unstakeOf n'.w k a = unstakeOf n.w k a) ∧ (∃ u, IsSum (userTokens n'.w) u ∧ u + n'.w.burntUnstake = withdrawable n'.w) ∧
      ∀ c ps, c ≠ n.w.self →
        (∀ p ∈ ps, n.w.st.unstakeToken = some p.token ∧ 0 < p.amount ∧ ∃ t, maturityOf n.w p.nonce = some t ∧ t ≤ e) →
        (∀ k, paidWith k ps ≤ unstakeOf n.w k c) →
        ∃ n'', netStep n' (.call (.withdraw c 0 ps)) = .ok n'' ∧ egldOf n''.w c = egldOf n'.w c + totalPaid ps := by
  obtain ⟨n1, ht1, hm1, hc1, hq1, hF1⟩ : ∃ n', NetTrace (AskingBack m e) n n' ∧ n'.msgs = [] ∧
      (∀ x, calm n.w.self x = true → Same n.w n'.w x) ∧ toUndelegate n'.w = 0 ∧ Funded n' := by
    rcases hq with hq | ⟨hq, hg⟩
    · exact ⟨n, .nil, h0, fun x _ => Same.refl _ x, hq, hF⟩
    · exact net_askBack hr h0 ha hl hm hb hq hg hF
  have hr1 : NetReachable n1 := ht1.reachable (fun _ _ h => h.1) hr
  have hid1 := (hc1 .identity rfl).1
  have hid2 : n1.w.owner = n.w.owner := hc1 .owner rfl
  have hck : n1.w.epoch = n.w.epoch := hc1 .clock rfl
  have hst : n1.w.st.state = n.w.st.state := hc1 .switch rfl
  have hls : n1.w.st.lsToken = n.w.st.lsToken := (hc1 .lsSlot rfl).1
  have hus : n1.w.st.unstakeToken = n.w.st.unstakeToken := (hc1 .unstakeSlot rfl).1
  have hmg : n1.w.st.managers = n.w.st.managers := hc1 .managers rfl
  have hnf : ∀ k a, unstakeOf n1.w k a = unstakeOf n.w k a := fun k a => hc1 (.unstakes k a) rfl
  have hmt : ∀ k, maturityOf n1.w k = maturityOf n.w k := fun k => by
    have : n1.w.attrs.get none k = n.w.attrs.get none k := hc1 (.attributes k) rfl
    unfold maturityOf; rw [this]
  obtain ⟨n2, ht2, hep, hun, hmat, hsum, hpay⟩ := C58_network_exit (m := m) (e := e) hr1 hm1 hq1 (by rw [hst]; exact ha)
    (by rw [hls]; exact hl) (by rw [hus]; exact hu) (by rw [hid1]; exact hm.1) (by rw [hmg, hid2]; exact hm.2) (by rw [hck]; exact he)
    (fun p => by have := hF1 p; omega)
  have hc2 := (winding_calm hr1 (by rw [hm1]; intro x hx; cases hx) ht2).2
  have hcal : ∀ x, calm n.w.self x = true → x ≠ .clock → Same n.w n2.w x := fun x hx hne =>
    (hc1 x hx).trans (hc2 x (.inl (by rw [hid1]; exact hx)) hne)
  have ht2' : NetTrace (AskingBack m e) n1 n2 := ht2.mono fun n op h => ⟨h.1, by
    obtain ⟨_, h⟩ := h
    cases op with
    | call c =>
      rcases h with h | h
      · exact .inl h
      · exact .inr (.inr h)
    | _ => exact h⟩
  have hz : toUndelegate n2.w = toUndelegate n1.w := hc2 .queue (.inr rfl) (by simp)
  rw [hq1] at hz
  refine ⟨n2, ht1.trans ht2', hep, (hcal .identity rfl (by simp)).1, hz,
    fun a hne => hcal (.egld a) (by simp [calm, hne]) (by simp), fun a => hcal (.ls a) rfl (by simp),
    fun k a => (hun k a).trans (hnf k a), hsum, fun c ps h1 h2 h3 => ?_⟩
  exact hpay c ps (by rw [hid1]; exact h1) (fun p hp => by rw [hus, hmt]; exact h2 p hp) (fun k => by rw [hnf]; exact h3 k)

/-- **C70.** A holder of LS tokens can leave with the full value.  The contract is active, nothing is in flight, the mocks are funded and the
first provider with stake can give what is queued and this redemption: whoever holds `l` LS tokens worth `v` ≥ 1 EGLD can redeem them, a
manager asks back and collects, and by the end of the unbond period (and of the ten epochs of the mocks) the holder has exactly `v` EGLD
more, `l` LS tokens less and the same unstake tokens as before; nobody else's balances change. -/
theorem C70_holder_exit {n : Net} {m u : Addr} {t : TokenId} {l v : Nat} {e : UInt64} (hr : NetReachable n) (h0 : n.msgs = [])
    (ha : n.w.st.state = .active) (hl : n.w.st.lsToken = some t) (hu : n.w.st.unstakeToken ≠ none) (hm : MayManage n.w m)
    (hb : CanBatch n.w) (hus : u ≠ n.w.self) (hbal : l ≤ lsOf n.w u) (hv : v = egldFor (supply n.w) (reserve n.w) l) (h1 : oneEgld ≤ v)
    (hg : FirstCanGive n.w (toUndelegate n.w + v)) (hF : Funded n) (he : n.w.epoch.toNat + 10 ≤ e.toNat)
    (he' : n.w.epoch.toNat + n.w.st.unbondPeriod.toNat ≤ e.toNat) :
    ∃ n', NetTrace (Leaving u m l e) n n' ∧ n'.w.epoch ≤ e ∧ egldOf n'.w u = egldOf n.w u + v ∧ lsOf n'.w u + l = lsOf n.w u ∧
      (∀ k, unstakeOf n'.w k u = unstakeOf n.w k u) ∧
      ∀ a, a ≠ u → a ≠ n.w.self → egldOf n'.w a = egldOf n.w a ∧ lsOf n'.w a = lsOf n.w a ∧
        ∀ k, unstakeOf n'.w k a = unstakeOf n.w k a := by
  subst hv
  have hreach := (net_inv hr).1
  obtain ⟨w1, hw1⟩ := C16_redemption_accepted (c := u) (net_honest hr) ha hl hu hus hbal h1
  obtain ⟨i, d, k, hsp, ⟨hpe, hpk, hpo⟩, _, hqd, _, hq1⟩ := C14_unDelegate_split hw1
  obtain ⟨t', l', _, _, _, ht', hps, _, _, _, hls1, _, _, _, _, heo, hlo, hno⟩ := C02_unDelegate_pays_pro_rata hw1
  simp only [List.cons.injEq, Payment.mk.injEq, true_and, and_true] at hps
  obtain ⟨_, rfl⟩ := hps
  have hsum : i + d = egldFor (supply n.w) (reserve n.w) l := hsp.sum
  have hs1 := net_call.2 ⟨rfl, w1, hw1, rfl⟩
  have htr1 : NetTrace (Leaving u m l e) n _ := .snoc _ .nil (.inr (.inl ⟨t, rfl⟩)) hs1
  have hsame : ∀ x, x ∉ touched n.w (.unDelegate u 0 [⟨t, 0, l⟩]) → Same n.w w1 x := fun x hx => C64_only_its_parts hreach hw1 x hx
  have hpos : ∀ x, (match x with | .unstakes _ _ | .attributes _ | .lastNonce | .registry _ => False | _ => True) →
      x ∉ positionParts n.w u := by
    intro x hx hmem
    unfold positionParts at hmem
    simp only at hmem
    split at hmem
    · simp only [List.mem_singleton] at hmem; subst hmem; exact hx
    · simp only [List.cons_append, List.nil_append, List.mem_cons, List.mem_map] at hmem
      rcases hmem with rfl | rfl | rfl | rfl | rfl | rfl | ⟨_, _, rfl⟩ <;> exact hx
  have hck : w1.epoch = n.w.epoch := hsame .clock (by simp [touched, hpos])
  by_cases hd0 : d = 0
  · subst hd0
    refine ⟨_, htr1, ?_, ?_, hls1, fun j => ?_, fun a h2 h3 => ⟨heo a h2 h3, hlo a h2, fun j => hno j a h2 h3⟩⟩
    · show w1.epoch ≤ e
      rw [hck, UInt64.le_iff_toNat_le]; omega
    · show egldOf w1 u = _
      omega
    · show unstakeOf w1 j u = _
      by_cases hj : j = k
      · subst hj; exact hpk
      · exact hpo j hj
  have hd : 0 < d := Nat.pos_of_ne_zero hd0
  have hid1 := (hsame .identity (by simp [touched, hpos])).1
  have hid2 : w1.owner = n.w.owner := hsame .owner (by simp [touched, hpos])
  have hfl : w1.flights = n.w.flights := hsame .calls (by simp [touched, hpos])
  have hst : w1.st.state = n.w.st.state := hsame .switch (by simp [touched, hpos])
  have hlt : w1.st.lsToken = n.w.st.lsToken := (hsame .lsSlot (by simp [touched, hpos])).1
  have hut : w1.st.unstakeToken = n.w.st.unstakeToken := (hsame .unstakeSlot (by simp [touched, hpos])).1
  have hmg : w1.st.managers = n.w.st.managers := hsame .managers (by simp [touched, hpos])
  have hsc : w1.st.scoring = n.w.st.scoring := hsame .scoring (by simp [touched, hpos])
  have hmx : w1.st.maxSelectedProviders = n.w.st.maxSelectedProviders := hsame .maxSelected (by simp [touched, hpos])
  have hul : w1.st.undelegList = n.w.st.undelegList := hsame .undelegOrder (by simp [touched, hpos])
  have hnet : ∀ p, netStake w1 p = netStake n.w p := fun p => by
    have a1 : figure (·.staked) w1 p = figure (·.staked) n.w p := hsame (.staked p) (by simp [touched, hpos])
    have a2 : figure (·.pStake) w1 p = figure (·.pStake) n.w p := hsame (.inFlightStake p) (by simp [touched, hpos])
    have a3 : figure (·.pUnstake) w1 p = figure (·.pUnstake) n.w p := hsame (.inFlightUnstake p) (by simp [touched, hpos])
    unfold netStake; rw [a1, a2, a3]
  obtain ⟨n1, hn1⟩ : ∃ n1 : Net, n1 = { n with w := w1, msgs := n.msgs ++ (w1.flights.drop n.w.flights.length).map (·, none) } := ⟨_, rfl⟩
  rw [← hn1] at hs1 htr1
  have hr1 : NetReachable n1 := .step (.call (.unDelegate u 0 [⟨t, 0, l⟩])) hr trivial hs1
  have hwn : n1.w = w1 := by rw [hn1]
  have hmsg : n1.msgs = [] := by
    rw [hn1]
    show n.msgs ++ _ = []
    rw [h0, hfl, List.drop_length]; rfl
  obtain ⟨ut, hut'⟩ := Option.ne_none_iff_exists'.1 hu
  have hmat : maturityOf w1 k = some (n.w.epoch + n.w.st.unbondPeriod) := by
    obtain ⟨e1, he1, he2, _⟩ := C12_maturity_fixed hreach hw1 (n := k) (by omega) .nil
    rw [he1, he2]
  have hme : n.w.epoch + n.w.st.unbondPeriod ≤ e := by
    have := e.toNat_lt
    rw [UInt64.le_iff_toNat_le, UInt64.toNat_add, Nat.mod_eq_of_lt (by omega)]
    exact he'
  obtain ⟨n2, htr2, hep, hid, _, heg, hlsg, hung, _, hpay⟩ := C70_queue_exit (m := m) (e := e) hr1 hmsg (by rw [hwn, hst]; exact ha)
    (by rw [hwn, hlt, hl]; simp) (by rw [hwn, hut]; exact hu) (by unfold MayManage; rw [hwn, hid1, hid2, hmg]; exact hm)
    (by unfold CanBatch; rw [hwn, hsc, hmx, hul]; exact hb)
    (.inr ⟨by rw [hwn]; exact hq1 hd, by
      obtain ⟨p, hp, hpl⟩ := hg
      refine ⟨p, ?_, ?_⟩
      · rw [hwn]
        have : withStake w1 = withStake n.w := by unfold withStake; rw [hul]; simp only [hnet]
        rw [this]; exact hp
      · rw [hwn, hnet, hqd]
        omega⟩)
    (by rw [hn1]; exact hF) (by rw [hwn, hck]; exact he)
  have hr2 : NetReachable n2 := htr2.reachable (fun _ _ h => h.1) hr1
  rw [hwn] at hid heg hlsg hung hpay
  have hpw : ∀ j, paidWith j [⟨ut, k, d⟩] = if k = j then d else 0 := fun j => by simp [paidWith]
  have htp : totalPaid [⟨ut, k, d⟩] = d := by simp [totalPaid]
  obtain ⟨n3, hs3, heg3⟩ := hpay u [⟨ut, k, d⟩] (by rw [hid1]; exact hus)
    (fun p hp => by
      have : p = ⟨ut, k, d⟩ := by simpa using hp
      subst this
      exact ⟨by rw [hut]; exact hut', hd, _, hmat, hme⟩)
    (fun j => by
      rw [hpw]
      split
      · next hj => subst hj; rw [hpk]; omega
      · exact Nat.zero_le _)
  rw [htp] at heg3
  obtain ⟨_, w3, hw3, hn3⟩ := net_call.1 hs3
  have hwn3 : n3.w = w3 := by rw [hn3]
  obtain ⟨burned, x, hx, hxs, hbp, hbu, hbe, _, _, _, hoe, hon, hol⟩ := C11_withdraw_one_to_one (net_inv hr2).1 hw3
  have hdx : x = d := by rw [hwn3] at heg3; omega
  have hbk : ∀ j, burned j = if k = j then d else 0 := by
    have hz : ∀ j, j ≠ k → burned j = 0 := fun j hj => by
      have := hbp j
      rw [hpw, if_neg fun h => hj h.symm] at this
      omega
    have : burned k = d := by
      rw [← hdx]
      refine IsSum.unique ((isSum_single k (burned k)).congr fun j => ?_) hxs
      by_cases hj : j = k
      · subst hj; rw [if_pos rfl]
      · rw [if_neg fun h => hj h.symm, hz j hj]
    intro j
    by_cases hj : j = k
    · subst hj; rw [if_pos rfl, this]
    · rw [if_neg fun h => hj h.symm, hz j hj]
  have hus2 : u ≠ w1.self := by rw [hid1]; exact hus
  refine ⟨n3, (htr1.trans (htr2.mono fun _ _ h => .inl h)).trans (.snoc _ .nil (.inr (.inr ⟨_, rfl⟩)) hs3), ?_, ?_, ?_, fun j => ?_,
    fun a h2 h3 => ⟨?_, ?_, fun j => ?_⟩⟩
  · have : w3.epoch = n2.w.epoch := C64_only_its_parts (net_inv hr2).1 hw3 .clock (by simp [touched])
    rw [hwn3, this, hep]
    exact UInt64.le_refl _
  · rw [heg3, heg u hus2, hpe]; omega
  · rw [hwn3, hol, hlsg]; exact hls1
  · have hb1 := hbu j
    rw [hung, hbk] at hb1
    rw [hwn3]
    by_cases hj : k = j
    · subst hj; rw [if_pos rfl] at hb1; omega
    · rw [if_neg hj] at hb1
      have := hpo j fun h => hj h.symm
      omega
  · rw [hwn3, hoe a h2 (by rw [hid, hid1]; exact h3), heg a (by rw [hid1]; exact h3)]
    exact heo a h2 h3
  · rw [hwn3, hol, hlsg]; exact hlo a h2
  · rw [hwn3, hon j a h2, hung]; exact hno j a h2 h3

private theorem funded_of {n : Net} (h : ∀ p ∈ n.mocks.keys, (mockBooks n p).stake + (mockBooks n p).unbonding ≤ mockBalance n p) :
    Funded n := fun p => by
  by_cases hp : p ∈ n.mocks.keys
  · exact h p hp
  · unfold mockBooks
    rw [Map.get_of_notMem _ _ p hp]
    exact Nat.zero_le _

/-- Non-vacuity of `C70_queue_exit` and `C70_holder_exit`: 30 LS tokens, nothing pending, so that all of it is deferred and has to come
back from a mock. -/
example : NetReachable stakedNet ∧ stakedNet.msgs = [] ∧ stakedNet.w.st.state = .active ∧ stakedNet.w.st.lsToken = some 500 ∧
    stakedNet.w.st.unstakeToken ≠ none ∧ MayManage stakedNet.w 1 ∧ CanBatch stakedNet.w ∧ 11 ≠ stakedNet.w.self ∧
    E 30 ≤ lsOf stakedNet.w 11 ∧ oneEgld ≤ egldFor (supply stakedNet.w) (reserve stakedNet.w) (E 30) ∧
    FirstCanGive stakedNet.w (toUndelegate stakedNet.w + egldFor (supply stakedNet.w) (reserve stakedNet.w) (E 30)) ∧
    Funded stakedNet ∧ pendingEgld stakedNet.w = 0 ∧ stakedNet.w.epoch.toNat + 10 ≤ 90 ∧ stakedNet.w.epoch.toNat + stakedNet.w.st.unbondPeriod.toNat ≤ 90 :=
  ⟨netRun_reachable (.init fresh_isInit), by decide +kernel, by decide +kernel, by decide +kernel, by decide +kernel,
    ⟨by decide +kernel, by decide +kernel⟩, ⟨⟨ScoringConfig.default, by decide +kernel, by decide +kernel, by decide +kernel⟩,
      by decide +kernel, by decide +kernel⟩, by decide +kernel, by decide +kernel, by decide +kernel,
    ⟨21, by decide +kernel, by decide +kernel⟩, funded_of (by decide +kernel), by decide +kernel, by decide +kernel, by decide +kernel⟩

/-- **C70**, the converse: when every provider with stake holds more than the queue but less than two EGLD, no `unDelegatePending`, of any
amount by anybody, takes anything out of the queue, however much the providers hold together. -/
theorem C70_queue_stuck {w w' : World} {c : Addr} {o : Option Nat} (hr : Reachable w)
    (hp : ∀ p ∈ w.st.undelegList, netStake w p = 0 ∨ toUndelegate w < netStake w p ∧ netStake w p < 2 * oneEgld)
    (h : step w (.unDelegatePending c o) = .ok w') : toUndelegate w' = toUndelegate w ∧ w'.flights = w.flights := by
  obtain ⟨b, hfl, hv, hsum, hle, _, _, hall, _⟩ := C20_unDelegatePending_exact hr h
  cases b with
  | nil => exact ⟨hsum, by rw [hfl]; simp [undelegations]⟩
  | cons x b =>
    exfalso
    obtain ⟨p, a⟩ := x
    obtain ⟨hm, h1, h2, h3, _⟩ := hall p a (List.mem_cons_self ..)
    have ha : a + batchTotal b ≤ batchAsked (toUndelegate w) o := hle
    have hq := hv.2.1
    unfold Whole at h3
    have hone : 0 < oneEgld := MIN_EGLD_pos
    rcases hp p hm with h0 | ⟨h0, h4⟩
    · omega
    · rcases h3 with h3 | h3 <;> omega

/-- Two mocks with 1.5 EGLD each, and a redemption of 1.2 EGLD. -/
def stuckNet : Net := netRun ⟨fresh, [], []⟩ [
  .call (.registerLsToken 1 0), .call (.issued 0 (some 500)), .call (.registerUnstakeToken 1 0), .call (.issued 0 (some 501)),
  .call (.owner 1 .stateActive), .call (.setScoringConfig 1 ScoringConfig.default),
  .deploy 21, .deploy 22, .deposit 21 (E 100), .deposit 22 (E 100),
  .call (.whitelist 1 1500000000000000000 21 41 (E 1000) (E 1500) 10 800), .serve 0, .answer 0,
  .call (.whitelist 1 1500000000000000000 22 42 (E 1000) 0 20 900), .serve 0, .answer 0,
  .call (.unDelegate 1 0 [⟨500, 0, 1200000000000000000⟩])]

/-- **C70**: that the first provider can give what is asked is needed.  Two providers hold 3 EGLD together, 1.2 EGLD are redeemed, everything
else is as in `C70_holder_exit`; `unDelegatePending` is accepted and takes nothing. -/
theorem C70_first_needed : ∃ n : Net, NetReachable n ∧ n.msgs = [] ∧ n.w.st.state = .active ∧ MayManage n.w 1 ∧ CanBatch n.w ∧ Funded n ∧
    oneEgld ≤ toUndelegate n.w ∧ (∃ p, (withStake n.w).head? = some p ∧ toUndelegate n.w < netStake n.w p) ∧
    works n.w (.unDelegatePending 1 none) = true ∧
    ∀ c o w', step n.w (.unDelegatePending c o) = .ok w' → toUndelegate w' = toUndelegate n.w ∧ w'.flights = [] := by
  have hr : NetReachable stuckNet := netRun_reachable (.init fresh_isInit)
  refine ⟨stuckNet, hr, by decide +kernel, by decide +kernel, ⟨by decide +kernel, by decide +kernel⟩,
    ⟨⟨ScoringConfig.default, by decide +kernel, by decide +kernel, by decide +kernel⟩, by decide +kernel, by decide +kernel⟩,
    funded_of (by decide +kernel), by decide +kernel, ⟨21, by decide +kernel, by decide +kernel⟩, by decide +kernel, fun c o w' h => ?_⟩
  have := C70_queue_stuck (net_inv hr).1 (by decide +kernel) h
  rw [(by decide +kernel : stuckNet.w.flights = [])] at this
  exact this

end LS
