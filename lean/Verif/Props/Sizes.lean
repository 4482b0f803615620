import Verif.Props.Views
import Verif.Props.Accounting
import Verif.Props.Access
import Verif.Proofs.Records

/-! Everything the contract stores fits the type it is stored as: C102. -/

namespace LS
open Spec Demo Layout Abi Mapper Views

/-- Calls whose arguments are shorter than 2^32 bytes. -/
def Spec.ShortCall (c : Call) : Prop := ∀ b ∈ c.args, b.length < 2 ^ 32

/-- Worlds reached by deploying the contract, by calls in bytes, none of whose arguments has 2^32 bytes or more, and by what happens
outside. -/
inductive Spec.ByteReachable : World → Prop
  | deploy {self owner : Addr} {contracts : List Addr} {epoch : UInt64} {funds : Map Addr Nat} {c : Call} {w : World} :
    Abi.deploy self owner contracts epoch funds c = .ok w → ByteReachable w
  | call {w w' : World} {c : Call} : ByteReachable w → ShortCall c → Abi.call w c = .ok w' → ByteReachable w'
  | outside {w w' : World} {op : Op} : ByteReachable w → Outside op → step w op = .ok w' → ByteReachable w'

/-- All EGLD owed can be written as an amount: the reserve, the unstake tokens and the EGLD migrated, together, have fewer than 2^32
bytes. -/
def Spec.Owable (w : World) : Prop :=
  ∃ h, IsSum (userTokens w) h ∧ Short (reserve w + h + w.burntUnstake + w.migratedPending)

/-! ### Proofs -/

private theorem short_of_lt {n k : Nat} (h : n < 256 ^ k) : byteLen n ≤ k := by
  unfold byteLen
  split
  · exact Nat.zero_le _
  · next hn =>
    have h2 : n < 2 ^ (8 * k) := by rw [Nat.pow_mul]; exact h
    have := (Nat.log2_lt hn).2 h2
    omega

private theorem byteLen_mono {m n : Nat} (h : m ≤ n) : byteLen m ≤ byteLen n := by
  unfold byteLen
  split
  · exact Nat.zero_le _
  · next hm =>
    rw [if_neg (by omega)]
    have h1 : 2 ^ m.log2 ≤ n := Nat.le_trans (Nat.log2_self_le hm) h
    have : m.log2 ≤ n.log2 := (Nat.le_log2 (by omega)).2 h1
    omega

private theorem short_mono {m n : Nat} (h : m ≤ n) (hn : Short n) : Short m := Nat.lt_of_le_of_lt (byteLen_mono h) hn

private theorem value_lt : ∀ l : Bytes, beVal l < 256 ^ l.length := by
  intro l
  induction l using List.reverseRecOn with
  | nil => decide
  | append_singleton l x ih =>
    have : beVal (l ++ [x]) = beVal l * 256 + x.toNat := by unfold beVal; rw [List.foldl_append]; rfl
    rw [this, List.length_append, List.length_singleton, Nat.pow_succ]
    have := x.toNat_lt
    omega

private theorem short_val {b : Bytes} (h : b.length < 2 ^ 32) : Short (beVal b) :=
  Nat.lt_of_le_of_lt (short_of_lt (value_lt b)) h

private theorem addr_fits {b : Bytes} (h : b.length = 32) : beVal b < 2 ^ 256 := by
  have := value_lt b
  rw [h] at this
  exact this

/-- What is known of the settings and of the declared parts of the records. -/
private structure SizedStore (st : Store) : Prop where
  accumulator : st.accumulator < 2 ^ 256
  migration : ∀ m, st.migrationSc = some m → m < 2 ^ 256
  addresses : st.maxDelegationAddresses < 2 ^ 32
  managers : ∀ a ∈ st.managers, a < 2 ^ 256
  records : ∀ a d, st.data.get none a = some d → a < 2 ^ 256 ∧ d.admin < 2 ^ 256 ∧ Short d.totalStaked ∧ Short d.cap

/-- What an operation brings along. -/
private def Brings : Op → Prop
  | .whitelist _ _ p a t cap _ _ => p < 2 ^ 256 ∧ a < 2 ^ 256 ∧ Short t ∧ Short cap
  | .changeAdmin _ _ a => a < 2 ^ 256
  | .changeParams _ _ t cap _ _ _ => Short t ∧ Short cap
  | .owner _ (.accumulator a) => a < 2 ^ 256
  | .owner _ (.addManagers l) => ∀ a ∈ l, a < 2 ^ 256
  | .owner _ (.maxAddresses n) => n < 2 ^ 32
  | .setMigrationSc _ a => a < 2 ^ 256
  | _ => True

private theorem brings_outside {op : Op} (h : Outside op) : Brings op := by
  cases op <;> first | trivial | exact absurd h id

private theorem brings_means {c : Call} {op : Op} (h : Means c op) (hs : ShortCall c) : Brings op := by
  cases h
  case setAccumulator h => exact addr_fits h
  case setMaxAddresses h => exact h
  case addManagers bs _ h =>
    intro a ha
    obtain ⟨b, hb, rfl⟩ := List.mem_map.1 ha
    exact addr_fits (h b hb)
  case setMigrationSc h => exact addr_fits h
  case whitelist hp ha _ _ =>
    exact ⟨addr_fits hp, addr_fits ha, short_val (hs _ (by simp)), short_val (hs _ (by simp))⟩
  case changeAdmin ha => exact addr_fits ha
  case changeParams => exact ⟨short_val (hs _ (by simp)), short_val (hs _ (by simp))⟩
  all_goals trivial

private theorem fine_step {w w' : World} {op : Op} (hr : Reachable w) (hf : SizedStore w.st) (hb : Brings op) (hs : step w op = .ok w') :
    SizedStore w'.st := by
  obtain ⟨_, h2, _, _, h5, _, _, h8, h9, _⟩ := C27_configuration hr hs
  refine ⟨?_, ?_, ?_, ?_, fun a d hd => ?_⟩
  · rcases h2 with h | h
    · rw [h]; exact hf.accumulator
    · rw [h] at hb; exact hb
  · rcases h9 with h | ⟨a, h, h'⟩
    · rw [h]; exact hf.migration
    · intro m hm
      rw [h'] at hm
      cases hm
      rw [h] at hb; exact hb
  · rcases h5 with h | h
    · rw [h]; exact hf.addresses
    · rw [h] at hb; exact hb
  · rcases h8 with h | ⟨l, h, h'⟩ | ⟨m, h, h'⟩
    · rw [h]; exact hf.managers
    · intro a ha
      rw [h] at hb
      rcases (h' a).1 ha with h1 | h1
      · exact hf.managers a h1
      · exact hb a h1
    · intro a ha
      exact hf.managers a ((h' a).1 ha).1
  · have hp := pstep a (reachable_regInv hr) hs
    have hrec := hf.records a
    rw [hd] at hp
    generalize w.st.data.get none a = o at hp hrec
    cases hp with
    | same => exact hrec d rfl
    | added c v ad ts cap n apy hop => subst hop; exact hb
    | admin x c y hop =>
      subst hop
      obtain ⟨e1, _, e2⟩ := hrec x rfl
      exact ⟨e1, hb, e2⟩
    | params x c ts cap n apy e hop =>
      subst hop
      obtain ⟨e1, e2, _⟩ := hrec x rfl
      exact ⟨e1, e2, hb⟩
    | _ => have := hrec _ rfl; exact this

private theorem byte_fine {w : World} (h : ByteReachable w) : Reachable w ∧ SizedStore w.st := by
  induction h with
  | @deploy _ _ _ _ _ _ w h =>
    obtain ⟨_, _, a, f, r, m, s, n, u, r', m', u', _, ha, _, _, hn, _, hi⟩ := C96_deploy.1 h
    refine ⟨.init ⟨_, _, _, _, _, _, _, _, _, _, _, _, hi⟩, ?_⟩
    have he : w.st.accumulator = beVal a ∧ w.st.migrationSc = none ∧ w.st.maxDelegationAddresses = beVal n ∧ w.st.managers = [] ∧
        w.st.data = [] := by
      simp only [initWorld, bind_ok, req_ok, exists_const, Except.ok.injEq] at hi
      obtain ⟨_, _, rfl⟩ := hi
      exact ⟨rfl, rfl, rfl, rfl, rfl⟩
    obtain ⟨i1, i2, i3, i4, i5⟩ := he
    refine ⟨by rw [i1]; exact addr_fits ha, ?_, by rw [i3]; exact hn, ?_, ?_⟩
    · rw [i2]; intro _ h; cases h
    · rw [i4]; intro _ h; cases h
    · rw [i5]; intro _ _ h; cases h
  | call _ hsc hc ih =>
    rcases C96_call.1 hc with ⟨_, rfl⟩ | ⟨op, hm, hs⟩
    · exact ih
    · exact ⟨.step op ih.1 hs, fine_step ih.1 ih.2 (brings_means hm hsc) hs⟩
  | outside _ ho hs ih => exact ⟨.step _ ih.1 hs, fine_step ih.1 ih.2 (brings_outside ho) hs⟩

/-- **C102.** In every world reached by bytes everything in storage fits its type: addresses have 32 bytes, the limit of the list four,
token numbers eight, and the amounts of a record can be written with their length in four bytes. -/
theorem C102_fits {w : World} (h : ByteReachable w) (hp : Owable w) (hn : w.lastNonce < 2 ^ 64) : Sizes w.st := by
  obtain ⟨hr, hf⟩ := byte_fine h
  have hreg : RegOk w.st.lsToken w.st.unstakeToken w.st.delegList w.st.undelegList w.st.data w.flights w.dead := reachable_regInv hr
  obtain ⟨t, ht, hshort⟩ := hp
  obtain ⟨u, t', hu, ht', h7⟩ := C07_unstake_tokens_covered hr
  cases ht'.unique ht
  obtain ⟨s, hs, h8⟩ := C08_reserve_backed hr
  have hps := isSum_figure w (·.pStake)
  have hpu := isSum_figure w (·.pUnstake)
  have e1 := pStake_total (reachable_regInv hr)
  have e2 := pUnstake_total (reachable_regInv hr)
  have fits : ∀ {g : ProviderData → Nat} {x : Nat}, IsSum (figure g w) x →
      x ≤ reserve w + t + w.burntUnstake + w.migratedPending → ∀ a d, w.st.data.get none a = some d → Short (g d) := by
    intro g x hx hle a d hd
    have := hx.le a
    have hg : figure g w a = g d := by
      unfold figure
      rw [show provider w a = some d from hd]
    rw [hg] at this
    exact short_mono (Nat.le_trans this hle) hshort
  refine ⟨⟨hf.accumulator, hf.migration, fun a d hd => ?_⟩, hf.addresses, fun e => ?_, ?_⟩
  · obtain ⟨d1, d2, d3, d4⟩ := hf.records a d hd
    refine ⟨d1, d2, d3, d4, fits hs (by omega) a d hd, fits hu (by omega) a d hd, fits hps ?_ a d hd, fits hpu ?_ a d hd⟩
    · show (acct w).pStake ≤ _
      omega
    · show (acct w).pUnstake ≤ _
      omega
  · have hnft : NftOk w.self w.epoch w.nft w.attrs w.lastNonce w.st.unstakeNonce := reachable_nftInv hr
    by_cases h0 : w.st.unstakeNonce.get 0 e = 0
    · omega
    · obtain ⟨x, hx, _⟩ := hnft.reg e h0
      rcases Nat.lt_or_ge w.lastNonce (w.st.unstakeNonce.get 0 e) with hlt | hge
      · rw [hnft.attr0 _ (.inr hlt)] at hx; cases hx
      · omega
  · have hd : ∀ a ∈ w.st.delegList, a < 2 ^ 256 := by
      intro a ha
      obtain ⟨d, hd⟩ := Option.ne_none_iff_exists'.1 (hreg.recd a ha)
      exact (hf.records a d hd).1
    rintro a (ha | ha | ha)
    · exact hd a ha
    · exact hd a ((hreg.same a).2 ha)
    · exact hf.managers a ha

/-- **C102**, the views: in every world reached by bytes, with fewer than 2^32 providers and managers, there are bytes of storage holding
what the contract keeps, and whatever bytes hold it, a view answers exactly what is kept. -/
theorem C102_views {w : World} (h : ByteReachable w) (hp : Owable w) (hn : w.lastNonce < 2 ^ 64)
    (hl : w.st.delegList.length < 2 ^ 32) (hm : w.st.managers.length < 2 ^ 32) :
    (∃ s, Keeps s w.st) ∧ ∀ s, Keeps s w.st → ∀ (c : Call) (out : List Bytes),
      c.fn ≠ ascii "getLsTokenId".toList → c.fn ≠ ascii "getUnstakeTokenId".toList →
      (view s c = some out ↔ c.egld = 0 ∧ c.esdt = [] ∧ ∃ n : String, c.fn = ascii n.toList ∧ Shows w.st n c.args out) := by
  have hr := (byte_fine h).1
  have hreg : RegOk w.st.lsToken w.st.unstakeToken w.st.delegList w.st.undelegList w.st.data w.flights w.dead := reachable_regInv hr
  have hlen : w.st.undelegList.length = w.st.delegList.length :=
    ((List.perm_ext_iff_of_nodup hreg.nd2 hreg.nd1).2 fun a => (hreg.same a).symm).length_eq
  exact ⟨C99_kept hreg.nd1 hreg.nd2 (reachable_managers hr) hl (by omega) hm,
    fun s hk c out h1 h2 => C99_views hk (C102_fits h hp hn) ⟨h1, h2⟩⟩

/-- **C102**, storage: in worlds reached by bytes the same bytes of storage mean the same figures, settings, records and numbers. -/
theorem C102_determined {w w' : World} (h : ByteReachable w) (h' : ByteReachable w') (hp : Owable w) (hp' : Owable w')
    (hn : w.lastNonce < 2 ^ 64) (hn' : w'.lastNonce < 2 ^ 64) {s : Stored} (hk : Keeps s w.st) (hk' : Keeps s w'.st) :
    w.st.r = w'.st.r ∧ (∀ a, provider w a = provider w' a) ∧ w.st.delegList = w'.st.delegList ∧
      w.st.undelegList = w'.st.undelegList ∧ w.st.managers = w'.st.managers := by
  obtain ⟨_, h1, _, _, _, _, _, _, _, _, _, h2, _, h3, h4, h5⟩ :=
    C99_whole hk hk' (C102_fits h hp hn) (C102_fits h' hp' hn') fun _ _ _ => rfl
  exact ⟨h1, h2, h3, h4, h5⟩

/-! ### Examples -/

/-- An operation with the call in bytes that makes it; none for what happens outside. -/
private def byBytes : Op × Option Call → Bool
  | (.deliver _ _, none) | (.issued _ _, none) | (.advance _, none) => true
  | (_, none) => false
  | (op, some c) => decide (parse c = .ok (some op)) && c.args.all fun b => decide (b.length < 2 ^ 32)

private theorem byte_exec {w : World} (h : ByteReachable w) {x : Op × Option Call} (hx : byBytes x = true) :
    ByteReachable (exec w x.1) := by
  unfold exec
  cases hs : step w x.1 with
  | error _ => exact h
  | ok w' =>
    show ByteReachable w'
    obtain ⟨op, o⟩ := x
    cases o with
    | none => cases op <;> first | exact .outside h (by exact True.intro) hs | cases hx
    | some c =>
      have hx : (decide (parse c = .ok (some op)) && c.args.all fun b => decide (b.length < 2 ^ 32)) = true := by
        cases op <;> exact hx
      simp only [Bool.and_eq_true, decide_eq_true_eq, List.all_eq_true] at hx
      exact .call h hx.2 (C96_call.2 (.inr ⟨op, C96_meaning.1 hx.1, hs⟩))

private theorem byte_run {w : World} (h : ByteReachable w) : ∀ {l : List (Op × Option Call)}, (∀ x ∈ l, byBytes x = true) →
    ByteReachable (run w (l.map (·.1))) := by
  intro l
  induction l generalizing w with
  | nil => exact fun _ => h
  | cons x l ih => exact fun hl => ih (byte_exec h (hl x List.mem_cons_self)) fun y hy => hl y (List.mem_cons_of_mem _ hy)

private def say (c : Addr) (n : String) (args : List Bytes) (v : Nat) (ps : List Payment) : Option Call :=
  some ⟨c, ascii n.toList, args, v, ps, true⟩

/-- The history of the demonstrations, in bytes. -/
private def history : List (Op × Option Call) := [
  (.registerLsToken 1 0, say 1 "registerLsToken" [[88], [88], [18]] 0 []), (.issued 0 (some 500), none),
  (.registerUnstakeToken 1 0, say 1 "registerUnstakeToken" [[88], [88], [18]] 0 []), (.issued 0 (some 501), none),
  (.owner 1 .stateActive, say 1 "setStateActive" [] 0 []),
  (.setScoringConfig 1 ScoringConfig.default, say 1 "setScoringConfig" [encScoring ScoringConfig.default] 0 []),
  (.whitelist 1 (E 1) 21 41 (E 1000) (E 1500) 10 800, say 1 "whitelistDelegationContract"
    [encAddr 21, encAddr 41, encTop (E 1000), encTop (E 1500), [10], [3, 32]] (E 1) []), (.deliver 0 (.ok 0 0), none),
  (.whitelist 1 (E 1) 22 42 (E 1000) 0 20 900, say 1 "whitelistDelegationContract"
    [encAddr 22, encAddr 42, encTop (E 1000), [], [20], [3, 132]] (E 1) []), (.deliver 0 (.ok 0 0), none),
  (.delegate 11 (E 100), say 11 "delegate" [] (E 100) []), (.delegate 12 (E 50), say 12 "delegate" [] (E 50) []),
  (.delegatePending 1 none, say 1 "delegatePending" [] 0 []), (.deliver 0 (.ok 0 0), none), (.deliver 0 (.ok 0 0), none),
  (.claimRewards 1, say 1 "claimRewards" [] 0 []), (.deliver 0 (.ok (E 7) (E 7)), none),
  (.delegatePending 1 none, say 1 "delegatePending" [] 0 []),
  (.deliver 0 (.ok 0 0), none), (.deliver 0 (.ok 0 0), none), (.advance 50, none),
  (.unDelegate 11 0 [⟨500, 0, E 40⟩], say 11 "unDelegate" [] 0 [⟨500, 0, E 40⟩])]

private theorem redeemed_bytes : ByteReachable redeemed := by
  have h0 : ByteReachable fresh :=
    .deploy (self := 1000) (owner := 1) (contracts := [2, 3]) (epoch := 0)
      (funds := [(1, E 1000), (3, E 1000), (11, E 1000), (12, E 1000), (13, E 1000)])
      (c := ⟨1, [], [encAddr 2, [1, 144], [56, 64], [5, 120], [25], [0, 100], [10]], 0, [], true⟩)
      (C96_deploy.2 ⟨rfl, rfl, encAddr 2, [1, 144], [56, 64], [5, 120], [25], [0, 100], [10], 14400, 1400, 10, rfl,
        by decide +kernel, by decide +kernel, by decide +kernel, by decide +kernel, by decide +kernel, by decide +kernel⟩)
  have h1 := byte_run h0 (l := history) (List.all_eq_true.1 (by decide +kernel))
  have e : run fresh (history.map (·.1)) = redeemed := by decide +kernel
  rw [← e]
  exact h1

private theorem redeemed_payable : Owable redeemed :=
  ⟨_, isSum_userNft redeemed, by unfold Short; decide +kernel⟩

/-- A world reached by bytes, with two providers, a redemption and amounts of all kinds. -/
example : ByteReachable redeemed ∧ Owable redeemed ∧ redeemed.lastNonce < 2 ^ 64 ∧ Sizes redeemed.st ∧
    redeemed.st.delegList.length = 2 ∧ redeemed.st.managers.length < 2 ^ 32 ∧ 0 < figure (·.staked) redeemed 21 ∧ redeemed.lastNonce = 1 :=
  ⟨redeemed_bytes, redeemed_payable, by decide +kernel, C102_fits redeemed_bytes redeemed_payable (by decide +kernel),
    by decide +kernel, by decide +kernel, by decide +kernel, by decide +kernel⟩

end LS
