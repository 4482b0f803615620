import Verif.Model.Wire
import Verif.Props.Interface
import Verif.Proofs.Network
import Verif.Proofs.Lists

/-! Requests, answers and callbacks in bytes: C98. -/

namespace LS
open Spec Layout Abi Wire Demo

/-- All addresses of a promise have 32 bytes. -/
def Spec.Addressed : Flight → Prop
  | .delegate p _ | .undelegate p _ | .withdraw p => IsAddr p
  | .claim ps => ∀ p ∈ ps, IsAddr p
  | .whitelist p _ u => IsAddr p ∧ IsAddr u

/-- The answer in bytes: claims return their total, the others nothing. -/
def Spec.InBytes : Flight → Outcome → Reply
  | .claim _, .ok g r => .done [encTop r] g
  | _, .ok g _ => .done [] g
  | _, .err => .fail

private theorem wAddr {a : Addr} (h : IsAddr a) : Ty.dec .addr (encAddr a) = some (.addr a) := by
  show (if (encAddr a).length = 32 then some (Val.addr (beVal (encAddr a))) else none) = _
  rw [if_pos (show (encAddr a).length = 32 from beFixed_length 32 a), show beVal (encAddr a) = a from beVal_beFixed 32 a (show a < 256 ^ 32 from h)]

private theorem wNum (n : Nat) : Ty.dec .big (encTop n) = some (.nat n) := by
  show some (Val.nat (beVal (encTop n))) = _
  rw [(C83_numbers n).1]

private theorem acc0 {p : Pay} {v : Nat} (hp : p = .egld ∨ v = 0) : accepts ⟨p, [], .none⟩ [] v = some [] := by
  rcases hp with rfl | rfl
  · rfl
  · cases p <;> rfl

private theorem acc1 {t : Ty} {b : Bytes} {x : Val} (h : t.dec b = some x) : accepts ⟨.none, [t], .none⟩ [b] 0 = some [x] := by
  simp [accepts, Sig.check, Sig.payOk, Sig.types, allSome, h, Except.toOption]

private theorem acc2 {t t' : Ty} {b b' : Bytes} {x x' : Val} (h : t.dec b = some x) (h' : t'.dec b' = some x') :
    accepts ⟨.none, [t, t'], .none⟩ [b, b'] 0 = some [x, x'] := by
  simp [accepts, Sig.check, Sig.payOk, Sig.types, allSome, h, h', Except.toOption]

private theorem acc3 {t t' t'' : Ty} {b b' b'' : Bytes} {x x' x'' : Val} (h : t.dec b = some x) (h' : t'.dec b' = some x')
    (h'' : t''.dec b'' = some x'') : accepts ⟨.none, [t, t', t''], .none⟩ [b, b', b''] 0 = some [x, x', x''] := by
  simp [accepts, Sig.check, Sig.payOk, Sig.types, allSome, h, h', h'', Except.toOption]

private theorem zipAddrs : ∀ {ps : List Addr}, (∀ p ∈ ps, IsAddr p) →
    allSome (List.zipWith Ty.dec (List.replicate ps.length .addr) (ps.map encAddr)) = some (ps.map .addr)
  | [], _ => rfl
  | p :: ps, h => by
    have ih := zipAddrs fun q hq => h q (List.mem_cons_of_mem _ hq)
    simp [List.replicate_succ, allSome, wAddr (h p List.mem_cons_self), ih]

private theorem addrsOf : ∀ ps : List Addr, addrs (ps.map .addr) = some ps
  | [] => rfl
  | p :: ps => by simp [addrs, addrsOf ps]

private theorem accAddrs {ps : List Addr} (h : ∀ p ∈ ps, IsAddr p) :
    (accepts ⟨.none, [], .many .addr⟩ (ps.map encAddr) 0).bind addrs = some ps := by
  have : accepts ⟨.none, [], .many .addr⟩ (ps.map encAddr) 0 = some (ps.map .addr) := by
    have hz := zipAddrs h
    simp [accepts, Sig.check, Sig.payOk, Sig.types, hz, Except.toOption]
  rw [this]; exact addrsOf ps

private theorem mock_delegate (now : UInt64) (m : Mock) (a : Nat) :
    mockCall now m (ascii "delegate".toList) [] a = some (m.delegate a, 0, []) := by
  unfold mockCall
  rw [if_pos rfl, acc0 (.inl rfl)]

private theorem mock_unDelegate (now : UInt64) (m : Mock) (a : Nat) :
    mockCall now m (ascii "unDelegate".toList) [encTop a] 0 =
      match m.unDelegate now a with | .ok m' => some (m', 0, []) | .error _ => none := by
  unfold mockCall
  rw [if_neg (by decide +kernel), if_pos rfl, acc1 (wNum a)] <;> rfl

private theorem mock_withdraw (now : UInt64) (m : Mock) :
    mockCall now m (ascii "withdraw".toList) [] 0 =
      match m.withdraw now with | .ok (m', v) => some (m', v, []) | .error _ => none := by
  unfold mockCall
  rw [if_neg (by decide +kernel), if_neg (by decide +kernel), if_pos rfl, acc0 (.inr rfl)] <;> rfl

private theorem mock_claim (now : UInt64) (m : Mock) :
    mockCall now m (ascii "claimRewards".toList) [] 0 =
      match m.claimRewards now with | .ok (m', v) => some (m', v, [encTop v]) | .error _ => none := by
  unfold mockCall
  rw [if_neg (by decide +kernel), if_neg (by decide +kernel), if_neg (by decide +kernel), if_pos rfl, acc0 (.inr rfl)] <;> rfl

private theorem loop_eq (now : UInt64) : ∀ (ps : List Addr) (ms : Mocks), claimLoop now ps ms = (claimMulti now ps ms).toOption
  | [], ms => rfl
  | p :: ps, ms => by
    unfold claimLoop claimMulti
    cases hm : ms.get none p with
    | none => rfl
    | some m =>
      dsimp only
      rw [mock_claim]
      cases hc : m.claimRewards now with
      | error e => rfl
      | ok x =>
        obtain ⟨m', v⟩ := x
        dsimp only
        rw [loop_eq now ps]
        cases hl : claimMulti now ps (ms.set p (some m')) with
        | error e => simp [hl, bind, Except.bind, Except.toOption]
        | ok y => simp [hl, bind, Except.bind, Except.toOption]

/-- **C98**, requests: whatever state the staking contracts are in, each reads the request it gets as the one that was meant, does what the
model of the network says, and its answer in bytes is the one said there. -/
theorem C98_served (now : UInt64) {ms : Mocks} {f : Flight} (hf : Addressed f) (hm : ms.get none DELEGATION_MANAGER = none) :
    Wire.serve now ms (encode f) = (InBytes f (respond now ms f).1, (respond now ms f).2) := by
  have none_at {p : Addr} {fn : Bytes} {args : List Bytes} {v : Nat} {g : UInt64} {cb : Bytes} {cl : List Bytes} {gc : UInt64}
      (hp : p = DELEGATION_MANAGER) (hn : fn ≠ ascii "claimMulti".toList) :
      Wire.serve now ms ⟨p, fn, args, v, g, cb, cl, gc⟩ = (.fail, ms) := by
    unfold Wire.serve managerCall
    rw [if_pos hp, if_neg hn]
  have some_at {p : Addr} {fn : Bytes} {args : List Bytes} {v : Nat} {g : UInt64} {cb : Bytes} {cl : List Bytes} {gc : UInt64}
      (hp : p ≠ DELEGATION_MANAGER) : Wire.serve now ms ⟨p, fn, args, v, g, cb, cl, gc⟩ =
      match ms.get none p with
      | none => (.fail, ms)
      | some k =>
        match mockCall now k fn args v with
        | some (k', x, data) => (.done data x, ms.set p (some k'))
        | none => (.fail, ms) := by
    unfold Wire.serve
    rw [if_neg hp] <;> rfl
  have at_manager {p : Addr} {F : Mock → Res (Mock × Nat)} (hp : p = DELEGATION_MANAGER) : onMock ms p F = (.err, ms) := by
    unfold onMock; rw [hp, hm]
  cases f with
  | delegate p a =>
    unfold encode respond
    dsimp only
    by_cases hp : p = DELEGATION_MANAGER
    · rw [none_at hp (by decide +kernel), at_manager hp]; rfl
    · rw [some_at hp]; unfold onMock
      cases ms.get none p with
      | none => rfl
      | some m => dsimp only; rw [mock_delegate]; rfl
  | whitelist p a u =>
    unfold encode respond
    dsimp only
    by_cases hp : p = DELEGATION_MANAGER
    · rw [none_at hp (by decide +kernel), at_manager hp]; rfl
    · rw [some_at hp]; unfold onMock
      cases ms.get none p with
      | none => rfl
      | some m => dsimp only; rw [mock_delegate]; rfl
  | undelegate p a =>
    unfold encode respond
    dsimp only
    by_cases hp : p = DELEGATION_MANAGER
    · rw [none_at hp (by decide +kernel), at_manager hp]; rfl
    · rw [some_at hp]; unfold onMock
      cases ms.get none p with
      | none => rfl
      | some m => dsimp only; rw [mock_unDelegate]; cases m.unDelegate now a <;> rfl
  | withdraw p =>
    unfold encode respond
    dsimp only
    by_cases hp : p = DELEGATION_MANAGER
    · rw [none_at hp (by decide +kernel), at_manager hp]; rfl
    · rw [some_at hp]; unfold onMock
      cases ms.get none p with
      | none => rfl
      | some m => dsimp only; rw [mock_withdraw]; cases m.withdraw now <;> rfl
  | claim ps =>
    unfold encode respond Wire.serve managerCall
    dsimp only
    rw [if_pos rfl, if_pos rfl, accAddrs hf]
    dsimp only
    rw [loop_eq]
    cases claimMulti now ps ms <;> rfl

/-- **C98**, callbacks: from the bytes in its closure and the bytes of the answer a callback does what the model's callback does with the
promise and the outcome. -/
theorem C98_callback (w : World) {f : Flight} (hf : Addressed f) (o : Outcome) :
    Wire.callback w (encode f).cb (encode f).closure (InBytes f o) (Wire.value (encode f) (InBytes f o)) = runCallback w f o ∧
      Wire.value (encode f) (InBytes f o) = attached f o := by
  cases f with
  | delegate p a =>
    refine ⟨?_, by cases o <;> rfl⟩
    unfold encode Wire.callback
    dsimp only
    rw [if_neg (by decide +kernel), if_pos rfl, acc2 (wAddr hf) (wNum a)]
    cases o <;> rfl
  | undelegate p a =>
    refine ⟨?_, by cases o <;> rfl⟩
    unfold encode Wire.callback
    dsimp only
    rw [if_pos rfl, acc2 (wAddr hf) (wNum a)]
    cases o <;> rfl
  | withdraw p =>
    refine ⟨?_, by cases o <;> rfl⟩
    unfold encode Wire.callback
    dsimp only
    rw [if_neg (by decide +kernel), if_neg (by decide +kernel), if_pos rfl, acc1 (wAddr hf)]
    cases o <;> rfl
  | claim ps =>
    refine ⟨?_, by cases o <;> rfl⟩
    unfold encode Wire.callback
    dsimp only
    rw [if_neg (by decide +kernel), if_neg (by decide +kernel), if_neg (by decide +kernel), if_pos rfl, acc0 (.inr rfl)]
    cases o with
    | err => rfl
    | ok g r =>
      show claimRewardsCb w (some (beVal (encTop r))) = claimRewardsCb w (some r)
      rw [(C83_numbers r).1]
  | whitelist p a u =>
    refine ⟨?_, by cases o <;> rfl⟩
    unfold encode Wire.callback
    dsimp only
    rw [if_neg (by decide +kernel), if_neg (by decide +kernel), if_neg (by decide +kernel), if_neg (by decide +kernel), if_pos rfl,
      acc3 (wAddr hf.1) (wNum a) (wAddr hf.2)]
    cases o <;> rfl


private theorem wAddr_inj {a b : Addr} (ha : IsAddr a) (hb : IsAddr b) (h : encAddr a = encAddr b) : a = b := by
  have := congrArg (Ty.dec .addr) h
  rw [wAddr ha, wAddr hb] at this
  cases this; rfl

private theorem wNum_inj {a b : Nat} (h : encTop a = encTop b) : a = b := by
  have := congrArg beVal h
  rwa [(C83_numbers a).1, (C83_numbers b).1] at this

private theorem wAddrs_inj : ∀ {l l' : List Addr}, (∀ p ∈ l, IsAddr p) → (∀ p ∈ l', IsAddr p) → l.map encAddr = l'.map encAddr → l = l'
  | [], [], _, _, _ => rfl
  | [], _ :: _, _, _, h => by cases h
  | _ :: _, [], _, _, h => by cases h
  | a :: l, b :: l', h1, h2, h => by
    simp only [List.map_cons, List.cons.injEq] at h
    rw [wAddr_inj (h1 a List.mem_cons_self) (h2 b List.mem_cons_self) h.1,
      wAddrs_inj (fun p hp => h1 p (List.mem_cons_of_mem _ hp)) (fun p hp => h2 p (List.mem_cons_of_mem _ hp)) h.2]

/-- **C98**, nothing is lost on the way: different promises are different messages. -/
theorem C98_lossless {f g : Flight} (hf : Addressed f) (hg : Addressed g) (h : encode f = encode g) : f = g := by
  have hcb : (encode f).cb = (encode g).cb := by rw [h]
  have hcl : (encode f).closure = (encode g).closure := by rw [h]
  have har : (encode f).args = (encode g).args := by rw [h]
  have hd : (encode f).dest = (encode g).dest := by rw [h]
  have he : (encode f).egld = (encode g).egld := by rw [h]
  cases f <;> cases g <;> dsimp only [encode] at hcb hcl har hd he <;> first
    | exact absurd hcb (by decide +kernel)
    | skip
  · cases hd; cases he; rfl
  · cases hd; rw [wNum_inj (List.cons.inj har).1]
  · cases hd; rfl
  · rw [wAddrs_inj hf hg har]
  · cases hd; cases he
    simp only [List.cons.injEq] at hcl
    rw [wAddr_inj hf.2 hg.2 hcl.2.2.1]

/-- **C98**, gas: a promise gets 12 million, a claim 2.5 million for each of its addresses; callbacks get 6 million, that of a
whitelisting 20 million. -/
theorem C98_gas (f : Flight) : ((encode f).gas.toNat = match f with
      | .claim ps => 2500000 * ps.length % 2 ^ 64
      | _ => 12000000) ∧
    (encode f).cbGas.toNat = match f with
      | .whitelist .. => 20000000
      | _ => 6000000 := by
  cases f with
  | claim ps =>
    refine ⟨?_, rfl⟩
    show (GAS_CLAIM * ps.length.toUInt64).toNat = _
    rw [UInt64.toNat_mul]
    show 2500000 * (ps.length % 2 ^ 64) % 2 ^ 64 = 2500000 * ps.length % 2 ^ 64
    rw [Nat.mul_mod_mod]
  | _ => exact ⟨rfl, rfl⟩

/-- The addresses stored and under way have 32 bytes. -/
private def Known (w : World) : Prop := (∀ p ∈ w.st.delegList, IsAddr p) ∧ ∀ f ∈ w.flights, Addressed f

/-- The addresses of an operation that get into promises have 32 bytes. -/
private def Names : Op → Prop
  | .whitelist c _ p _ _ _ _ _ => IsAddr p ∧ IsAddr c
  | .withdrawPending _ p => IsAddr p
  | _ => True

private theorem known_step {w w' : World} {op : Op} (hr : Reachable w) (h : Known w) (hn : Names op) (hs : step w op = .ok w') :
    Known w' := by
  have hR := reachable_regInv hr
  have hR' := reachable_regInv (Reachable.step op hr hs)
  have h1 : ∀ p ∈ w'.st.delegList, IsAddr p := by
    intro p hp
    cases lstep hR hs with
    | same hl => exact h.1 p ((hl p).1 hp)
    | joined i g r q x u _ hf _ hl =>
      rw [hl, mem_setInsert] at hp
      rcases hp with hp | rfl
      · exact h.1 p hp
      · exact (h.2 _ (List.mem_of_getElem? hf)).1
  refine ⟨h1, fun f hf => ?_⟩
  have hF := fstep hR hs
  cases f with
  | delegate p a => exact h1 p (hR'.flt p a (.inl hf))
  | undelegate p a => exact h1 p (hR'.flt p a (.inr hf))
  | withdraw p =>
    generalize hl : w'.flights = l at hF hf
    generalize w'.dead = dd at hF
    cases hF with
    | same => exact h.2 _ hf
    | delegated c o sels _ _ | undelegated c o sels _ _ =>
      rcases List.mem_append.1 hf with hf | hf
      · exact h.2 _ hf
      · obtain ⟨s, _, hs⟩ := List.mem_map.1 hf; cases hs
    | withdrawn c q hop =>
      subst hop
      rcases List.mem_append.1 hf with hf | hf
      · exact h.2 _ hf
      · cases List.mem_singleton.1 hf; exact hn
    | claimed c _ | whitelisted c v q ad ts cap n apy _ _ _ =>
      rcases List.mem_append.1 hf with hf | hf
      · exact h.2 _ hf
      · cases List.mem_singleton.1 hf
    | settled | died | starved => exact h.2 _ (List.mem_of_mem_eraseIdx hf)
  | claim ps =>
    generalize hl : w'.flights = l at hF hf
    generalize w'.dead = dd at hF
    cases hF with
    | same => exact h.2 _ hf
    | delegated c o sels _ _ | undelegated c o sels _ _ =>
      rcases List.mem_append.1 hf with hf | hf
      · exact h.2 _ hf
      · obtain ⟨s, _, hs⟩ := List.mem_map.1 hf; cases hs
    | claimed c _ =>
      rcases List.mem_append.1 hf with hf | hf
      · exact h.2 _ hf
      · cases List.mem_singleton.1 hf; exact h.1
    | withdrawn c q _ | whitelisted c v q ad ts cap n apy _ _ _ =>
      rcases List.mem_append.1 hf with hf | hf
      · exact h.2 _ hf
      · cases List.mem_singleton.1 hf
    | settled | died | starved => exact h.2 _ (List.mem_of_mem_eraseIdx hf)
  | whitelist p a u =>
    generalize hl : w'.flights = l at hF hf
    generalize w'.dead = dd at hF
    cases hF with
    | same => exact h.2 _ hf
    | delegated c o sels _ _ | undelegated c o sels _ _ =>
      rcases List.mem_append.1 hf with hf | hf
      · exact h.2 _ hf
      · obtain ⟨s, _, hs⟩ := List.mem_map.1 hf; cases hs
    | whitelisted c v q ad ts cap n apy hop _ _ =>
      subst hop
      rcases List.mem_append.1 hf with hf | hf
      · exact h.2 _ hf
      · cases List.mem_singleton.1 hf; exact hn
    | withdrawn c q _ | claimed c _ =>
      rcases List.mem_append.1 hf with hf | hf
      · exact h.2 _ hf
      · cases List.mem_singleton.1 hf
    | settled | died | starved => exact h.2 _ (List.mem_of_mem_eraseIdx hf)

private theorem wDeliver {w : World} {i : Nat} {f : Flight} {o : Outcome} (hi : w.flights[i]? = some f) (hf : Addressed f) (g : Bool) :
    Wire.deliver w i (encode f) (InBytes f o) g = step w (if g then .deliver i o else .starve i o) := by
  have hc := fun w => C98_callback w hf o
  unfold Wire.deliver
  rw [hi]
  dsimp only
  cases g with
  | true =>
    rw [if_pos rfl, if_pos rfl, (hc _).1, (hc w).2]
    show _ = LS.deliver w i o
    unfold LS.deliver
    rw [hi]
    rfl
  | false =>
    rw [if_neg (by decide), if_neg (by decide), (hc w).2]
    show _ = LS.starve w i o
    unfold LS.starve
    rw [hi]
    rfl

/-- The two pictures of the same network: everything in bytes, and in the terms of the model. -/
def Spec.Pictures (n : Wires) (k : Net) : Prop :=
  n.w = k.w ∧ n.mocks = k.mocks ∧ n.msgs = k.msgs.map fun x => (encode x.1, x.2.map (InBytes x.1))

/-- The same step in the two pictures. -/
inductive Spec.SameStep : WireOp → NetOp → Prop
  | call {c : Call} {op : Op} : Means c op → SameStep (.call c) (.call op)
  | chain (op : Op) : SameStep (.chain op) (.call op)
  | deploy (p : Addr) : SameStep (.deploy p) (.deploy p)
  | deposit (p : Addr) (v : Nat) : SameStep (.deposit p v) (.deposit p v)
  | serve (i : Nat) : SameStep (.serve i) (.serve i)
  | answer (i : Nat) : SameStep (.answer i true) (.answer i)
  | lose (i : Nat) : SameStep (.answer i false) (.lose i)

/-- Steps that can be written in bytes: 32 bytes for every address, and no provider at the manager's address. -/
def Spec.Writable : NetOp → Prop
  | .call op => Sized op ∧ ∀ c, callerOf op = some c → IsAddr c
  | .deploy p => p ≠ DELEGATION_MANAGER
  | _ => True

private theorem wLt {b : Bytes} (h : b.length = 32) : IsAddr (beVal b) := by
  have : ∀ l : Bytes, beVal l < 256 ^ l.length := by
    intro l
    induction l using List.reverseRecOn with
    | nil => decide
    | append_singleton l x ih =>
      have h2 : beVal (l ++ [x]) = beVal l * 256 + x.toNat := by unfold beVal; rw [List.foldl_append]; rfl
      have hx : x.toNat < 256 := x.toNat_lt
      rw [h2, List.length_append, List.length_singleton, Nat.pow_succ]
      omega
  have := this b
  rw [h] at this
  exact this

private theorem names_means {c : Call} {op : Op} (h : Means c op) (hc : IsAddr c.caller) : Names op := by
  cases h <;> first
    | exact trivial
    | exact wLt ‹_›
    | exact ⟨wLt ‹_›, hc⟩

private theorem names_chain {op : Op} (h : wireStep.parseable op = false) : Names op ∧ isDeliver op = false := by
  cases op <;> first
    | exact ⟨trivial, rfl⟩
    | cases h

private theorem means_calls {c : Call} {op : Op} (h : Means c op) : isDeliver op = false := by
  cases h <;> rfl

private theorem means_lower {c : Call} {op : Op} (h : Means c op) :
    ∃ c', Means c' op ∧ (callerOf op = some c'.caller ∨ c'.caller = 0) := by
  cases h with
  | lsValue c b k => exact ⟨_, .lsValue 0 b k, .inr rfl⟩
  | egldPosition c b k => exact ⟨_, .egldPosition 0 b k, .inr rfl⟩
  | _ => exact ⟨_, by constructor <;> assumption, .inl rfl⟩

private theorem onMock_none {ms : Mocks} {p q : Addr} {F : Mock → Res (Mock × Nat)} (h : ms.get none q = none) :
    (onMock ms p F).2.get none q = none := by
  unfold onMock
  cases hm : ms.get none p with
  | none => exact h
  | some m =>
    dsimp only
    cases F m with
    | error e => exact h
    | ok x =>
      dsimp only
      rw [Map.get_set_other _ _ _ (fun he : p = q => by rw [he, h] at hm; cases hm)]
      exact h

private theorem claims_none (now : UInt64) {q : Addr} : ∀ {ps : List Addr} {ms ms' : Mocks} {t : Nat},
    claimMulti now ps ms = .ok (ms', t) → ms.get none q = none → ms'.get none q = none
  | [], ms, ms', t, hc, h => by cases hc; exact h
  | p :: ps, ms, ms', t, hc, h => by
    unfold claimMulti at hc
    cases hm : ms.get none p with
    | none => rw [hm] at hc; cases hc
    | some m =>
      rw [hm] at hc
      simp only [bind_ok, Prod.exists, Except.ok.injEq, Prod.mk.injEq] at hc
      obtain ⟨m', r, _, ms1, t1, h1, rfl, _⟩ := hc
      refine claims_none now h1 ?_
      rw [Map.get_set_other _ _ _ (fun he : p = q => by rw [he, h] at hm; cases hm)]
      exact h

private theorem respond_none {now : UInt64} {ms : Mocks} {f : Flight} {q : Addr} (h : ms.get none q = none) :
    (respond now ms f).2.get none q = none := by
  cases f with
  | claim ps =>
    unfold respond
    dsimp only
    cases hc : claimMulti now ps ms with
    | error e => exact h
    | ok x => exact claims_none now hc h
  | _ => exact onMock_none h

/-- The pictures agree, and what is needed for them to go on agreeing. -/
private structure WTwin (n : Wires) (k : Net) : Prop where
  any : AnyNet k
  pic : Pictures n k
  known : Known k.w
  free : k.mocks.get none DELEGATION_MANAGER = none

private theorem pic_call {n : Wires} {k k' : Net} {op : Op} (h : Pictures n k) (hs : netStep k (.call op) = .ok k') :
    Pictures (joined n k'.w) k' := by
  obtain ⟨h1, h2, h3⟩ := h
  obtain ⟨_, w', _, rfl⟩ := net_call.1 hs
  refine ⟨rfl, h2, ?_⟩
  unfold joined
  dsimp only
  rw [h3, h1, List.map_append, List.map_map]
  rfl

private theorem wtwin_call {n : Wires} {k : Net} {op : Op} {w' : World} (h : WTwin n k) (hn : Names op) (hd : isDeliver op = false)
    (hs : step n.w op = .ok w') : ∃ k', netStep k (.call op) = .ok k' ∧ WTwin (joined n w') k' := by
  have h1 := h.pic.1
  rw [h1] at hs
  refine ⟨_, net_call.2 ⟨hd, w', hs, rfl⟩, .step (.call op) h.any trivial (net_call.2 ⟨hd, w', hs, rfl⟩), ?_,
    known_step (any_inv h.any).1 h.known hn hs, h.free⟩
  exact pic_call h.pic (net_call.2 ⟨hd, w', hs, rfl⟩)

private theorem get_pic {n : Wires} {k : Net} (h : Pictures n k) (i : Nat) :
    n.msgs[i]? = (k.msgs[i]?).map fun x => (encode x.1, x.2.map (InBytes x.1)) := by
  rw [h.2.2, List.getElem?_map]

private theorem msg_flight {k : Net} (h : AnyNet k) {i : Nat} {f : Flight} {x : Option Outcome} (hm : k.msgs[i]? = some (f, x)) :
    k.w.flights[i]? = some f := by
  rw [← (any_inv h).2, List.getElem?_map, hm]; rfl

private theorem wtwin_serve {n : Wires} {k k' : Net} {i : Nat} (h : WTwin n k) (hs : netStep k (.serve i) = .ok k') :
    ∃ n', wireStep n (.serve i) = .ok n' ∧ WTwin n' k' := by
  obtain ⟨f, hm, he⟩ := net_serve.1 hs
  have hmem : f ∈ k.w.flights := List.mem_of_getElem? (msg_flight h.any hm)
  have hsv := C98_served n.w.epoch (h.known.2 f hmem) h.free
  have hg := get_pic h.pic i
  rw [hm] at hg
  obtain ⟨h1, h2, h3⟩ := h.pic
  refine ⟨{ n with msgs := n.msgs.set i (encode f, some (Wire.serve n.w.epoch n.mocks (encode f)).1),
                   mocks := (Wire.serve n.w.epoch n.mocks (encode f)).2 }, ?_, .step _ h.any trivial hs, ?_, ?_, ?_⟩
  · simp only [wireStep, hg, Option.map_some, Option.map_none]
  · rw [he, h2, hsv]
    refine ⟨h1, by rw [h1], ?_⟩
    dsimp only
    rw [h3, List.map_set, h1]
    rfl
  · rw [he]; exact h.known
  · rw [he]; exact respond_none h.free

private theorem wtwin_answer {n : Wires} {k : Net} {i : Nat} {g : Bool} {f : Flight} {o : Outcome} {w' : World} (h : WTwin n k)
    (hm : k.msgs[i]? = some (f, some o)) (hs : step k.w (if g then .deliver i o else .starve i o) = .ok w') :
    ∃ n', wireStep n (.answer i g) = .ok n' ∧ WTwin n' { k with w := w', msgs := k.msgs.eraseIdx i } := by
  have hfl := msg_flight h.any hm
  have hmem : f ∈ k.w.flights := List.mem_of_getElem? hfl
  have hg := get_pic h.pic i
  rw [hm] at hg
  obtain ⟨h1, h2, h3⟩ := h.pic
  have hd := wDeliver (o := o) hfl (h.known.2 f hmem) g
  rw [hs, ← h1] at hd
  have hk : AnyNet { k with w := w', msgs := k.msgs.eraseIdx i } := by
    cases g with
    | true => exact .step (.answer i) h.any trivial (net_answer.2 ⟨f, o, w', hm, hs, rfl⟩)
    | false => exact .step (.lose i) h.any trivial (net_lose.2 ⟨f, o, w', hm, hs, rfl⟩)
  refine ⟨{ n with w := w', msgs := n.msgs.eraseIdx i }, ?_, hk, ⟨rfl, h2, ?_⟩,
    known_step (any_inv h.any).1 h.known (by cases g <;> exact trivial) hs, h.free⟩
  · simp only [wireStep, hg, Option.map_some, hd]
  · dsimp only
    rw [h3, List.eraseIdx_map]

private theorem wtwin_fwd {n n' : Wires} {k : Net} {op : WireOp} (h : WTwin n k) (hs : wireStep n op = .ok n') :
    ((∃ c, op = .call c ∧ ReadOnly c) ∧ n' = n) ∨ ∃ op' k', SameStep op op' ∧ netStep k op' = .ok k' ∧ WTwin n' k' := by
  have hp := h.pic
  obtain ⟨h1, h2, h3⟩ := hp
  cases op with
  | call c =>
    simp only [wireStep] at hs
    split at hs
    · next hc =>
      split at hs
      · next w' he =>
        cases hs
        rcases C96_call.1 he with ⟨hr, rfl⟩ | ⟨op, hm, hst⟩
        · refine .inl ⟨⟨c, rfl, hr⟩, ?_⟩
          unfold joined
          rw [List.drop_length, List.map_nil, List.append_nil]
        · obtain ⟨k', hk, ht⟩ := wtwin_call h (names_means hm hc) (means_calls hm) hst
          exact .inr ⟨_, k', .call hm, hk, ht⟩
      · cases hs
    · cases hs
  | chain op =>
    simp only [wireStep] at hs
    split at hs
    · next hc =>
      obtain ⟨hn, hd⟩ := names_chain hc
      split at hs
      · next w' he =>
        cases hs
        obtain ⟨k', hk, ht⟩ := wtwin_call h hn hd he
        exact .inr ⟨_, k', .chain op, hk, ht⟩
      · cases hs
    · cases hs
  | deploy p =>
    simp only [wireStep] at hs
    split at hs
    · cases hs
    · next hp =>
      split at hs
      · next hm =>
        cases hs
        rw [h2] at hm
        refine .inr ⟨_, _, .deploy p, net_deploy.2 ⟨hm, rfl⟩, .step (.deploy p) h.any trivial (net_deploy.2 ⟨hm, rfl⟩),
          ⟨h1, by rw [h2], h3⟩, h.known, ?_⟩
        dsimp only
        rw [Map.get_set_other _ _ _ hp]; exact h.free
      · cases hs
  | deposit p v =>
    simp only [wireStep] at hs
    split at hs
    · cases hs
    · next m hm =>
      cases hs
      rw [h2] at hm
      refine .inr ⟨_, _, .deposit p v, net_deposit.2 ⟨m, hm, rfl⟩, .step (.deposit p v) h.any trivial (net_deposit.2 ⟨m, hm, rfl⟩),
        ⟨h1, by rw [h2], h3⟩, h.known, ?_⟩
      dsimp only
      rw [Map.get_set_other _ _ _ fun he : p = _ => by rw [he, h.free] at hm; cases hm]; exact h.free
  | serve i =>
    have hg := get_pic h.pic i
    cases hm : k.msgs[i]? with
    | none => rw [hm] at hg; simp only [wireStep, hg, Option.map_none] at hs; cases hs
    | some e =>
      obtain ⟨f, x⟩ := e
      cases x with
      | some o => rw [hm] at hg; simp only [wireStep, hg, Option.map_some] at hs; cases hs
      | none =>
        have hk := net_serve.2 ⟨f, hm, rfl⟩
        obtain ⟨n1, hw, ht⟩ := wtwin_serve h hk
        rw [hs] at hw; cases hw
        exact .inr ⟨_, _, .serve i, hk, ht⟩
  | answer i g =>
    have hg := get_pic h.pic i
    cases hm : k.msgs[i]? with
    | none => rw [hm] at hg; simp only [wireStep, hg, Option.map_none] at hs; cases hs
    | some e =>
      obtain ⟨f, x⟩ := e
      cases x with
      | none => rw [hm] at hg; simp only [wireStep, hg, Option.map_some, Option.map_none] at hs; cases hs
      | some o =>
        have hfl := msg_flight h.any hm
        have hst : ∃ w', step k.w (if g then .deliver i o else .starve i o) = .ok w' := by
          have hd := wDeliver (o := o) hfl (h.known.2 f (List.mem_of_getElem? hfl)) g
          rw [← hd]
          rw [hm] at hg
          simp only [wireStep, hg, Option.map_some, h1] at hs
          split at hs
          · next w' he => exact ⟨w', he⟩
          · cases hs
        obtain ⟨w', hst⟩ := hst
        obtain ⟨n1, hw, ht⟩ := wtwin_answer h hm hst
        rw [hs] at hw; cases hw
        cases g with
        | true => exact .inr ⟨_, _, .answer i, net_answer.2 ⟨f, o, w', hm, hst, rfl⟩, ht⟩
        | false => exact .inr ⟨_, _, .lose i, net_lose.2 ⟨f, o, w', hm, hst, rfl⟩, ht⟩

private theorem wtwin_back {n : Wires} {k k' : Net} {op' : NetOp} (h : WTwin n k) (hw : Writable op') (hs : netStep k op' = .ok k') :
    ∃ op n', SameStep op op' ∧ wireStep n op = .ok n' ∧ WTwin n' k' := by
  obtain ⟨h1, h2, h3⟩ := h.pic
  cases op' with
  | call op =>
    obtain ⟨hd, w', hst, rfl⟩ := net_call.1 hs
    by_cases ho : Outside op
    · have hp : wireStep.parseable op = false := by
        cases op <;> first
          | rfl
          | exact absurd ho id
          | cases hd
      obtain ⟨hn, _⟩ := names_chain hp
      have hst' : step n.w op = .ok w' := by rw [h1]; exact hst
      obtain ⟨k1, hk, ht⟩ := wtwin_call h hn hd hst'
      rw [hs] at hk; cases hk
      refine ⟨.chain op, _, .chain op, ?_, ht⟩
      simp only [wireStep, hp, hst']
    · obtain ⟨c0, hm0⟩ := C96_expressible ho hw.1
      obtain ⟨c, hm, hcc⟩ := means_lower hm0
      have hc : IsAddr c.caller := by
        rcases hcc with hcc | hcc
        · exact hw.2 _ hcc
        · rw [hcc]; show 0 < 2 ^ 256; decide
      have hst' : step n.w op = .ok w' := by rw [h1]; exact hst
      obtain ⟨k1, hk, ht⟩ := wtwin_call h (names_means hm hc) hd hst'
      rw [hs] at hk; cases hk
      refine ⟨.call c, _, .call hm, ?_, ht⟩
      have hcall : Abi.call n.w c = .ok w' := C96_call.2 (.inr ⟨op, hm, hst'⟩)
      simp only [wireStep, hcall]
      rw [if_pos (show c.caller < 2 ^ 256 from hc)]
  | deploy p =>
    obtain ⟨hm, rfl⟩ := net_deploy.1 hs
    refine ⟨.deploy p, { n with mocks := n.mocks.set p (some Mock.new) }, .deploy p, ?_, .step (.deploy p) h.any trivial hs,
      ⟨h1, by rw [h2], h3⟩, h.known, ?_⟩
    · rw [← h2] at hm
      simp only [wireStep, hm]
      rw [if_neg hw]
    · dsimp only
      rw [Map.get_set_other _ _ _ hw]; exact h.free
  | deposit p v =>
    obtain ⟨m, hm, rfl⟩ := net_deposit.1 hs
    refine ⟨.deposit p v, { n with mocks := n.mocks.set p (some (m.depositEgld v)) }, .deposit p v, ?_,
      .step (.deposit p v) h.any trivial hs, ⟨h1, by rw [h2], h3⟩, h.known, ?_⟩
    · rw [← h2] at hm
      simp only [wireStep, hm]
    · dsimp only
      rw [Map.get_set_other _ _ _ fun he : p = _ => by rw [he, h.free] at hm; cases hm]; exact h.free
  | serve i =>
    obtain ⟨n', hn, ht⟩ := wtwin_serve h hs
    exact ⟨_, n', .serve i, hn, ht⟩
  | answer i =>
    obtain ⟨f, o, w', hm, hst, rfl⟩ := net_answer.1 hs
    obtain ⟨n', hn, ht⟩ := wtwin_answer (g := true) h hm hst
    exact ⟨_, n', .answer i, hn, ht⟩
  | lose i =>
    obtain ⟨f, o, w', hm, hst, rfl⟩ := net_lose.1 hs
    obtain ⟨n', hn, ht⟩ := wtwin_answer (g := false) h hm hst
    exact ⟨_, n', .lose i, hn, ht⟩

private theorem wtwin_of {n : Wires} (h : WireReach n) : ∃ k, WTwin n k := by
  induction h with
  | init h =>
    obtain ⟨_, _, _, _, _, _, _, _, _, _, _, _, _, _, _, _, _, _, hi⟩ := C96_deploy.1 h
    have hI : IsInit _ := ⟨_, _, _, _, _, _, _, _, _, _, _, _, hi⟩
    refine ⟨⟨_, [], []⟩, .init hI, ⟨rfl, rfl, rfl⟩, ?_, rfl⟩
    obtain ⟨_, _, _, _, _, _, _, _, _, _, _, _, _, _, rfl⟩ := isInit_eq hI
    exact ⟨fun p hp => (List.not_mem_nil hp).elim, fun f hf => (List.not_mem_nil hf).elim⟩
  | step op _ hs ih =>
    obtain ⟨k, hk⟩ := ih
    rcases wtwin_fwd hk hs with ⟨_, rfl⟩ | ⟨_, k', _, _, hk'⟩
    · exact ⟨k, hk⟩
    · exact ⟨k', hk'⟩

/-- **C98**, the network in bytes: every network that exchanges bytes is a network of the model, and goes on like it: a step of the one is
the same step of the other, apart from calls that only read; conversely every step of the model whose addresses have 32 bytes can be
taken in bytes. -/
theorem C98_network {n : Wires} (h : WireReach n) : ∃ k, AnyNet k ∧ Pictures n k ∧
    (∀ op n', wireStep n op = .ok n' → ((∃ c, op = .call c ∧ ReadOnly c) ∧ n' = n) ∨
      ∃ op' k', SameStep op op' ∧ netStep k op' = .ok k' ∧ Pictures n' k') ∧
    ∀ op' k', Writable op' → netStep k op' = .ok k' → ∃ op n', SameStep op op' ∧ wireStep n op = .ok n' ∧ Pictures n' k' := by
  obtain ⟨k, hk⟩ := wtwin_of h
  refine ⟨k, hk.any, hk.pic, fun op n' hs => ?_, fun op' k' hw hs => ?_⟩
  · rcases wtwin_fwd hk hs with h | ⟨op', k', h1, h2, h3⟩
    · exact .inl h
    · exact .inr ⟨op', k', h1, h2, h3.pic⟩
  · obtain ⟨op, n', h1, h2, h3⟩ := wtwin_back hk hw hs
    exact ⟨op, n', h1, h2, h3.pic⟩

/-- Attempted steps, one after another. -/
private def wires (n : Wires) (ops : List WireOp) : Wires :=
  ops.foldl (fun n op => match wireStep n op with | .ok n' => n' | .error _ => n) n

private theorem wires_reach {n : Wires} (h : WireReach n) (ops : List WireOp) : WireReach (wires n ops) := by
  induction ops generalizing n with
  | nil => exact h
  | cons op ops ih =>
    refine ih ?_
    dsimp only
    cases hs : wireStep n op with
    | ok n' => exact .step op h hs
    | error _ => exact h

private theorem wire_start : WireReach ⟨fresh, [], []⟩ :=
  .init (self := 1000) (owner := 1) (contracts := [2, 3]) (epoch := 0)
    (funds := [(1, E 1000), (3, E 1000), (11, E 1000), (12, E 1000), (13, E 1000)])
    (c := ⟨1, [], [encAddr 2, [1, 144], [56, 64], [5, 120], [25], [0, 100], [10]], 0, [], true⟩)
    (C96_deploy.2 ⟨rfl, rfl, encAddr 2, [1, 144], [56, 64], [5, 120], [25], [0, 100], [10], 14400, 1400, 10, rfl,
      by decide +kernel, by decide +kernel, by decide +kernel, by decide +kernel, by decide +kernel, by decide +kernel⟩)

/-- A call without tokens. -/
private def asks (c : Addr) (fn : String) (args : List Bytes) (v : Nat) : WireOp := .call ⟨c, ascii fn.toList, args, v, [], true⟩

/-- Two providers whitelisted, a deposit of 100 EGLD sent to them, all in bytes. -/
private def wired : Wires := wires ⟨fresh, [], []⟩ [
  asks 1 "registerLsToken" [[76], [76], [18]] 0, .chain (.issued 0 (some 500)),
  asks 1 "registerUnstakeToken" [[85], [85], [18]] 0, .chain (.issued 0 (some 501)),
  asks 1 "setStateActive" [] 0, asks 1 "setScoringConfig" [encScoring ScoringConfig.default] 0,
  .deploy 21, .deposit 21 (E 50), .deploy 22, .deposit 22 (E 50),
  asks 1 "whitelistDelegationContract" [encAddr 21, encAddr 41, encTop (E 1000), encTop (E 1500), [10], [3, 32]] (E 1),
  .serve 0, .answer 0 true,
  asks 1 "whitelistDelegationContract" [encAddr 22, encAddr 42, encTop (E 1000), [], [20], [3, 132]] (E 1),
  .serve 0, .answer 0 true,
  asks 11 "delegate" [] (E 100), asks 1 "delegatePending" [] 0]

/-- Both delegations served and answered, a year later rewards asked for and paid. -/
private def wRewarded : Wires := wires wired [
  .serve 1, .serve 0, .answer 1 true, .answer 0 true, .chain (.advance 365), asks 1 "claimRewards" [] 0, .serve 0]

private def paidOut : Wires := wires wRewarded [.answer 0 true]

private theorem wired_reach : WireReach wired := wires_reach wire_start _
private theorem wRewarded_reach : WireReach wRewarded := wires_reach wired_reach _

example : wired.msgs.map (fun x => (x.1.dest, x.1.fn, x.1.args, x.1.egld != 0)) =
    [(21, ascii "delegate".toList, [], true), (22, ascii "delegate".toList, [], true)] ∧
    (wired.msgs.map fun x => x.1.egld).sum = E 100 := by decide +kernel

example : wRewarded.msgs.map (fun x => (x.1.dest, x.1.fn, x.1.args, x.1.closure)) =
      [(DELEGATION_MANAGER, ascii "claimMulti".toList, [encAddr 21, encAddr 22], [])] ∧
    wRewarded.msgs.map (fun x => x.2) = [some (.done [encTop 10199999999999999999] 10199999999999999999)] := by decide +kernel

example : paidOut.w.st.r.pending + paidOut.w.st.r.fees = 10199999999999999999 ∧ WireReach paidOut :=
  ⟨by decide +kernel, wires_reach wRewarded_reach _⟩

/-- A provider that cannot read its request, and an answer no callback can read. -/
example : (mockCall 0 Mock.new (ascii "undelegate".toList) [[1]] 0) = none ∧
    (mockCall 0 Mock.new (ascii "withdraw".toList) [[1]] 0) = none ∧
    (mockCall 0 Mock.new (ascii "unDelegate".toList) [[1]] 1) = none ∧
    Wire.readUnit (.done [[1]] 0) = .error .calleeFailed ∧ Wire.readBig (.done [] 5) = .error .calleeFailed ∧
    Wire.readBig (.done [[]] 0) = .ok (some 0) := by decide +kernel

example : Addressed (.claim [21, 22]) ∧ Addressed (.whitelist 21 5 1) := by
  refine ⟨fun p hp => ?_, by show 21 < 2 ^ 256; decide, by show 1 < 2 ^ 256; decide⟩
  have : ∀ q ∈ [21, 22], q < 2 ^ 256 := by decide
  exact this p hp

end LS
