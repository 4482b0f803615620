import Verif.Model.Logs
import Verif.Props.Layout
import Verif.Props.Parts

/-! Events in bytes: C101. -/

namespace LS
open Spec Demo Layout Logs

/-- What an event is about, as a reader of the log knows it. -/
inductive Spec.Topic
  | deposit (amount : Nat) | redemption (amount : Nat) | collected (amount : Nat) (provider : Addr) | rewards (amount : Nat) | other
  deriving DecidableEq, Repr

/-- An event as read from the log: what happened, by whom, with which token, the figures of the pool and the block. -/
inductive Spec.Seen
  | pool (what : Topic) (caller : Addr) (token : Bytes) (figures : Reserves) (block epoch stamp : UInt64)
  | revenue (amount : Nat) (epoch : UInt64)
  deriving DecidableEq, Repr

/-- The record of the pool, field by field from the front. -/
def Spec.readPool (what : Topic) (b : Bytes) : Option Seen := do
  let (caller, b) ← decAddr b
  let (n, b) ← decFixed 4 b
  let (token, b) ← takeN n b
  let (supply, b) ← decBig b
  let (reserve, b) ← decBig b
  let (fees, b) ← decBig b
  let (withdrawn, b) ← decBig b
  let (pending, b) ← decBig b
  let (unstake, b) ← decBig b
  let (unbond, b) ← decBig b
  let (block, b) ← decU64 b
  let (epoch, b) ← decU64 b
  let (stamp, b) ← decU64 b
  if b = [] then
    some (.pool what caller token { lsSupply := supply, reserve := reserve, fees := fees, withdrawn := withdrawn, pending := pending, toUnstake := unstake, toUnbond := unbond } block epoch stamp)
  else none

/-- How the topics of an event are read: by the name, then by the position. -/
def Spec.readEvent : List Bytes → Option Seen
  | [name, x] => if name = ascii "general_liquidity_event".toList then readPool .other x else none
  | [name, v, x] =>
    if name = ascii "add_liquidity".toList then readPool (.deposit (beVal v)) x
    else if name = ascii "remove_liquidity".toList then readPool (.redemption (beVal v)) x
    else if name = ascii "claim_rewards".toList then readPool (.rewards (beVal v)) x
    else if name = ascii "protocol_revenue".toList ∧ beVal x < 2 ^ 64 then some (.revenue (beVal v) (beVal x).toUInt64)
    else none
  | [name, v, x, p] => if name = ascii "withdraw_pending".toList ∧ p.length = 32 then readPool (.collected (beVal v) (beVal p)) x else none
  | _ => none

/-- What is to be read from the log of an event. -/
def Spec.seenAs (id : TokenId → Bytes) (block stamp : UInt64) : Event → Seen
  | .change (.addLiquidity v) c t r e => .pool (.deposit v) c (id t) r block e stamp
  | .change (.removeLiquidity v) c t r e => .pool (.redemption v) c (id t) r block e stamp
  | .change (.withdrawPending v p) c t r e => .pool (.collected v p) c (id t) r block e stamp
  | .change (.claimRewards v) c t r e => .pool (.rewards v) c (id t) r block e stamp
  | .change .general c t r e => .pool .other c (id t) r block e stamp
  | .protocolRevenue v e => .revenue v e

/-- Figures that can be put into a structure. -/
def Spec.ShortPool (r : Reserves) : Prop :=
  Short r.lsSupply ∧ Short r.reserve ∧ Short r.fees ∧ Short r.withdrawn ∧ Short r.pending ∧ Short r.toUnstake ∧ Short r.toUnbond

/-- An event with 32-byte addresses, figures that can be written and a token whose name has a length of four bytes. -/
def Spec.Loggable (id : TokenId → Bytes) : Event → Prop
  | .change (.withdrawPending _ p) c t r _ => p < 2 ^ 256 ∧ c < 2 ^ 256 ∧ (id t).length < 2 ^ 32 ∧ ShortPool r
  | .change _ c t r _ => c < 2 ^ 256 ∧ (id t).length < 2 ^ 32 ∧ ShortPool r
  | .protocolRevenue _ _ => True

private instance (n : Nat) : Decidable (Short n) := inferInstanceAs (Decidable (_ < _))

private instance (r : Reserves) : Decidable (ShortPool r) := inferInstanceAs (Decidable (_ ∧ _))

private instance (id : TokenId → Bytes) : (e : Event) → Decidable (Loggable id e)
  | .change (.withdrawPending _ _) _ _ _ _ => inferInstanceAs (Decidable (_ ∧ _))
  | .change (.addLiquidity _) _ _ _ _ | .change (.removeLiquidity _) _ _ _ _ | .change (.claimRewards _) _ _ _ _
  | .change .general _ _ _ _ => inferInstanceAs (Decidable (_ ∧ _))
  | .protocolRevenue _ _ => inferInstanceAs (Decidable True)

private theorem addr_bytes {a : Addr} (h : a < 2 ^ 256) : (encAddr a).length = 32 ∧ beVal (encAddr a) = a :=
  ⟨beFixed_length 32 a, beVal_beFixed 32 a (show a < 256 ^ 32 from h)⟩

private theorem len_reads {t : Bytes} (h : t.length < 2 ^ 32) (b : Bytes) : decFixed 4 (beFixed 4 t.length ++ b) = some (t.length, b) := by
  unfold decFixed takeN
  rw [if_pos (by rw [List.length_append, beFixed_length]; omega), List.take_left' (beFixed_length 4 _), List.drop_left' (beFixed_length 4 _)]
  simp only [beVal_beFixed 4 t.length (show t.length < 256 ^ 4 from h)]

private theorem token_reads (t b : Bytes) : takeN t.length (t ++ b) = some (t, b) := by
  unfold takeN
  rw [if_pos (by rw [List.length_append]; omega), List.take_left, List.drop_left]

private theorem reads {α β : Type} {o : Option (α × Bytes)} {x : α} {b : Bytes} (h : o = some (x, b)) (k : α × Bytes → Option β) :
    (o >>= k) = k (x, b) := by
  subst h; rfl

private theorem readPool_steps {c : Addr} {n s1 s2 s3 s4 s5 s6 s7 : Nat} {u1 u2 u3 : UInt64} {t b b0 b1 b2 b3 b4 b5 b6 b7 b8 b9 b10 b11 : Bytes}
    (what : Topic) (h1 : decAddr b = some (c, b0)) (h2 : decFixed 4 b0 = some (n, b1)) (h3 : takeN n b1 = some (t, b2))
    (h4 : decBig b2 = some (s1, b3)) (h5 : decBig b3 = some (s2, b4)) (h6 : decBig b4 = some (s3, b5)) (h7 : decBig b5 = some (s4, b6))
    (h8 : decBig b6 = some (s5, b7)) (h9 : decBig b7 = some (s6, b8)) (h10 : decBig b8 = some (s7, b9)) (h11 : decU64 b9 = some (u1, b10))
    (h12 : decU64 b10 = some (u2, b11)) (h13 : decU64 b11 = some (u3, [])) :
    readPool what b = some (.pool what c t { lsSupply := s1, reserve := s2, fees := s3, withdrawn := s4, pending := s5, toUnstake := s6, toUnbond := s7 } u1 u2 u3) := by
  unfold readPool
  refine (reads h1 _).trans ?_
  refine (reads h2 _).trans ?_
  refine (reads h3 _).trans ?_
  refine (reads h4 _).trans ?_
  refine (reads h5 _).trans ?_
  refine (reads h6 _).trans ?_
  refine (reads h7 _).trans ?_
  refine (reads h8 _).trans ?_
  refine (reads h9 _).trans ?_
  refine (reads h10 _).trans ?_
  refine (reads h11 _).trans ?_
  refine (reads h12 _).trans ?_
  refine (reads h13 _).trans ?_
  exact if_pos rfl

/-- The record is read back. -/
private theorem readPool_change {c : Addr} {t : Bytes} {r : Reserves} (hc : c < 2 ^ 256) (ht : t.length < 2 ^ 32) (hr : ShortPool r)
    (what : Topic) (block epoch stamp : UInt64) :
    readPool what (encChange c t r block epoch stamp) = some (.pool what c t r block epoch stamp) := by
  obtain ⟨h1, h2, h3, h4, h5, h6, h7⟩ := hr
  unfold encChange encBytes
  rw [List.append_assoc]
  have e := decU64_append stamp []
  rw [List.append_nil] at e
  exact readPool_steps what (decAddr_append hc _) (len_reads ht _) (token_reads _ _) (decBig_append h1 _) (decBig_append h2 _)
    (decBig_append h3 _) (decBig_append h4 _) (decBig_append h5 _) (decBig_append h6 _) (decBig_append h7 _) (decU64_append _ _)
    (decU64_append _ _) e

private theorem read_two (n x : Bytes) :
    readEvent [n, x] = if n = ascii "general_liquidity_event".toList then readPool .other x else none := rfl

private theorem read_three (n v x : Bytes) : readEvent [n, v, x] =
    if n = ascii "add_liquidity".toList then readPool (.deposit (beVal v)) x
    else if n = ascii "remove_liquidity".toList then readPool (.redemption (beVal v)) x
    else if n = ascii "claim_rewards".toList then readPool (.rewards (beVal v)) x
    else if n = ascii "protocol_revenue".toList ∧ beVal x < 2 ^ 64 then some (.revenue (beVal v) (beVal x).toUInt64)
    else none := rfl

private theorem read_four (n v x p : Bytes) : readEvent [n, v, x, p] =
    if n = ascii "withdraw_pending".toList ∧ p.length = 32 then readPool (.collected (beVal v) (beVal p)) x else none := rfl

/-- **C101.** Whoever reads the topics of an event by name and position finds what happened, by whom, with which token, all figures of
the pool and the block. -/
theorem C101_read (id : TokenId → Bytes) (block stamp : UInt64) {e : Event} (h : Loggable id e) :
    readEvent (topics id block stamp e) = some (seenAs id block stamp e) := by
  cases e with
  | protocolRevenue v e =>
    show readEvent [_, _, _] = _
    rw [read_three, if_neg (by decide +kernel), if_neg (by decide +kernel), if_neg (by decide +kernel), (C83_numbers v).1, (C83_numbers e.toNat).1,
      if_pos ⟨rfl, e.toNat_lt⟩]
    simp [seenAs]
  | change k c t r e =>
    cases k with
    | addLiquidity v =>
      show readEvent [_, _, _] = _
      rw [read_three, if_pos rfl, (C83_numbers v).1]
      exact readPool_change h.1 h.2.1 h.2.2 _ _ _ _
    | removeLiquidity v =>
      show readEvent [_, _, _] = _
      rw [read_three, if_neg (by decide +kernel), if_pos rfl, (C83_numbers v).1]
      exact readPool_change h.1 h.2.1 h.2.2 _ _ _ _
    | withdrawPending v p =>
      show readEvent [_, _, _, _] = _
      rw [read_four, if_pos ⟨rfl, (addr_bytes h.1).1⟩, (C83_numbers v).1, (addr_bytes h.1).2]
      exact readPool_change h.2.1 h.2.2.1 h.2.2.2 _ _ _ _
    | claimRewards v =>
      show readEvent [_, _, _] = _
      rw [read_three, if_neg (by decide +kernel), if_neg (by decide +kernel), if_pos rfl, (C83_numbers v).1]
      exact readPool_change h.1 h.2.1 h.2.2 _ _ _ _
    | general =>
      show readEvent [_, _] = _
      rw [read_two, if_pos rfl]
      exact readPool_change h.1 h.2.1 h.2.2 _ _ _ _

private def first : Event := .change (.withdrawPending (E 5) 21) 11 500 ⟨E 90, E 95, E 1, E 5, 0, 0, E 7⟩ 52

/-- A collection of 5 EGLD from provider 21, called by account 11 in block 7. -/
example : Loggable encTop first ∧ (topics encTop 7 9 first).length = 4 ∧
    readEvent (topics encTop 7 9 first) =
      some (.pool (.collected (E 5) 21) 11 [1, 244] ⟨E 90, E 95, E 1, E 5, 0, 0, E 7⟩ 7 52 9) := by decide +kernel

/-- **C101**: two events with the same topics are the same event, when different tokens have different names. -/
theorem C101_distinct {id : TokenId → Bytes} (hid : ∀ t t', id t = id t' → t = t') {b b' s s' : UInt64} {e e' : Event}
    (h : Loggable id e) (h' : Loggable id e') (heq : topics id b s e = topics id b' s' e') : e = e' := by
  have h1 := C101_read id b s h
  rw [heq, C101_read id b' s' h'] at h1
  have h2 := Option.some.inj h1
  cases e with
  | protocolRevenue v x =>
    cases e' with
    | protocolRevenue v' x' => cases h2; rfl
    | change k' => cases k' <;> cases h2
  | change k =>
    cases e' with
    | protocolRevenue v' x' => cases k <;> cases h2
    | change k' =>
      cases k <;> cases k' <;> simp only [seenAs, Seen.pool.injEq, Topic.deposit.injEq, Topic.redemption.injEq, Topic.collected.injEq,
        Topic.rewards.injEq, reduceCtorEq, false_and] at h2
      all_goals
        first
        | (obtain ⟨⟨rfl, rfl⟩, rfl, ht, rfl, rfl, rfl, rfl⟩ := h2; rw [hid _ _ ht])
        | (obtain ⟨rfl, rfl, ht, rfl, rfl, rfl, rfl⟩ := h2; rw [hid _ _ ht])
        | (obtain ⟨-, rfl, ht, rfl, rfl, rfl, rfl⟩ := h2; rw [hid _ _ ht])

example : Loggable encTop first ∧ Loggable encTop (.protocolRevenue (E 2) 52) ∧
    topics encTop 7 9 first ≠ topics encTop 7 9 (.protocolRevenue (E 2) 52) ∧ encTop 500 ≠ encTop 501 := by decide +kernel

/-- The figures in the last entry of a log in bytes that has any. -/
def Spec.lastRead : List (List Bytes) → Option Reserves
  | [] => none
  | x :: l =>
    match lastRead l, readEvent x with
    | some r, _ => some r
    | none, some (.pool _ _ _ r _ _ _) => some r
    | none, _ => none

private theorem lastRead_log {id : TokenId → Bytes} : ∀ {l : List (Event × UInt64 × UInt64)}, (∀ x ∈ l, Loggable id x.1) →
    lastRead (log id l) = lastFigures (l.map (·.1))
  | [], _ => rfl
  | x :: l, h => by
    have ih := lastRead_log (l := l) fun y hy => h y (List.mem_cons_of_mem _ hy)
    have hx := C101_read id x.2.1 x.2.2 (h x List.mem_cons_self)
    show lastRead (topics id x.2.1 x.2.2 x.1 :: log id l) = lastFigures (x.1 :: l.map (·.1))
    unfold lastRead lastFigures
    rw [ih, hx]
    cases lastFigures (l.map (·.1)) with
    | some r => rfl
    | none =>
      cases x.1 with
      | protocolRevenue v e => rfl
      | change k c t r e => cases k <;> rfl

/-- **C101**: the bytes of the log are enough to know the pool: its last liquidity event, read from the bytes, carries all the present
figures, except that the fees may have been paid out since. -/
theorem C101_pool {w : World} (hr : Reachable w) {id : TokenId → Bytes} {l : List (Event × UInt64 × UInt64)}
    (hl : l.map (·.1) = w.events) (hw : ∀ e ∈ w.events, Loggable id e) :
    w.st.r = (lastRead (log id l)).getD emptyPool ∨ w.st.r = { (lastRead (log id l)).getD emptyPool with fees := 0 } := by
  rw [lastRead_log fun x hx => hw x.1 (by rw [← hl]; exact List.mem_map_of_mem hx), hl]
  exact C66_log_has_figures hr

/-- After a redemption the log in bytes tells all figures of the pool. -/
example : Reachable redeemed ∧ (∀ e ∈ redeemed.events, Loggable encTop e) ∧
    lastRead (log encTop (redeemed.events.map fun e => (e, 7, 9))) = some redeemed.st.r ∧ redeemed.st.r ≠ emptyPool :=
  ⟨redeemed_reachable, by decide +kernel, by decide +kernel, by decide +kernel⟩

end LS
