import Verif.Model.Step

/-! Replaying the repository's own tests on the model: the environment those tests run in.

Models delegation-mock/src/lib.rs (the provider), delegation-manager-mock/src/lib.rs (reward claims), the setup of
liquid-staking/tests/contract_setup/mod.rs:51-140 and the actions of liquid-staking/tests/contract_interactions/mod.rs.
In the test framework a promise is answered right after the transaction that registered it. -/

namespace LS.Replay

/-- One mock provider, delegation-mock/src/lib.rs:97-111. -/
structure Mock where
  addr : Addr
  deposit : Nat
  unstaked : Nat
  unbondAt : Nat
  lastClaim : Nat

/-- A world and its mock providers. -/
structure TS where
  w : World
  mocks : List Mock

def upd (ms : List Mock) (a : Addr) (f : Mock → Mock) : List Mock := ms.map (fun m => if m.addr = a then f m else m)

def look (ms : List Mock) (a : Addr) : Mock := (ms.find? (fun m => m.addr = a)).getD ⟨a, 0, 0, 0, 0⟩

/-- `claim_rewards` of the mock, delegation-mock/src/lib.rs:71-95. -/
def reward (epoch : Nat) (m : Mock) : Nat :=
  if m.lastClaim < epoch then (m.deposit * 10000 / 100000) * (epoch - m.lastClaim) / 365 else 0

/-- How the mocks answer a promise. -/
def answer (t : TS) : Flight → Outcome × List Mock
  | .delegate c a => (.ok 0 0, upd t.mocks c (fun m => { m with deposit := m.deposit + a }))
  | .whitelist c a _ => (.ok 0 0, upd t.mocks c (fun m => { m with deposit := m.deposit + a }))
  | .undelegate c a =>
    if 0 < a ∧ a ≤ (look t.mocks c).deposit then
      (.ok 0 0, upd t.mocks c (fun m =>
        { m with deposit := m.deposit - a, unstaked := m.unstaked + a, unbondAt := t.w.epoch.toNat + 10 }))
    else (.err, t.mocks)
  | .withdraw c =>
    if 0 < (look t.mocks c).unstaked ∧ 0 < (look t.mocks c).unbondAt ∧ (look t.mocks c).unbondAt ≤ t.w.epoch.toNat then
      (.ok (look t.mocks c).unstaked 0, upd t.mocks c (fun m => { m with unstaked := 0, unbondAt := 0 }))
    else (.err, t.mocks)
  | .claim ps =>
    let total := (ps.map (fun a => reward t.w.epoch.toNat (look t.mocks a))).sum
    (.ok total total, ps.foldl (fun ms a =>
      upd ms a (fun m => if 0 < reward t.w.epoch.toNat m then { m with lastClaim := t.w.epoch.toNat } else m)) t.mocks)

/-- Answer all promises in order. -/
def settle : Nat → TS → Option TS
  | 0, t => some t
  | n + 1, t =>
    match t.w.flights with
    | [] => some t
    | f :: _ =>
      match step t.w (.deliver 0 (answer t f).1) with
      | .ok w' => settle n { w := w', mocks := (answer t f).2 }
      | .error _ => none

/-- The actions and assertions of the tests. -/
inductive Act
  | ok (op : Op)
  | fails (op : Op) (e : Err)
  | deploy (c : Addr) (value totalStaked cap : Nat) (nodes apy : UInt64)
  | storage (s r f w p u : Nat)
  | pending (v : Nat)
  | toUnstake (v : Nat)
  | withdrawn (v : Nat)
  | lsIs (a : Addr) (v : Nat)
  | egldIs (a : Addr) (v : Nat)
  | nftIs (a : Addr) (n v : Nat) (attrs : Option Attrs)
  | provIs (c : Addr) (staked unstaked : Nat)

def check (b : Bool) (t : TS) : Option TS := if b then some t else none

def play1 (t : TS) : Act → Option TS
  | .ok op =>
    match step t.w op with
    | .ok w' => settle (w'.flights.length) { t with w := w' }
    | .error _ => none
  | .fails op e =>
    match step t.w op with
    | .ok _ => none
    | .error e' => check (e' = e) t
  | .deploy c value ts cap n apy =>
    match step t.w (.fund 1 value) with
    | .error _ => none
    | .ok w0 =>
      match step w0 (.whitelist 1 value c 1 ts cap n apy) with
      | .ok w' => settle (w'.flights.length) { w := w', mocks := t.mocks ++ [⟨c, 0, 0, 0, 0⟩] }
      | .error _ => none
  | .storage s r f w p u =>
    check (t.w.st.r.lsSupply = s ∧ t.w.st.r.reserve = r ∧ t.w.st.r.fees = f ∧ t.w.st.r.withdrawn = w ∧
      t.w.st.r.pending = p ∧ t.w.st.r.toUnstake = u) t
  | .pending v => check (t.w.st.r.pending = v) t
  | .toUnstake v => check (t.w.st.r.toUnstake = v) t
  | .withdrawn v => check (t.w.st.r.withdrawn = v) t
  | .lsIs a v => check (t.w.ls.get 0 a = v) t
  | .egldIs a v => check (t.w.egld.get 0 a = v) t
  | .nftIs a n v at? => check (t.w.nft.get 0 (n, a) = v ∧ (at? = none ∨ t.w.attrs.get none n = at?)) t
  | .provIs c s u =>
    check (match t.w.st.data.get none c with | some d => d.staked = s ∧ d.unstaked = u | none => False) t

def play (t : TS) : List Act → Option TS
  | [] => some t
  | a :: as => (play1 t a).bind (fun t' => play t' as)

/-- contract_setup/mod.rs:51-140: deployment, tokens, activation, default scoring. -/
def setup (fees : Nat) : Option TS :=
  match initWorld 1000 1 [2] 0 [] 2 fees 14400 1400 25 100 10 with
  | .error _ => none
  | .ok w => play { w := w, mocks := [] } [
      .ok (.registerLsToken 1 0), .ok (.issued 0 (some 500)), .ok (.registerUnstakeToken 1 0), .ok (.issued 0 (some 501)),
      .ok (.owner 1 .stateActive),
      .ok (.setScoringConfig 1 ScoringConfig.default)]

/-- A test passes when every action behaves as asserted. -/
def passes (fees : Nat) (acts : List Act) : Bool := ((setup fees).bind (fun t => play t acts)).isSome

end LS.Replay
