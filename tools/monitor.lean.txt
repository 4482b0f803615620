/-! Executable readings of the property theorems, evaluated along pseudo-random executions.  Not part of the proofs: used by
tools/mutate.py to see whether a wrong program violates what a theorem SAYS (and not just the way it is proved).
`lean` runs it behind the text of Verif/Model, Verif/Spec and Verif/Demo. -/

deriving instance Inhabited for LS.Flight
deriving instance BEq for LS.Outcome
deriving instance Inhabited for LS.Outcome
instance : Inhabited LS.World := ⟨LS.Demo.fresh⟩

namespace LS.Mon
open LS.Spec LS.Demo

abbrev V := List String

def chk (s : String) (b : Bool) : V := if b then [] else [s]
def chkp (s : String) (p : Prop) [Decidable p] : V := if p then [] else [s]
def whole (x : Nat) : Bool := x == 0 || decide (oneEgld ≤ x)

def accts (w w' : World) : List Addr :=
  ((w.egld ++ w'.egld ++ w.ls ++ w'.ls).map (·.1) ++ (w.nft ++ w'.nft).map (·.1.2) ++ [1, 2, 3, 4, 11, 12, 13, 41, 42, 99, w.self]).eraseDups
def nonces (w w' : World) : List Nat := ((w.nft ++ w'.nft).map (·.1.1) ++ List.range (max w.lastNonce w'.lastNonce + 2)).eraseDups
def provs (w w' : World) : List Addr := ((w.st.data ++ w'.st.data).map Prod.fst ++ [21, 22, 23, 24, 25]).eraseDups

/-- `PaidOut` with the amounts read off. -/
def paidOut (w w' : World) (c : Addr) : Option (Nat × Nat) :=
  if egldOf w' c < egldOf w c then none else
  match (nonces w w').filter (fun n => unstakeOf w' n c ≠ unstakeOf w n c) with
  | [] => some (egldOf w' c - egldOf w c, 0)
  | [n] => if unstakeOf w n c ≤ unstakeOf w' n c then some (egldOf w' c - egldOf w c, unstakeOf w' n c - unstakeOf w n c) else none
  | _ => none

def isSplit (q pay i u : Nat) : Bool :=
  i + u == pay && decide (i ≤ q) && (i == 0 || (whole (q - i) && whole u)) &&
  [pay, q, q - oneEgld, pay - oneEgld, min q pay, min q pay - oneEgld].all fun j =>
    !(decide (j ≤ q) && decide (j ≤ pay) && whole (q - j) && whole (pay - j)) || decide (j ≤ i)

def sumFig (f : ProviderData → Nat) (w : World) : Nat := ((provs w w).map (figure f w)).sum
def userTok (w : World) : Nat := ((nonces w w).flatMap fun n => (accts w w).map fun a => userTokens w (n, a)).sum

/-- State monitors. -/
def stateMon (honest noFail starved : Bool) (w : World) : V :=
  chkp "C05" (((accts w w).map (lsOf w)).sum + w.burntLs = supply w) ++
  chkp "C06" (0 < supply w → 0 < reserve w) ++
  chkp "C07" (userTok w + w.burntUnstake = toUndelegate w + allUndelegations (unsettled w) + sumFig (·.unstaked) w + withdrawable w) ++
  chkp "C08" (reserve w + toUndelegate w + allUndelegations (unsettled w) + w.migratedPending =
        pendingEgld w + sumFig (·.staked) w + allDelegations (unsettled w) + w.migratedVirtual) ++
  (if honest then chkp "C09" (pendingEgld w + withdrawable w + feesReserve w ≤ egldOf w w.self) else []) ++
  chk "C13" (w.st.unstakeNonce.all fun (u, _) => let n := w.st.unstakeNonce.get 0 u
    n == 0 || (maturityOf w n == some u && decide (1 ≤ unstakeOf w n w.self))) ++
  chk "C21" ((provs w w).all fun p => figure (·.pStake) w p == delegationsTo p (unsettled w) &&
    figure (·.pUnstake) w p == undelegationsFrom p (unsettled w) && (starved || delegationsTo p w.dead == 0)) ++
  chk "C31" (decide w.st.delegList.Nodup && decide w.st.undelegList.Nodup &&
    w.st.delegList.all (· ∈ w.st.undelegList) && w.st.undelegList.all (· ∈ w.st.delegList) &&
    w.st.delegList.all fun p => match provider w p with | some d => d.cap == 0 || decide (d.totalStaked ≤ d.cap) | none => false) ++
  chkp "C44" (sumFig (·.unstaked) w = unbonding w) ++
  (if noFail then chk "C37" ((provs w w).all fun p => whole (netStake w p)) else [])

def isMgr (w : World) (c : Addr) : Bool := w.st.managers.contains c || c == w.owner

def authorized (w : World) : Op → Bool
  | .delegatePending c _ | .unDelegatePending c _ | .withdrawPending c _ | .claimRewards c | .whitelist c _ _ _ _ _ _ _
  | .changeAdmin c _ _ | .setScoringConfig c _ => isMgr w c
  | .owner c _ | .setMigrationSc c _ | .registerLsToken c _ | .registerUnstakeToken c _ | .changeOwner c _ => c == w.owner
  | .changeParams c p _ _ _ _ _ => isMgr w c || (match provider w p with | some d => d.admin == c | none => false)
  | .migrate c _ _ | .migratePending c _ => w.st.migrationSc == some c
  | _ => true

def pausable : Op → Bool
  | .delegate .. | .unDelegate .. | .withdraw .. | .delegatePending .. | .unDelegatePending .. | .withdrawPending ..
  | .claimRewards .. => true
  | _ => false

def callerless : Op → Bool
  | .viewLsValue .. | .viewEgldPosition .. | .transferLs .. | .transferNft .. | .fund .. | .advance .. | .upgrade | .burnLs .. | .burnUnstake .. | .starve ..
  | .transferEgld .. | .giveEgld .. | .giveLs .. | .giveUnstake .. => true
  | _ => false

def sameExcept (ok : List Addr) (w w' : World) (f : World → Addr → Nat) : Bool :=
  (accts w w').all fun x => ok.contains x || f w' x == f w x
def sameNft (ok : List Addr) (w w' : World) : Bool :=
  (nonces w w').all fun n => (accts w w').all fun x => ok.contains x || unstakeOf w' n x == unstakeOf w n x
def sameProv (ok : List Addr) (w w' : World) : Bool :=
  (provs w w').all fun p => ok.contains p || provider w' p == provider w p

def getW (r : Res World) : Option World := match r with | .ok w => some w | _ => none

def batchOf (w w' : World) (und : Bool) : Option (List (Addr × Nat)) :=
  if w.flights != w'.flights.take w.flights.length then none
  else (w'.flights.drop w.flights.length).mapM fun f => match f, und with
    | .delegate p a, false => some (p, a)
    | .undelegate p a, true => some (p, a)
    | _, _ => none

def validBatch (q : Nat) (o : Option Nat) : Bool :=
  decide (oneEgld ≤ batchAsked q o) && decide (batchAsked q o ≤ q) && whole (q - batchAsked q o)

def reports (w : World) : Event → Bool
  | .change _ _ t r ep => w.st.lsToken == some t && r == w.st.r && ep == w.epoch
  | .protocolRevenue _ ep => ep == w.epoch
def isLiq : Event → Bool
  | .change .. => true
  | _ => false

/-- The splits of a list around each of its members. -/
def splits {α} : List α → List (List α × α × List α)
  | [] => []
  | x :: xs => ([], x, xs) :: (splits xs).map fun (a, y, b) => (x :: a, y, b)

def giversOk (w : World) (amount : Nat) (l : List Addr) : Bool :=
  let h := howMany w amount w.st.undelegList.length
  decide (l.length ≤ w.st.maxSelectedProviders) &&
  (l == withStake w || l.length == w.st.maxSelectedProviders || (decide (h ≤ l.length) && decide (amount ≤ expectedOf w amount l))) &&
  (List.range l.length).all fun k => decide (k < h) || decide (expectedOf w amount (l.take k) < amount)

def givers (w : World) (amount : Nat) : Option (List Addr) :=
  ((List.range ((withStake w).length + 1)).map fun k => (withStake w).take k).find? (giversOk w amount)

def shareMon (w : World) (A : Nat) (b : List (Addr × Nat)) : V :=
  let l := candidates w A
  chk "C45c" (decide ((b.map Prod.fst).Sublist l) && (batchTotal b == A || b.all fun (p, a) => room w p == some a)) ++
  (match w.st.scoring with
   | none => []
   | some cfg => if scoresOf w cfg l = 0 then [] else
     chk "C45f" (b.map Prod.fst == l.filter (fun p => decide (oneEgld ≤ withinRoom w p (fairShare w cfg l A p))) &&
       b.all (fun (p, a) => decide (withinRoom w p (fairShare w cfg l A p) ≤ a)) &&
       (splits b).all fun (b1, (p, a), _) => decide (a ≤ withinRoom w p (fairShare w cfg l A p)) || b1.all fun (q, x) => room w q == some x)) ++
  (if l.all fun p => room w p == none then chk "C45a" (batchTotal b == A) else [])

def lossMon (w : World) (A : Nat) (b : List (Addr × Nat)) : V :=
  match givers w A with
  | none => ["C54g"]
  | some l =>
    chk "C54g" (!l.isEmpty && decide ((b.map Prod.fst).Sublist l)) ++
    (if b.any fun (p, _) => decide (A + oneEgld ≤ netStake w p) then chk "C54c" (batchTotal b == A) else []) ++
    (match (withStake w).head? with
     | some p => if A + oneEgld ≤ netStake w p then chk "C54f" (batchTotal b == A && (b.map Prod.fst).head? == some p) else []
     | none => []) ++
    (match w.st.scoring with
     | none => []
     | some cfg => if lossScores w cfg l = 0 then [] else
       chk "C54l" ((splits b).all fun (b1, (p, a), _) => decide (min (lossShare w cfg l A p) (min (netStake w p) (A - batchTotal b1)) ≤ a)) ++
       chk "C54m" ((splits b).all fun (b1, (p, a), b2) => decide (a ≤ max (lossShare w cfg l A p) oneEgld) || a == netStake w p ||
         (batchTotal b == A && (splits b1).all fun (_, (q, x), k2) => x == netStake w q ||
           decide (netStake w q < x + batchTotal (k2 ++ (p, a) :: b2) + oneEgld))) ++
       (if l.all fun p => decide (A + oneEgld ≤ netStake w p) then chk "C54p" (batchTotal b == A &&
         b.all fun (p, a) => decide (a ≤ max (lossShare w cfg l A p) oneEgld + oneEgld)) else []))

def mayCall (w : World) (op : Op) (f : Flight) : Bool :=
  match f, op with
  | .delegate p a, .delegatePending _ _ => w.st.delegList.contains p && decide (oneEgld ≤ a)
  | .undelegate p a, .unDelegatePending _ _ => w.st.undelegList.contains p && decide (oneEgld ≤ a)
  | .withdraw p, .withdrawPending _ q => p == q && (provider w p).isSome
  | .claim ps, .claimRewards _ => ps == w.st.delegList && !ps.isEmpty
  | .whitelist p v u, .whitelist c x q _ _ _ _ _ => p == q && v == x && u == c && provider w p == none && decide (oneEgld ≤ v)
  | _, _ => false

def callMon (w : World) (op : Op) (w' : World) : V :=
  chk "C46" (match op with
    | .deliver i _ | .starve i _ => decide (i < w.flights.length) && w'.flights == w.flights.eraseIdx i
    | _ => w'.flights.take w.flights.length == w.flights && (w'.flights.drop w.flights.length).all (mayCall w op)) ++
  (match op with
   | .claimRewards _ => chk "C46r" (w'.flights == w.flights ++ [.claim w.st.delegList] && w'.st == w.st && sameExcept [] w w' egldOf &&
       w'.ls == w.ls && w'.nft == w.nft)
   | .withdrawPending _ p => chk "C46p" (w'.flights == w.flights ++ [.withdraw p] && (provider w p).isSome && w'.st == w.st && sameExcept [] w w' egldOf &&
       w'.ls == w.ls && w'.nft == w.nft)
   | .whitelist c v p ad ts cap n apy => chk "C46w" (provider w' p == some ⟨ad, ts, cap, n, apy, 0, 0, true, 0, 0⟩ && sameProv [p] w w' &&
       egldOf w' c + v == egldOf w c && sameExcept [c] w w' egldOf && w'.st == { w.st with data := w'.st.data } && w'.ls == w.ls && w'.nft == w.nft)
   | .owner c cmd => chk "C47" (c == w.owner && w' == { w with st := w'.st } && (match cmd with
     | .stateActive => w'.st == { w.st with state := .active }
     | .stateInactive => w'.st == { w.st with state := .inactive }
     | .accumulator a => w'.st == { w.st with accumulator := a }
     | .fees v => w'.st == { w.st with feeRate := v }
     | .minimumRounds v => w'.st == { w.st with minimumRounds := v }
     | .maxAddresses v => v != 0 && w'.st == { w.st with maxDelegationAddresses := v }
     | .maxSelected v => v != 0 && w'.st == { w.st with maxSelectedProviders := v }
     | .unbondPeriod v => w'.st == { w.st with unbondPeriod := v }
     | .addManagers l => w'.st == { w.st with managers := w'.st.managers } && (accts w w').all fun a =>
         w'.st.managers.contains a == (w.st.managers.contains a || l.contains a)
     | .removeManager m => w'.st == { w.st with managers := w'.st.managers } && (accts w w').all fun a =>
         w'.st.managers.contains a == (w.st.managers.contains a && a != m)))
   | .setScoringConfig c cfg => chk "C47s" (isMgr w c && w' == { w with st := { w.st with scoring := some cfg } })
   | _ => [])

def tok (w : World) : TokenKind → Option TokenId
  | .ls => w.st.lsToken
  | .unstake => w.st.unstakeToken
def awaits (w : World) (k : TokenKind) : Bool := w.issues.any (·.kind == k)

def issueMon (w : World) (op : Op) (r : Option World) : V :=
  (match op with
   | .registerLsToken c v => start .ls c v r
   | .registerUnstakeToken c v => start .unstake c v r
   | .issued i o => (match w.issues[i]?, o, r with
     | some x, some id, some w' => chk "C55s" (tok w x.kind == none && tok w' x.kind == some id && !awaits w' x.kind && sameExcept [] w w' egldOf &&
         w'.st.r == w.st.r && [TokenKind.ls, .unstake].all fun k => k == x.kind || (tok w' k == tok w k && awaits w' k == awaits w k))
     | some x, none, some w' => chk "C55f" (egldOf w' x.caller == egldOf w x.caller + x.cost && sameExcept [x.caller] w w' egldOf &&
         [TokenKind.ls, .unstake].all (fun k => tok w' k == tok w k && (k == x.kind || awaits w' k == awaits w k)) && !awaits w' x.kind && w'.st.r == w.st.r &&
         (w.owner == w.self || (getW (step w' (match x.kind with | .ls => .registerLsToken w.owner (egldOf w' w.owner) | .unstake => .registerUnstakeToken w.owner (egldOf w' w.owner)))).isSome))
     | some x, o, none => chk "C55a" (o != none && [TokenKind.ls, .unstake].any fun k => k != x.kind && tok w k == o)
     | none, _, some _ => ["C55a"]
     | none, _, none => [])
   | _ => (match r with | some w' => chk "C55o" (tok w' .ls == tok w .ls && tok w' .unstake == tok w .unstake && w'.issues == w.issues) | none => []))
where
  start (k : TokenKind) (c : Addr) (v : Nat) (r : Option World) : V :=
    chk "C55i" (r.isSome == (c != w.self && c == w.owner && tok w k == none && !awaits w k && decide (v ≤ egldOf w c))) ++
    (match r with
     | some w' => chk "C55b" (w'.issues == w.issues ++ [⟨k, w.owner, v⟩] && egldOf w' w.owner + v == egldOf w w.owner && sameExcept [w.owner] w w' egldOf &&
        tok w' .ls == tok w .ls && tok w' .unstake == tok w .unstake && w'.st.r == w.st.r)
     | none => [])

def issueState (w : World) : V :=
  chk "C55f" (awaits w .ls == w.st.lsPending && awaits w .unstake == w.st.unstakePending) ++
  chk "C55" ((w.issues.filter (·.kind == .ls)).length ≤ 1 && (w.issues.filter (·.kind == .unstake)).length ≤ 1 &&
    [TokenKind.ls, .unstake].all (fun k => tok w k == none || !awaits w k) && w.issues.all (fun x => x.caller != w.self) &&
    (w.st.lsToken == none || w.st.lsToken != w.st.unstakeToken))

def viewMon (w : World) : V :=
  chk "C48" (match viewExchangeRate w with
    | .ok r => r == (if supply w = 0 then oneEgld else egldFor (supply w) (reserve w) oneEgld) && decide (oneEgld ≤ r)
    | _ => false) ++
  chk "C48a" (decide (supply w ≤ reserve w)) ++
  chk "C48p" ((provs w w).all fun p => (match viewStaked w p with | .ok x => (provider w p).isSome && x == figure (·.staked) w p | _ => provider w p == none) &&
    (match viewUnstaked w p with | .ok x => (provider w p).isSome && x == figure (·.unstaked) w p | _ => provider w p == none))

def payMon (w : World) (op : Op) (r : Option World) : V :=
  match op with
  | .withdraw c 0 ps => chk "C50" (r.isSome == (w.st.state == .active && w.st.lsToken != none && w.st.unstakeToken != none && c != w.self &&
      ps.all (fun p => w.st.unstakeToken == some p.token && decide (0 < p.amount) && (match maturityOf w p.nonce with | some e => decide (e ≤ w.epoch) | none => false)) &&
      ps.all (fun p => decide (paidWith p.nonce ps ≤ unstakeOf w p.nonce c)) &&
      (splits ps).all fun (ps1, _, _) => decide (totalPaid ps1 < withdrawable w)))
  | .unDelegatePending _ _ => if whole (toUndelegate w) then [] else chk "C53d" r.isNone
  | _ => []

def outsider (w : World) (x : Addr) : Bool :=
  !isMgr w x && w.st.migrationSc != some x && (provs w w).all fun p => match provider w p with | some d => d.admin != x | none => true
def named : Op → List Addr
  | .owner _ (.addManagers l) => l
  | .changeOwner _ d => [d]
  | .setMigrationSc _ a => [a]
  | .whitelist _ _ _ a _ _ _ _ => [a]
  | .changeAdmin _ _ a => [a]
  | _ => []
def callerB : Op → Option Addr
  | .owner c _ | .changeOwner c _ | .setMigrationSc c _ | .whitelist c _ _ _ _ _ _ _ | .changeAdmin c _ _ => some c
  | _ => none
def creditB (w : World) : Op → Nat
  | .addRewards _ v => v
  | .deliver i (.ok _ r) => (match w.flights[i]? with | some (.claim _) => r - r * w.st.feeRate / 10000 | _ => 0)
  | _ => 0

/-- What a successful transaction must satisfy. -/
def okMon (w : World) (op : Op) (w' : World) : V :=
  chk "C25" (authorized w op) ++
  (if callerless op then chk "C25n" (w'.st == w.st) else []) ++
  (if w.st.state == .inactive then chk "C26" (!pausable op) else []) ++
  (if 0 < supply w && 0 < supply w' then chkp "C03" (reserve w * supply w' ≤ reserve w' * supply w) else []) ++
  chk "C27" (
    (w'.st.feeRate == w.st.feeRate || op == .owner w.owner (.fees w'.st.feeRate)) &&
    (w'.st.accumulator == w.st.accumulator || op == .owner w.owner (.accumulator w'.st.accumulator)) &&
    (w'.st.unbondPeriod == w.st.unbondPeriod || op == .owner w.owner (.unbondPeriod w'.st.unbondPeriod)) &&
    (w'.st.minimumRounds == w.st.minimumRounds || op == .owner w.owner (.minimumRounds w'.st.minimumRounds)) &&
    (w'.st.maxDelegationAddresses == w.st.maxDelegationAddresses || op == .owner w.owner (.maxAddresses w'.st.maxDelegationAddresses)) &&
    (w'.st.maxSelectedProviders == w.st.maxSelectedProviders || op == .owner w.owner (.maxSelected w'.st.maxSelectedProviders)) &&
    (w'.st.state == w.st.state || (w'.st.state == .active && op == .owner w.owner .stateActive) ||
      (w'.st.state == .inactive && op == .owner w.owner .stateInactive)) &&
    (w'.st.managers == w.st.managers || (match op with
      | .owner o (.addManagers l) => o == w.owner && (accts w w').all fun a => w'.st.managers.contains a == (w.st.managers.contains a || l.contains a)
      | .owner o (.removeManager m) => o == w.owner && (accts w w').all fun a => w'.st.managers.contains a == (w.st.managers.contains a && a != m)
      | _ => false)) &&
    (w'.st.migrationSc == w.st.migrationSc || (match op with | .setMigrationSc o a => o == w.owner && w'.st.migrationSc == some a | _ => false)) &&
    (w'.st.lsToken == w.st.lsToken || (match op with | .issued i (some id) => (match w.issues[i]? with | some x => x.kind == .ls | none => false) && w.st.lsToken == none && w'.st.lsToken == some id | _ => false)) &&
    (w'.st.unstakeToken == w.st.unstakeToken || (match op with | .issued i (some id) => (match w.issues[i]? with | some x => x.kind == .unstake | none => false) && w.st.unstakeToken == none && w'.st.unstakeToken == some id | _ => false)) &&
    (w'.st.scoring == w.st.scoring || (match op with | .setScoringConfig c cfg => isMgr w c && w'.st.scoring == some cfg | _ => false)) &&
    w'.st.roundsPerEpoch == w.st.roundsPerEpoch && (w'.owner == w.owner || op == .changeOwner w.owner w'.owner) && w'.self == w.self) ++
  (match op with | .changeOwner _ d => chk "C73h" (w' == { w with owner := d }) | _ => []) ++
  chk "C73" ((41 :: 42 :: 4 :: 99 :: accts w w').all fun x => !outsider w x || outsider w' x ||
    ((named op).contains x && (match callerB op with | some c => isMgr w c | none => false))) ++
  (if 0 < supply w && 0 < supply w' then
    let x := creditB w op
    chk "C72" (decide ((reserve w + x) * supply w' ≤ reserve w' * supply w) &&
      decide (reserve w' * supply w ≤ (reserve w + x) * supply w' + max (reserve w) (supply w)) &&
      (x == 0 || (supply w' == supply w && reserve w' == reserve w + x && sameExcept [] w w' lsOf)))
   else []) ++
  chk "C31r" (w.st.delegList.all fun p => w'.st.delegList.contains p && w'.st.undelegList.contains p && (provider w' p).isSome) ++
  (let evs := w'.events.drop w.events.length
   chk "C40" (w'.events.take w.events.length == w.events && evs.all (reports w') &&
    (w'.st.r == w.st.r || (match op with | .claimFees .. => true | _ => false) || evs.any isLiq))) ++
  chk "C13b" ((nonces w w').all fun n => (accts w w').all fun a => a == w.self || unstakeOf w n a ≤ unstakeOf w' n a ||
    (match op with | .withdraw c _ _ => c == a | .transferNft s _ m _ => s == a && m == n | .burnUnstake s m _ | .giveUnstake s m _ => s == a && m == n | _ => false)) ++
  (if supply w' == 0 && 0 < reserve w' && !(supply w == 0 && 0 < reserve w) then
    chk "C35" (supply w == 0 && reserve w == 0 && (match op with
      | .addRewards .. => true
      | .deliver i _ => (match w.flights[i]? with | some (.claim _) => true | _ => false)
      | _ => false)) else []) ++
  (let joined := (provs w w').filter fun p => !w.st.delegList.contains p && w'.st.delegList.contains p
   chk "C29j" (joined.all fun p => match op with
    | .deliver i (.ok _ _) => (match w.flights[i]? with
      | some (.whitelist q x u) => p == q && decide (oneEgld ≤ x) && u != w.self && w'.st.undelegList.contains p &&
        figure (·.staked) w' p == x && decide (0 < lsFor (supply w) (reserve w) x) &&
        lsOf w' u == lsOf w u + lsFor (supply w) (reserve w) x && supply w' == supply w + lsFor (supply w) (reserve w) x &&
        reserve w' == reserve w + x
      | _ => false)
    | _ => false)) ++
  match op with
  | .delegate c a =>
    let l := lsFor (supply w) (reserve w) a
    chk "C01" (egldOf w' c + a == egldOf w c && lsOf w' c == lsOf w c + l && supply w' == supply w + l && reserve w' == reserve w + a &&
      egldOf w' w.self == egldOf w w.self + a && sameExcept [c, w.self] w w' egldOf && sameExcept [c] w w' lsOf && sameNft [] w w') ++
    (let i := toUndelegate w - toUndelegate w'
     let u := pendingEgld w' - pendingEgld w
     chk "C14d" (isSplit (toUndelegate w) a i u && toUndelegate w' + i == toUndelegate w && withdrawable w' == withdrawable w + i &&
       pendingEgld w' == pendingEgld w + u)) ++
    (match viewEgldPosition w a with
     | .ok (l, v) => chk "C28d" (v == w && lsOf w' c == lsOf w c + l)
     | _ => ["C28d"]) ++
    (if supply w == 0 then [] else
      let l := lsOf w' c - lsOf w c
      match w'.st.lsToken with
      | none => []
      | some t => match step w' (.unDelegate c 0 [⟨t, 0, l⟩]) with
        | .ok w2 => (match paidOut w' w2 c with
          | some (i, u) => chkp "C04" (i + u ≤ a ∧ (a - (i + u)) * supply w < reserve w + supply w)
          | none => ["C04"])
        | _ => [])
  | .unDelegate c v ps =>
    (match ps with
     | [⟨t, n, l⟩] =>
       (match paidOut w w' c with
        | some (i, u) =>
          chk "C02" (w.st.lsToken == some t && n == 0 && v == 0 && c != w.self && i + u == egldFor (supply w) (reserve w) l &&
            lsOf w' c + l == lsOf w c && supply w' + l == supply w && reserve w' + (i + u) == reserve w &&
            egldOf w' w.self + i == egldOf w w.self && sameExcept [c, w.self] w w' egldOf && sameExcept [c] w w' lsOf &&
            sameNft [c, w.self] w w') ++
          chk "C14u" (isSplit (pendingEgld w) (egldFor (supply w) (reserve w) l) i u && pendingEgld w' + i == pendingEgld w &&
            toUndelegate w' == toUndelegate w + u && withdrawable w' == withdrawable w) ++
          (match viewLsValue w l with
           | .ok (e, v) => chk "C28u" (v == w && i + u == e)
           | _ => ["C28u"])
        | none => ["C02"])
     | _ => ["C02"]) ++
    chk "C12" ((nonces w w').all fun n => unstakeOf w' n c ≤ unstakeOf w n c || maturityOf w' n == some (w.epoch + w.st.unbondPeriod))
  | .withdraw c v ps =>
    let x := min (totalPaid ps) (withdrawable w)
    let burned := (nonces w w').map fun n => unstakeOf w n c - unstakeOf w' n c
    chk "C10" (ps.all fun p => w.st.unstakeToken == some p.token && (match maturityOf w p.nonce with | some e => decide (e ≤ w.epoch) | _ => false)) ++
    chk "C11" (burned.sum == x && (nonces w w').all (fun n => decide (unstakeOf w' n c ≤ unstakeOf w n c) && decide (unstakeOf w n c - unstakeOf w' n c ≤ paidWith n ps)) &&
      egldOf w' c + v == egldOf w c + x && egldOf w' w.self + x == egldOf w w.self + v && withdrawable w' + x == withdrawable w &&
      w'.st == { w.st with r := { w.st.r with withdrawn := withdrawable w' } } && sameExcept [c, w.self] w w' egldOf &&
      sameNft [c] w w' && sameExcept [] w w' lsOf)
  | .delegatePending _ o =>
    (match batchOf w w' false with
     | none => ["C17"]
     | some b =>
       chk "C17" (validBatch (pendingEgld w) o && pendingEgld w' + batchTotal b == pendingEgld w &&
        decide (batchTotal b ≤ batchAsked (pendingEgld w) o) && egldOf w' w.self + batchTotal b == egldOf w w.self &&
        sameExcept [w.self] w w' egldOf && w'.st.r == { w.st.r with pending := pendingEgld w' } &&
        (provs w w').all (fun p => provider w' p == (provider w p).map fun d => { d with pStake := d.pStake + batchFor p b }) &&
        w'.ls == w.ls && w'.nft == w.nft) ++
       chk "C18" (decide (b.map Prod.fst).Nodup && b.all (fun (p, a) => w.st.delegList.contains p &&
          (match provider w p with | some d => d.eligible | none => false) && decide (oneEgld ≤ a)) &&
          decide (b.length ≤ w.st.maxSelectedProviders) && decide (b.length ≤ w.st.delegList.length) &&
          decide (b.length ≤ batchAsked (pendingEgld w) o / oneEgld)) ++
       chk "C32" (w'.st.delegList == w.st.delegList.filter (fun p => p ∉ b.map Prod.fst) ++ b.map Prod.fst &&
          w'.st.undelegList == w.st.undelegList && decide ((b.map Prod.fst).Sublist w.st.delegList)) ++
       chk "C19" (b.all fun (p, a) => match provider w p with
          | some d => d.cap == 0 || (decide (netStake w p + oneEgld ≤ d.cap) && decide (d.totalStaked + a ≤ d.cap) &&
            netStake w' p == netStake w p + a && decide (netStake w' p + oneEgld + d.totalStaked ≤ 2 * d.cap))
          | none => false) ++ shareMon w (batchAsked (pendingEgld w) o) b)
  | .unDelegatePending _ o =>
    (match batchOf w w' true with
     | none => ["C20"]
     | some b =>
       chk "C20" (validBatch (toUndelegate w) o && toUndelegate w' + batchTotal b == toUndelegate w &&
        decide (batchTotal b ≤ batchAsked (toUndelegate w) o) && decide (b.map Prod.fst).Nodup &&
        decide (b.length ≤ w.st.maxSelectedProviders) && b.all (fun (p, a) => w.st.undelegList.contains p && decide (oneEgld ≤ a) &&
          decide (a ≤ netStake w p) && whole (netStake w p - a) && netStake w' p + a == netStake w p) &&
        sameExcept [] w w' egldOf && w'.st.r == { w.st.r with toUnstake := toUndelegate w' } &&
        (provs w w').all (fun p => provider w' p == (provider w p).map fun d => { d with pUnstake := d.pUnstake + batchFor p b }) &&
        w'.ls == w.ls && w'.nft == w.nft) ++
       chk "C32" (w'.st.undelegList == w.st.undelegList.filter (fun p => p ∉ b.map Prod.fst) ++ b.map Prod.fst &&
          w'.st.delegList == w.st.delegList && decide ((b.map Prod.fst).Sublist w.st.undelegList)) ++
       lossMon w (batchAsked (toUndelegate w) o) b)
  | .claimFees _ _ =>
    chk "C24" (decide (0 < feesReserve w) && w.st.accumulator != w.self &&
      egldOf w' w.st.accumulator == egldOf w w.st.accumulator + feesReserve w && egldOf w' w.self + feesReserve w == egldOf w w.self &&
      sameExcept [w.self, w.st.accumulator] w w' egldOf && w' == { w with egld := w'.egld, st := { w.st with r := { w.st.r with fees := 0 } } })
  | .whitelist c v p _ _ _ _ _ =>
    chk "C29o" (provider w p == none && decide (oneEgld ≤ v) && w'.flights == w.flights ++ [.whitelist p v c] && w'.st.delegList == w.st.delegList) ++
    chk "C30" (decide (w.st.delegList.length ≤ w.st.maxDelegationAddresses))
  | .changeAdmin _ p a => chk "C43a" ((match provider w p with | some d => provider w' p == some { d with admin := a } | none => false) &&
      sameProv [p] w w' && w' == { w with st := { w.st with data := w'.st.data } })
  | .changeParams _ p ts cap n apy e => chk "C43p" ((match provider w p with
      | some d => provider w' p == some { d with totalStaked := ts, cap := cap, nrNodes := n, apy := apy, eligible := e } | none => false) &&
      (cap == 0 || decide (ts ≤ cap)) && sameProv [p] w w' && w' == { w with st := { w.st with data := w'.st.data } })
  | .migrate c v _ =>
    let l := lsFor (supply w) (reserve w) v
    chk "C39m" (w.st.migrationSc == some c && lsOf w' c == lsOf w c + l && sameExcept [c] w w' lsOf && supply w' == supply w + l &&
      reserve w' == reserve w + v && sameExcept [] w w' egldOf && sameNft [] w w' && pendingEgld w' == pendingEgld w &&
      toUndelegate w' == toUndelegate w && unbonding w' == unbonding w && withdrawable w' == withdrawable w && feesReserve w' == feesReserve w)
  | .migratePending c v => chk "C39p" (w.st.migrationSc == some c && w'.st == { w.st with r := { w.st.r with pending := w.st.r.pending + v } } &&
      egldOf w' c + v == egldOf w c && egldOf w' w.self == egldOf w w.self + v && sameExcept [c, w.self] w w' egldOf && sameExcept [] w w' lsOf && sameNft [] w w')
  | .setScoringConfig _ cfg => chkp "C34" (w'.st.scoring = some cfg ∧ (cfg.stakeWeight.toNat + cfg.apyWeight.toNat + cfg.nodesWeight.toNat) % 2 ^ 64 = 100)
  | .deliver i o =>
    (match w.flights[i]?, o with
     | some (.withdraw p), .ok x _ =>
       if x ≤ figure (·.unstaked) w p then chk "C44m" (unbonding w' + x == unbonding w && withdrawable w' == withdrawable w + x &&
         figure (·.unstaked) w' p + x == figure (·.unstaked) w p && egldOf w' w.self == egldOf w w.self + x && sameProv [p] w w' &&
         figure (·.staked) w' p == figure (·.staked) w p && figure (·.pStake) w' p == figure (·.pStake) w p && figure (·.pUnstake) w' p == figure (·.pUnstake) w p &&
         pendingEgld w' == pendingEgld w && reserve w' == reserve w && supply w' == supply w && feesReserve w' == feesReserve w && toUndelegate w' == toUndelegate w)
       else []
     | _, _ => [])
  | _ => []

/-- Deliveries with a prescribed effect (they must succeed). -/
def mustMon (w : World) (op : Op) (r : Option World) : V :=
  match op with
  | .deliver i o =>
    (match w.flights[i]?, o, r with
     | some (.delegate p a), .err, some w' => (match provider w p with
        | some d => chk "C22d" (decide (a ≤ d.pStake) && w'.flights == w.flights.eraseIdx i && w'.dead == w.dead &&
            w'.st.r == { w.st.r with pending := pendingEgld w + a } && provider w' p == some { d with eligible := false, pStake := d.pStake - a } &&
            sameProv [p] w w' && egldOf w' w.self == egldOf w w.self + a && sameExcept [w.self] w w' egldOf && w'.ls == w.ls && w'.nft == w.nft &&
            w'.st.delegList == w.st.delegList && w'.st.undelegList == w.st.undelegList)
        | none => ["C22d"])
     | some (.undelegate p a), .err, some w' => (match provider w p with
        | some d => chk "C22u" (decide (a ≤ d.pUnstake) && w'.flights == w.flights.eraseIdx i && w'.dead == w.dead &&
            w'.st.r == { w.st.r with toUnstake := toUndelegate w + a } && provider w' p == some { d with pUnstake := d.pUnstake - a } &&
            sameProv [p] w w' && sameExcept [] w w' egldOf && w'.ls == w.ls && w'.nft == w.nft &&
            w'.st.delegList == w.st.delegList && w'.st.undelegList == w.st.undelegList)
        | none => ["C22u"])
     | some (.claim ps), .ok g r, some w' =>
        if 0 < r && w.st.feeRate ≤ 10000 then
          let f := r * w.st.feeRate / 10000
          chk "C23" (w'.flights == w.flights.eraseIdx i && w'.dead == w.dead &&
            w'.st == { w.st with r := { w.st.r with fees := feesReserve w + f, pending := pendingEgld w + (r - f), reserve := reserve w + (r - f) } } &&
            egldOf w' w.self == egldOf w w.self + g && sameExcept [w.self] w w' egldOf && w'.ls == w.ls && w'.nft == w.nft)
        else if 10000 ≤ r && 10000 < w.st.feeRate then
          chk "C23l" (w'.st == w.st && egldOf w' w.self == egldOf w w.self + g && w'.flights == w.flights.eraseIdx i && w'.dead == w.dead ++ [.claim ps])
        else []
     | some (.whitelist p x u), .err, some w' =>
        if w.st.lsToken != none then
          chk "C29r" (provider w' p == none && !w'.st.delegList.contains p && !w'.st.undelegList.contains p && egldOf w' u == egldOf w u + x &&
            sameExcept [u] w w' egldOf && w'.st.r == w.st.r && sameProv [p] w w' && w'.flights == w.flights.eraseIdx i)
        else []
     | some _, _, none => ["deliver"]
     | _, _, _ => [])
  | .delegate c a =>
    if w.st.state == .active && w.st.lsToken != none && c != w.self && a ≤ egldOf w c && oneEgld ≤ a && 0 < lsFor (supply w) (reserve w) a then
      chk "C15" r.isSome else []
  | .unDelegate c v [⟨t, 0, l⟩] =>
    if w.st.state == .active && w.st.lsToken == some t && w.st.unstakeToken != none && c != w.self && v == 0 && l ≤ lsOf w c &&
      oneEgld ≤ egldFor (supply w) (reserve w) l then chk "C16" r.isSome else []
  | .claimFees c true =>
    if c != w.self && 0 < feesReserve w && w.st.accumulator != w.self then chk "C24s" r.isSome else []
  | .withdraw _ _ ps =>
    if ps.any fun p => match maturityOf w p.nonce with | some e => decide (w.epoch < e) | none => false then chk "C10i" r.isNone else []
  | .delegatePending c o =>
    if c != w.self && w.st.lsToken != none && w.st.state == .active && isMgr w c && validBatch (pendingEgld w) o &&
      (match w.st.scoring with | some cfg => cfg.minNodes != cfg.maxNodes && cfg.minApy != cfg.maxApy | none => false) &&
      w.st.delegList.all (fun p => match provider w p with
        | some d => !d.eligible || (decide (d.pUnstake ≤ d.staked + d.pStake) && (d.cap == 0 || decide (netStake w p ≤ d.cap))) | none => false) &&
      w.st.delegList.any (fun p => match provider w p with
        | some d => d.eligible && (d.cap == 0 || decide (netStake w p + oneEgld ≤ d.cap)) | none => false)
    then chk "C36" r.isSome else []
  | _ => []

def und37 (noFail : Bool) (w : World) (op : Op) (r : Option World) : V :=
  match op with
  | .unDelegatePending c o =>
    if noFail && c != w.self && w.st.lsToken != none && w.st.state == .active && isMgr w c && validBatch (toUndelegate w) o &&
      (match w.st.scoring with | some cfg => cfg.minNodes != cfg.maxNodes && cfg.minApy != cfg.maxApy | none => false) &&
      w.st.maxSelectedProviders < 2 ^ 32 && w.st.undelegList.any (fun p => 0 < netStake w p) then chk "C37s" r.isSome else []
  | _ => []

/-! ### Pseudo-random executions -/

structure G where
  seed : Nat

abbrev M := StateM G

def rnd (n : Nat) : M Nat := do
  let s ← get
  let x := (s.seed * 6364136223846793005 + 1442695040888963407) % 2 ^ 64
  set (G.mk x)
  return (x / 2 ^ 20) % (max n 1)

def pick {α} [Inhabited α] (l : List α) : M α := do return l[← rnd l.length]!

def amount (hint : Nat) : M Nat := do
  match ← rnd 12 with
  | 0 => return E (← rnd 40)
  | 1 => return E (1 + (← rnd 5)) + (← rnd 1000000000000000000)
  | 2 => return hint
  | 3 => return hint - E 1
  | 4 => return hint + E 1
  | 5 => return hint / 2
  | 6 => return hint + (← rnd 900000000000000000)
  | 7 => return E 1
  | 8 => return ← rnd 1200000000000000000
  | 9 => return hint - (← rnd 900000000000000000)
  | 10 => return (← rnd 4)
  | _ => return E (10 + (← rnd 90))

def who : M Addr := do if (← rnd 10) < 9 then pick [11, 12, 13] else pick [1, 3, 4, 41, 99, 1000]
def u64 (n : Nat) : M UInt64 := do return UInt64.ofNat (← rnd n)

def genOutcome (w : World) (f : Flight) : M Outcome := do
  match f with
  | .withdraw p =>
    match ← rnd 5 with
    | 0 => if (← rnd 3) = 0 then return .ok (figure (·.unstaked) w p + (← rnd 3)) 0 else return .err
    | 1 => return .ok (← rnd (figure (·.unstaked) w p + 1)) 0
    | _ => return .ok (figure (·.unstaked) w p) 0
  | .claim _ => if (← rnd 6) = 0 then return .err else
      let r ← amount (E 3)
      return .ok r r
  | _ => if (← rnd 5) = 0 then return .err else return .ok 0 0

def genOp (fees starve : Bool) (w : World) : M Op := do
  let own : M Addr := do if (← rnd 6) < 5 then return w.owner else pick [1, 4, 11, 99]
  let mgr : M Addr := do if (← rnd 8) < 7 then pick [w.owner, 4] else pick [1, 11, 42, 99, 3, 1000]
  match ← rnd 40 with
  | 0 | 1 | 2 | 3 | 4 => return .delegate (← who) (← amount (toUndelegate w))
  | 5 | 6 | 7 | 8 =>
    let c ← who
    let l ← match ← rnd 4 with
      | 0 => pure (lsOf w c)
      | 1 => pure (lsOf w c / 2)
      | _ => amount (if reserve w = 0 then 0 else pendingEgld w * supply w / reserve w)
    let t ← if (← rnd 10) = 0 then pick [501, 7, 7] else pure 500
    return .unDelegate c (if (← rnd 20) = 0 then 1 else 0) (if (← rnd 25) = 0 then [⟨t, 0, l⟩, ⟨t, 0, l⟩] else [⟨t, 0, min l (lsOf w c)⟩])
  | 9 | 10 | 11 =>
    let mine := w.nft.filter fun e => e.2 ≠ 0 ∧ (e.1.2 ≠ w.self ∨ w.epoch % 7 = 0)
    if mine.isEmpty then return .advance w.epoch
    let e ← pick mine
    let e2 ← pick mine
    let a ← match ← rnd 3 with | 0 => amount e.2 | 1 => pure (e.2 / 2) | _ => pure e.2
    let ps := [(⟨501, e.1.1, a⟩ : Payment)] ++ (if e2.1.2 = e.1.2 ∧ (← rnd 2) = 0 then [⟨501, e2.1.1, e2.2 / 3⟩] else [])
    if (← rnd 12) = 0 then return .withdraw (← who) (← pick [0, 0, 5]) []
    return .withdraw e.1.2 0 ps
  | 12 | 13 | 14 => do
    let a ← amount (pendingEgld w)
    return .delegatePending (← mgr) (if (← rnd 2) = 0 then none else some a)
  | 15 | 16 | 17 => do
    let a ← amount (toUndelegate w)
    return .unDelegatePending (← mgr) (if (← rnd 2) = 0 then none else some a)
  | 18 | 19 => return .withdrawPending (← mgr) (← pick [21, 22, 23, 24, 25])
  | 20 => return .claimRewards (← mgr)
  | 21 => return .claimFees (← who) ((← rnd 4) ≠ 0)
  | 22 => return .whitelist (← mgr) (← pick [E 1, E 2, E 1 - 1, E 3 + 5]) (← pick [21, 22, 23, 24, 25]) (← pick [41, 42]) (← pick [0, E 5, E 10]) (← pick [0, E 10, E 15, E 200]) (← u64 120) (500 + (← u64 600))
  | 23 => return .changeParams (← pick [1, 4, 41, 42, 41, 42, 11]) (← pick [21, 22, 23, 24, 25]) (← pick [0, E 5, E 10]) (← pick [0, E 40, E 200, E 500, E 7]) (← u64 120) (500 + (← u64 600)) ((← rnd 5) ≠ 0)
  | 24 => return .changeAdmin (← mgr) (← pick [21, 22, 23, 24]) (← pick [41, 42, 4])
  | 25 => return .migrate (← pick [3, 3, 3, 11]) (← amount (E 2)) 12
  | 26 => return .migratePending (← pick [3, 3, 3, 11]) (← amount (E 2))
  | 27 => return .addRewards (← who) (← amount (E 1))
  | 28 =>
    let c ← own
    match ← rnd 12 with
    | 0 => return .owner c .stateInactive
    | 1 => return .owner c (.accumulator (← pick [2, 2, 99, 1000]))
    | 2 => return .owner c (.fees (← pick (if fees then [0, 400, 10000, 10001, 20000] else [0, 400, 1000, 10000])))
    | 3 => return .owner c (.minimumRounds (← u64 20))
    | 4 => return .owner c (.maxAddresses (← rnd 6))
    | 5 => return .owner c (.maxSelected (← rnd 4))
    | 6 => return .owner c (.unbondPeriod (← u64 12))
    | 7 => return .owner c (.addManagers [(← pick [4, 41]), (← pick [4, 99, 1000])])
    | 8 => return .owner c (.removeManager (← pick [4, 41, 99]))
    | _ => return .owner c .stateActive
  | 29 => return .setScoringConfig (← mgr) { ScoringConfig.default with
      stakeWeight := (← pick [40, 30, 100]), nodesWeight := (← pick [10, 20, 0]), minNodes := (← pick [ScoringConfig.default.minNodes, 5000]) }
  | 30 => return .viewLsValue (← amount (E 1))
  | 31 => return .transferLs (← who) (← pick [11, 12, 13, 1000, 1000]) (← amount (E 1))
  | 32 =>
    let mine := w.nft.filter fun e => e.2 ≠ 0
    if mine.isEmpty then return .owner w.owner .stateActive
    let e ← pick mine
    return .transferNft e.1.2 (← pick [11, 12, 13]) e.1.1 (← amount e.2)
  | 33 => return .advance (w.epoch + (← u64 6))
  | 34 => if (← rnd 3) = 0 then return .changeOwner (← own) (← pick [1, 1, 4, 12]) else return .setMigrationSc (← own) (← pick [3, 2, 3, 7])
  | 35 => if (← rnd 2) = 0 then return .registerLsToken (← own) (← rnd 3) else return .registerUnstakeToken (← own) (← rnd 3)
  | 36 => if w.issues.isEmpty then return .registerLsToken (← own) 1 else
      return .issued (← rnd w.issues.length) (← pick [none, some 500, some 501, some 501])
  | 37 => match ← rnd 8 with
    | 3 => if (← rnd 3) = 0 then return .giveEgld (← pick [2, 3, 11, 12]) (← amount (E 1)) else return .transferEgld (← who) (← pick [2, 3, 12]) (← amount (E 1))
    | 4 => if (← rnd 2) = 0 then return .giveLs (← pick [2, 3, 2, 3, 11]) (← amount (E 1)) else return .transferLs (← pick [11, 12]) (← pick [2, 3]) (E 3)
    | 5 | 6 => do
      let mine := w.nft.filter fun e => e.2 ≠ 0
      if mine.isEmpty then return .giveUnstake 2 1 1
      let e ← pick mine
      if w.contracts.contains e.1.2 then return .giveUnstake e.1.2 e.1.1 (e.2 / 2 + 1)
      if (← rnd 3) = 0 then return .giveUnstake e.1.2 e.1.1 (e.2 / 2)
      return .transferNft e.1.2 (← pick [2, 3]) e.1.1 (e.2 / 2)
    | 0 => return .owner w.owner .stateActive
    | 1 => return .burnLs (← who) (← amount (E 1))
    | 2 => do
      let mine := w.nft.filter fun e => e.2 ≠ 0
      if mine.isEmpty then return .burnUnstake (← who) 1 (← amount 1)
      let e ← pick mine
      return .burnUnstake e.1.2 e.1.1 (← amount (e.2 / 3))
    | _ =>
      if starve = false ∨ w.flights.isEmpty then return .burnLs (← who) (← rnd 1000) else
      let i ← rnd w.flights.length
      return .starve i (← genOutcome w (w.flights[i]!))
  | _ =>
    if w.flights.isEmpty then return .advance (w.epoch + 1) else
    let i ← rnd w.flights.length
    return .deliver i (← genOutcome w (w.flights[i]!))

def add (acc : List (String × Nat)) (v : V) : List (String × Nat) :=
  v.foldl (fun acc s => if acc.any (·.1 = s) then acc.map (fun e => if e.1 = s then (e.1, e.2 + 1) else e) else acc ++ [(s, 1)]) acc

structure T where
  w : World
  noFail : Bool := true
  starved : Bool := false
  maturity : List (Nat × UInt64) := []
  issued : Nat := 0
  paid : Nat := 0
  ok : Nat := 0
  bad : List (String × Nat) := []

def nodup (l : List Addr) : Bool := l.eraseDups.length == l.length

def tokensIn (C : List Addr) (w : World) : Nat := (w.nft.filter fun e => C.contains e.1.2).foldl (fun s e => s + e.2) 0
def worthIn (C : List Addr) (w : World) : ℚ := worth C.toFinset w (tokensIn C w)

def closed (C : List Addr) (w : World) : Op → Bool
  | .delegate c _ | .unDelegate c _ _ | .addRewards c _ => C.contains c
  | .transferLs s d _ => C.contains s || !C.contains d
  | .transferNft s d _ _ => C.contains s || !C.contains d
  | .transferEgld s d _ => C.contains s || !C.contains d
  | .claimFees _ _ => !C.contains w.st.accumulator
  | .migrate _ _ _ => false
  | .fund a _ => !C.contains a
  | .issued _ o => o != none
  | .starve .. => true
  | .deliver i _ => match w.flights[i]? with | some (.delegate ..) | some (.undelegate ..) | some (.withdraw _) => true | _ => false
  | _ => true

def senderIs (op : Op) (a : Addr) : Bool := senderOf op == some a

/-- C60, C62, C63, C56, C31, C12 for one successful transaction. -/
def econMon (w : World) (op : Op) (w' : World) : V :=
  let others := (accts w w').filter fun a => a ≠ w.self && !senderIs op a
  chk "C60" (others.all fun a => decide (egldOf w a ≤ egldOf w' a) && decide (lsOf w a ≤ lsOf w' a) &&
    (nonces w w').all fun n => decide (unstakeOf w n a ≤ unstakeOf w' n a)) ++
  (([[11], [12], [11, 12], [11, 12, 13, 1]] : List (List Addr)).flatMap fun C =>
    if closed C w op then chk "C63" (decide (worthIn C w' ≤ worthIn C w)) else []) ++
  chk "C56" ((w'.egld.foldl (fun s e => s + e.2) 0) + allCarried w'.flights + costs w'.issues + leaving w op ==
    (w.egld.foldl (fun s e => s + e.2) 0) + allCarried w.flights + costs w.issues + entering w op) ++
  chk "C12e" (decide (w.epoch ≤ w'.epoch)) ++
  chk "C31d" (nodup w'.st.managers && nodup w'.st.delegList && nodup w'.st.undelegList) ++
  (match op with
  | .delegate c a =>
    chk "C15i" (pendingEgld w' == pendingEgld w || decide (oneEgld ≤ pendingEgld w')) ++
    [a / 2, a / 3, 1, oneEgld].flatMap fun x =>
      match getW (step w (.delegate c x)) with
      | none => []
      | some w1 => match getW (step w1 (.delegate c (a - x))) with
        | none => []
        | some w2 => if x ≤ a then chk "C62d" (decide (lsOf w2 c ≤ lsOf w' c)) else []
  | .unDelegate c 0 [⟨t, 0, a⟩] =>
    [a / 2, a / 3, 1, a - 1].flatMap fun x =>
      match getW (step w (.unDelegate c 0 [⟨t, 0, x⟩])) with
      | none => []
      | some w1 => match getW (step w1 (.unDelegate c 0 [⟨t, 0, a - x⟩])) with
        | none => []
        | some w2 => if x ≤ a then chk "C62r" (decide (egldOf w2 c + tokensIn [c] w2 ≤ egldOf w' c + tokensIn [c] w')) else []
  | _ => [])

/-- All parts that can differ between two worlds. -/
def partsOf (w w' : World) : List Part :=
  [.identity, .owner, .clock, .switch, .lsSlot, .unstakeSlot, .issuing, .supply, .reserve, .fees, .withdrawable, .pending, .queue, .unbonding, .feeRate,
   .accumulator, .roundsPerEpoch, .minimumRounds, .maxAddresses, .maxSelected, .unbondPeriod, .scoring, .managers, .migrationSc, .delegOrder,
   .undelegOrder, .lastNonce, .calls, .failed, .events, .migrated, .burnt] ++
  (provs w w').flatMap (fun p => [.listed p, .admin p, .terms p, .eligible p, .staked p, .unstaked p, .inFlightStake p, .inFlightUnstake p]) ++
  ((w.st.unstakeNonce ++ w'.st.unstakeNonce).map (fun e => Part.registry e.1)) ++
  ((w.attrs ++ w'.attrs).map (fun e => Part.attributes e.1)) ++
  (accts w w').flatMap (fun a => [.egld a, .ls a]) ++
  ((nonces w w').flatMap fun n => (accts w w').map fun a => Part.unstakes n a)

def callbackFails (w : World) : Flight → Outcome → Bool
  | .undelegate p a, .ok _ _ => figure (·.staked) w p < a
  | .withdraw p, .ok v _ => figure (·.unstaked) w p < v || unbonding w < v
  | .claim _, .ok _ r => r < r * w.st.feeRate / 10000
  | .whitelist _ a _, .ok _ _ => w.st.lsToken = none || lsFor (supply w) (reserve w) a = 0
  | .whitelist _ _ _, .err => w.st.lsToken = none
  | _, _ => false

/-- C64–C68 for one successful transaction. -/
def effMon (w : World) (op : Op) (w' : World) : V :=
  let t := touched w op
  chk "C64" ((partsOf w w').all fun x => decide (Same w w' x) || t.contains x) ++
  chk "C65" (w'.events == w.events ++ announced w op w') ++
  (let f := (lastFigures w'.events).getD emptyPool; chk "C66" (w'.st.r == f || w'.st.r == { f with fees := 0 })) ++
  (match op with | .claimFees .. => [] | _ => chk "C66r" (feesReserve w' + revenue w.events == feesReserve w + revenue w'.events)) ++
  (match op with
  | .deliver i o =>
    (match w.flights[i]? with
    | some f =>
      (if callbackFails w f o then chk "C67" (w'.dead == w.dead ++ [f] && w'.st == w.st && w'.ls == w.ls && w'.nft == w.nft)
      else chk "C67" (w'.dead == w.dead)) ++
      (List.range w.flights.length).flatMap (fun j =>
        match w.flights[j]? with
        | some g =>
          if j ≠ i ∧ Apart f g then
            [Outcome.err, .ok 0 0, .ok (E 1 / 3) (E 1 / 3)].flatMap fun q =>
              let a := exec w' (.deliver (if j < i then j else j - 1) q)
              let b := exec (exec w (.deliver j q)) (.deliver (if i < j then i else i - 1) o)
              chk "C71" ((partsOf a b).all (fun x => x == .calls || x == .failed || x == .events || decide (Same a b x)) &&
                a.flights == b.flights && a.dead.length == b.dead.length && a.dead.all (b.dead.contains ·) && b.dead.all (a.dead.contains ·))
          else []
        | none => [])
    | none => [])
  | .unDelegate c _ _ =>
    let u := toUndelegate w' - toUndelegate w
    if toUndelegate w < toUndelegate w' then
      let m := w.epoch + w.st.unbondPeriod
      let n := w.st.unstakeNonce.get 0 m
      if n ≠ 0 then chk "C68" (unstakeOf w' n c == unstakeOf w n c + u && unstakeOf w' n w.self == unstakeOf w n w.self && w'.lastNonce == w.lastNonce)
      else
        let k := w.lastNonce + 1
        chk "C68" (w'.lastNonce == k && unstakeOf w' k c == u && unstakeOf w' k w.self == 1 &&
          w'.attrs.get none k == some ⟨w.epoch, m⟩ && w'.st.unstakeNonce.get 0 m == k &&
          (match w.attrs.get none w.lastNonce with
          | none => true
          | some a => if a.unstakeEpoch < w.epoch then unstakeOf w' w.lastNonce w.self == 0 && w'.st.unstakeNonce.get 0 a.unbondEpoch == 0
              else unstakeOf w' w.lastNonce w.self == unstakeOf w w.lastNonce w.self && w'.st.unstakeNonce.get 0 a.unbondEpoch == w.lastNonce))
    else chk "C68n" (w'.nft == w.nft && w'.attrs == w.attrs && w'.lastNonce == w.lastNonce && w'.st.unstakeNonce == w.st.unstakeNonce)
  | _ => []) ++
  (w'.st.delegList.filter (fun p => !w.st.delegList.contains p)).flatMap (fun p =>
    chk "C32n" (w'.st.delegList == w.st.delegList ++ [p] && w'.st.undelegList == w.st.undelegList ++ [p]))

/-- C74, C75, C77, C78 for one successful transaction. -/
def lateMon (w : World) (op : Op) (w' : World) : V :=
  chk "C75" (spare w' == spare w + leftOver w op && decide (0 ≤ leftOver w op) && lsOf w' w.self == lsOf w w.self + lsGiven op) ++
  (match op with
  | .burnLs a v => chk "C74" (lsOf w' a + v == lsOf w a && w'.burntLs == w.burntLs + v && supply w' == supply w && reserve w' == reserve w &&
      w' == { w with ls := w'.ls, burntLs := w'.burntLs })
  | .burnUnstake a n v => chk "C74" (unstakeOf w' n a + v == unstakeOf w n a && w'.burntUnstake == w.burntUnstake + v &&
      w' == { w with nft := w'.nft, burntUnstake := w'.burntUnstake })
  | .starve i o => (match w.flights[i]? with
    | some f => chk "C78" (w'.flights == w.flights.eraseIdx i && w'.dead == w.dead ++ [f] && egldOf w' w.self == egldOf w w.self + brought f o &&
        sameExcept [w.self] w w' egldOf && w' == { w with flights := w'.flights, dead := w'.dead, egld := w'.egld })
    | none => ["C78"])
  | .giveEgld s v => chk "C79" (w.contracts.contains s && egldOf w' s + v == egldOf w s && egldOf w' w.self == egldOf w w.self + v &&
      sameExcept [s, w.self] w w' egldOf && w' == { w with egld := w'.egld })
  | .giveLs s v => chk "C79" (w.contracts.contains s && lsOf w' s + v == lsOf w s && lsOf w' w.self == lsOf w w.self + v &&
      sameExcept [s, w.self] w w' lsOf && w' == { w with ls := w'.ls })
  | .giveUnstake s n v => chk "C79" (w.contracts.contains s && unstakeOf w' n s + v == unstakeOf w n s && unstakeOf w' n w.self == unstakeOf w n w.self + v &&
      sameNft [s, w.self] w w' && w' == { w with nft := w'.nft, burntUnstake := w.burntUnstake + v })
  | _ => chk "C74c" (w'.burntLs == w.burntLs && w'.burntUnstake == w.burntUnstake)) ++
  chk "C78d" (w.dead.isPrefixOf w'.dead) ++
  (([[11], [12], [11, 12], [11, 12, 13, 1]] : List (List Addr)).flatMap fun C =>
    let reward := match op with | .addRewards .. => true | .deliver i _ => (match w.flights[i]? with | some (.claim _) => true | _ => false) | _ => false
    if closed C w op || (reward && (match op with | .addRewards c _ => !C.contains c | _ => true)) then
      chk "C77" (decide (worthIn C w' ≤ worthIn C w + (if supply w = 0 then 0 else (creditedBy w op : ℚ) * ((C.map (lsOf w)).sum : ℚ) / (supply w : ℚ))))
    else [])

/-! C69: when each transaction is accepted. -/

def looksAt (w : World) (A : Nat) : List Addr :=
  ((splits w.st.delegList).filter fun (l1, _, _) => decide ((l1.filter (openTo w)).length < howMany w A w.st.delegList.length)).map fun (_, p, _) => p
def looksBackAt (w : World) (A : Nat) : List Addr :=
  ((splits w.st.undelegList).filter fun (l1, _, _) =>
    let h := l1.filter fun q => decide (0 < netStake w q)
    decide (h.length < w.st.maxSelectedProviders) && (decide (h.length < howMany w A w.st.undelegList.length) || decide (expectedOf w A h < A))).map fun (_, p, _) => p
def notOver (d : ProviderData) : Bool := decide (d.pUnstake ≤ d.staked + d.pStake)
def inOrder (w : World) (p : Addr) : Bool := match provider w p with
  | some d => !d.eligible || (notOver d && (d.cap == 0 || decide (netStake w p ≤ d.cap)))
  | none => false
def scorable (w : World) (cfg : ScoringConfig) (p : Addr) : Bool := match provider w p with
  | some d => !(d.nrNodes == cfg.minNodes && d.nrNodes == cfg.maxNodes) && !(d.apy == cfg.minApy && d.apy == cfg.maxApy)
  | none => true
def canShareOut (w : World) (A : Nat) : Bool := match w.st.scoring with
  | some cfg => let l := looksAt w A
    l.all (inOrder w) && l.any (openTo w) && l.all fun p => !openTo w p || scorable w cfg p
  | none => false
def canCollect (w : World) (A : Nat) : Bool := match w.st.scoring with
  | some cfg => let l := looksBackAt w A
    l.all (fun p => match provider w p with | some d => notOver d | none => false) && l.any (fun p => decide (0 < netStake w p)) &&
      l.all fun p => netStake w p == 0 || (decide (oneEgld ≤ netStake w p) && scorable w cfg p)
  | none => false
def manager (w : World) (c : Addr) : Bool := c != w.self && isMgr w c
def running (w : World) : Bool := w.st.state == .active && w.st.lsToken != none
def migrator (w : World) (c : Addr) : Bool := c != w.self && w.st.migrationSc == some c && c != 0 && w.contracts.contains c
/-- Whatever is deferred of a payment satisfies `f`. -/
def deferred (q pay : Nat) (f : Nat → Bool) : Bool :=
  ([0, q, pay, q - oneEgld, pay - oneEgld, pay - (oneEgld - (q - pay))].filter fun i => decide (i ≤ pay) && isSplit q pay i (pay - i)).all fun i => i == pay || f (pay - i)

def acceptedB (w : World) : Op → Bool
  | .delegate c v => c != w.self && running w && decide (0 < v) && decide (v ≤ egldOf w c) && decide (0 < lsFor (supply w) (reserve w) v) &&
      deferred (toUndelegate w) v fun u => decide (oneEgld ≤ pendingEgld w + u)
  | .unDelegate c v ps => c != w.self && running w && v == 0 && (match ps with
      | [⟨t, 0, l⟩] => w.st.lsToken == some t && decide (0 < l) && decide (l ≤ lsOf w c) && decide (0 < egldFor (supply w) (reserve w) l) &&
        deferred (pendingEgld w) (egldFor (supply w) (reserve w) l) fun u => decide (oneEgld ≤ toUndelegate w + u) && w.st.unstakeToken != none
      | _ => false)
  | .withdraw c v ps => c != w.self && running w && w.st.unstakeToken != none && (v == 0 || ps.isEmpty) && decide (v ≤ egldOf w c) &&
      ps.all (fun p => w.st.unstakeToken == some p.token && decide (0 < p.amount) && (match maturityOf w p.nonce with | some e => decide (e ≤ w.epoch) | none => false)) &&
      (ps.map (·.nonce)).all (fun n => decide (paidWith n ps ≤ unstakeOf w n c)) && (splits ps).all fun (a, _, _) => decide (totalPaid a < withdrawable w)
  | .upgrade => true
  | .delegatePending c o => manager w c && running w && validBatch (pendingEgld w) o && canShareOut w (batchAsked (pendingEgld w) o)
  | .unDelegatePending c o => manager w c && running w && validBatch (toUndelegate w) o && canCollect w (batchAsked (toUndelegate w) o)
  | .withdrawPending c p => manager w c && running w && provider w p != none
  | .claimRewards c => manager w c && running w && !w.st.delegList.isEmpty
  | .claimFees c ok => c != w.self && w.st.lsToken != none && decide (0 < feesReserve w) && w.st.accumulator != w.self && ok
  | .whitelist c v p _ ts cap _ _ => manager w c && decide (w.st.delegList.length ≤ w.st.maxDelegationAddresses) &&
      decide (w.st.undelegList.length ≤ w.st.maxDelegationAddresses) && provider w p == none && (decide (ts ≤ cap) || cap == 0) && decide (oneEgld ≤ v) &&
      decide (v ≤ egldOf w c)
  | .changeAdmin c p _ => manager w c && provider w p != none
  | .changeParams c p ts cap _ _ _ => c != w.self && (decide (ts ≤ cap) || cap == 0) && (match provider w p with | some d => d.admin == c || isMgr w c | none => false)
  | .migrate c v _ => migrator w c && w.st.lsToken != none && decide (0 < lsFor (supply w) (reserve w) v)
  | .migratePending c v => migrator w c && w.st.lsToken != none && decide (v ≤ egldOf w c)
  | .addRewards c v => c != w.self && w.st.lsToken != none && decide (v ≤ egldOf w c)
  | .setMigrationSc c a => c != w.self && c == w.owner && w.contracts.contains a
  | .registerLsToken c v => c != w.self && c == w.owner && w.st.lsToken == none && !w.st.lsPending && decide (v ≤ egldOf w c)
  | .registerUnstakeToken c v => c != w.self && c == w.owner && w.st.unstakeToken == none && !w.st.unstakePending && decide (v ≤ egldOf w c)
  | .owner c (.maxAddresses n) => c != w.self && c == w.owner && decide (1 ≤ n)
  | .owner c (.maxSelected n) => c != w.self && c == w.owner && decide (1 ≤ n)
  | .owner c _ => c != w.self && c == w.owner
  | .setScoringConfig c cfg => manager w c && (cfg.stakeWeight.toNat + cfg.apyWeight.toNat + cfg.nodesWeight.toNat) % 2 ^ 64 == 100
  | .viewLsValue l => w.st.lsToken != none && decide (l ≤ supply w) && decide (0 < egldFor (supply w) (reserve w) l)
  | .viewEgldPosition e => w.st.lsToken != none && decide (0 < lsFor (supply w) (reserve w) e)
  | .deliver i _ | .starve i _ => decide (i < w.flights.length)
  | .issued i o => match w.issues[i]? with
    | some x => o == none || (if x.kind == .ls then w.st.unstakeToken else w.st.lsToken) != o
    | none => false
  | .transferLs src dst v => src != w.self && dst != w.self && decide (v ≤ lsOf w src)
  | .transferNft src dst n v => src != w.self && dst != w.self && decide (v ≤ unstakeOf w n src)
  | .transferEgld src dst v => src != w.self && dst != w.self && decide (v ≤ egldOf w src)
  | .giveEgld src v => src != w.self && w.contracts.contains src && decide (v ≤ egldOf w src)
  | .giveLs src v => src != w.self && w.contracts.contains src && decide (v ≤ lsOf w src)
  | .giveUnstake src n v => src != w.self && w.contracts.contains src && decide (v ≤ unstakeOf w n src)
  | .fund a _ => a != w.self
  | .advance e => decide (w.epoch ≤ e)
  | .changeOwner c _ => c != w.self && c == w.owner
  | .burnLs a v => a != w.self && decide (v ≤ lsOf w a)
  | .burnUnstake a n v => a != w.self && decide (v ≤ unstakeOf w n a)

def acceptMon (w : World) (op : Op) (r : Option World) : V := chk "C69" (r.isSome == acceptedB w op)

/-- The withdrawals after each other, as long as they succeed. -/
def rushRun : List Claimant → World → Option World
  | [], w => some w
  | (c, ps) :: cs, w => match step w (.withdraw c 0 ps) with | .ok w' => rushRun cs w' | _ => none

/-- C81: matured positions of three users, all of them and the first half of each, in two orders. -/
def rushMon (w : World) : V :=
  match w.st.unstakeToken with
  | none => []
  | some t =>
    let mature := (nonces w w).filter fun n => match maturityOf w n with | some e => decide (e ≤ w.epoch) | none => false
    let all (f : Nat → Nat) : List Claimant := ([11, 12, 13].flatMap fun c =>
      mature.map fun n => ((c, [⟨t, n, f (unstakeOf w n c)⟩]) : Claimant)).filter fun x => decide (0 < totalPaid x.2)
    [all id, all (· / 2), all (min (E 1))].flatMap fun cs =>
      match rushRun cs w, rushRun cs.reverse w with
      | some a, some b =>
        let x := min (claimedInAll cs) (withdrawable w)
        let enough := decide (claimedInAll cs ≤ withdrawable w)
        chk "C81s" (withdrawable a + x == withdrawable w && egldOf a w.self + x == egldOf w w.self) ++
        chk "C81m" ((accts w a).all fun c => c == w.self || (decide (egldOf w c ≤ egldOf a c) && decide (egldOf a c ≤ egldOf w c + claimedBy c cs))) ++
        chk "C81e" (!enough || (accts w a).all fun c => c == w.self || egldOf a c == egldOf w c + claimedBy c cs) ++
        chk "C81t" (!enough || (nonces w a).all fun n => (accts w a).all fun c => unstakeOf a n c + claimedWith n c cs == unstakeOf w n c) ++
        chk "C81o" (!enough || ((accts a b).all fun c => egldOf a c == egldOf b c) && withdrawable a == withdrawable b)
      | some _, none => chk "C81o" (!decide (claimedInAll cs ≤ withdrawable w))
      | none, some _ => chk "C81o" (!decide (claimedInAll cs ≤ withdrawable w))
      | none, none => []

def check (t : T) (op : Op) : T :=
  let w := t.w
  let r := getW (step w op)
  let failed := match op with
    | .deliver i .err => (match w.flights[i]? with | some (.delegate ..) => true | _ => false)
    | _ => false
  let noFail := t.noFail && !failed
  let starved := t.starved || (match op with | .starve .. => true | _ => false)
  let bad := add t.bad (mustMon w op r ++ und37 t.noFail w op r ++ issueMon w op r ++ payMon w op r ++ acceptMon w op r)
  match r with
  | none => { t with bad := bad }
  | some w' =>
    let (issued, paid) := match op with
      | .unDelegate c _ _ => (t.issued + ((nonces w w').map fun n => unstakeOf w' n c - unstakeOf w n c).sum, t.paid)
      | .withdraw c v _ => (t.issued, t.paid + (egldOf w' c + v - egldOf w c))
      | _ => (t.issued, t.paid)
    let mat := match op with
      | .unDelegate c _ _ => t.maturity ++ ((nonces w w').filter fun n => unstakeOf w n c < unstakeOf w' n c).map fun n => (n, w.epoch + w.st.unbondPeriod)
      | _ => t.maturity
    let bad := add bad (okMon w op w' ++ effMon w op w' ++ econMon w op w' ++ callMon w op w' ++ lateMon w op w' ++ stateMon true noFail starved w' ++ rushMon w' ++ viewMon w' ++ issueState w' ++ chk "C42" (userTok w' + paid + w'.burntUnstake == issued) ++
      chk "C12" (mat.all fun (n, e) => maturityOf w' n == some e))
    { w := w', noFail := noFail, starved := starved, maturity := mat, issued := issued, paid := paid, ok := t.ok + 1, bad := bad }

def oneStep (fees : Bool) (t : T) : M T := do
  let op ← if (← rnd 3) = 0 ∧ !t.w.flights.isEmpty then do
      let i ← rnd t.w.flights.length
      pure (Op.deliver i (← genOutcome t.w (t.w.flights[i]!)))
    else genOp fees (0 < t.issued ∧ t.w.epoch % 3 = 1) t.w
  return check t op
def trace (fees : Bool) (n : Nat) (t : T) : M T := match n with
  | 0 => return t
  | n + 1 => do
    let t' ← oneStep fees t
    trace fees n t'

/-- Five providers with different nodes, APY, caps and stakes. -/
def many : World := run active [
  .whitelist 1 (E 1) 21 41 (E 100) (E 150) 10 800, .deliver 0 (.ok 0 0), .whitelist 1 (E 2) 22 42 (E 100) 0 20 900, .deliver 0 (.ok 0 0),
  .whitelist 1 (E 3) 23 41 (E 10) (E 400) 60 700, .deliver 0 (.ok 0 0), .whitelist 1 (E 9) 24 42 0 0 90 1000, .deliver 0 (.ok 0 0),
  .whitelist 1 (E 5) 25 42 0 (E 60) 5 600, .deliver 0 (.ok 0 0), .delegate 11 (E 200), .delegatePending 1 none,
  .deliver 0 (.ok 0 0), .deliver 0 (.ok 0 0), .deliver 0 (.ok 0 0), .deliver 0 (.ok 0 0), .deliver 0 (.ok 0 0),
  .delegate 12 (E 40), .delegate 13 (E 7), .addRewards 12 (E 3)]
/-- Many users about to leave. -/
def crowd : World := run many [.delegatePending 1 none, .deliver 0 (.ok 0 0), .deliver 0 (.ok 0 0), .deliver 0 (.ok 0 0), .deliver 0 (.ok 0 0),
  .deliver 0 (.ok 0 0), .unDelegate 11 0 [⟨500, 0, E 150⟩], .unDelegate 12 0 [⟨500, 0, E 20⟩]]

def start : List World := [fresh, active, providers, settled, redeemed, ready, run settled [.setMigrationSc 1 3, .owner 1 (.addManagers [4])],
  run returned [.setMigrationSc 1 3, .owner 1 (.addManagers [4]), .owner 1 (.maxSelected 2)], run active [.fund 99 5], many, many, run many [.owner 1 (.maxSelected 2)], run fresh [.registerLsToken 1 5], crowd]

def campaign (traces len : Nat) : Nat × List (String × Nat) :=
  (List.range traces).foldl (fun (ok, bad) i =>
    let w := start[i % start.length]!
    let issued := match i % start.length with | 4 | 5 | 7 | 13 => userTok w | _ => 0
    let t := (trace (i % 4 == 3) len { w := w, issued := issued }).run ⟨i * 7919 + 13⟩ |>.run.1
    (ok + t.ok, t.bad.foldl (fun acc e => (List.replicate (min e.2 1) e.1).foldl (fun a s => add a [s]) acc) bad)) (0, [])

/-! ### Scripted executions, for cases that chance does not reach -/

/-- One provider with 2.5 EGLD and another without. -/
def half (x y : Nat) : List Op := [
  .whitelist 1 x 21 41 (E 100) 0 10 800, .deliver 0 (.ok 0 0), .whitelist 1 y 22 42 (E 100) 0 10 800, .deliver 0 (.ok 0 0)]
def frac (e d : Nat) : Nat := E e + d * 100000000000000000

def scripts : List (World × List Op) := [
  -- a single provider with 2.5 EGLD, 2 EGLD asked back
  (active, [.whitelist 1 (frac 2 5) 21 41 (E 100) 0 10 800, .deliver 0 (.ok 0 0), .delegate 11 (E 5), .delegatePending 1 none, .deliver 0 .err,
    .unDelegate 11 0 [⟨500, 0, frac 3 0⟩], .unDelegatePending 1 none, .deliver 0 (.ok 0 0), .unDelegatePending 1 (some (frac 1 5))]),
  (active, [.whitelist 1 (frac 2 5) 21 41 (E 100) 0 10 800, .deliver 0 (.ok 0 0), .unDelegate 1 0 [⟨500, 0, E 2⟩], .unDelegatePending 1 none]),
  (active, [.whitelist 1 (frac 2 5) 21 41 (E 100) 0 10 800, .deliver 0 (.ok 0 0), .unDelegate 1 0 [⟨500, 0, frac 2 2⟩], .unDelegatePending 1 none]),
  -- two providers with 3 and 1.5 EGLD, 2.5 asked back
  (active, half (E 3) (frac 1 5) ++ [.unDelegate 1 0 [⟨500, 0, frac 2 5⟩], .unDelegatePending 1 none]),
  (active, half (frac 1 5) (E 3) ++ [.unDelegate 1 0 [⟨500, 0, frac 2 5⟩], .unDelegatePending 1 none]),
  (active, half (frac 1 5) (frac 1 5) ++ [.unDelegate 1 0 [⟨500, 0, E 2⟩], .unDelegatePending 1 none]),
  (active, half (frac 2 5) (E 2) ++ [.unDelegate 1 0 [⟨500, 0, E 4⟩], .unDelegatePending 1 none]),
  -- the unstake token not issued yet
  (run fresh [.registerLsToken 1 0, .issued 0 (some 500), .owner 1 .stateActive], [.setScoringConfig 1 ScoringConfig.default,
    .whitelist 1 (E 1) 21 41 (E 100) 0 10 800, .deliver 0 (.ok 0 0), .delegate 11 (E 5), .delegatePending 1 none, .deliver 0 (.ok 0 0),
    .unDelegate 11 0 [⟨500, 0, E 2⟩], .unDelegate 11 0 [⟨500, 0, E 5⟩]]),
  -- LS tokens lying in the contract's account, and redemptions paid with other tokens or with nothing
  (run redeemed [.transferLs 12 2 (E 10), .giveLs 2 (E 10)], [.unDelegate 11 0 [⟨501, 1, E 2⟩], .unDelegate 11 0 [⟨777, 0, E 2⟩], .unDelegate 11 0 [⟨500, 0, 0⟩],
    .unDelegate 1000 0 [⟨500, 0, E 2⟩], .unDelegate 11 0 [⟨500, 1, E 2⟩], .unDelegate 11 0 [], .unDelegate 11 0 [⟨500, 0, E 1⟩, ⟨500, 0, E 1⟩]]),
  -- a queue, and no provider with stake
  (active, [.whitelist 1 (E 1) 21 41 (E 100) 0 10 800, .deliver 0 (.ok 0 0), .unDelegate 1 0 [⟨500, 0, E 1⟩], .unDelegatePending 1 none, .delegate 11 (E 5),
    .delegatePending 1 none, .unDelegate 11 0 [⟨500, 0, E 5⟩], .deliver 1 .err, .unDelegatePending 1 none, .unDelegatePending 1 (some (E 2))]),
  -- dust deposits
  (active, [.delegate 11 5, .delegate 11 (E 2), .unDelegate 11 0 [⟨500, 0, E 2⟩], .delegate 12 (frac 1 5), .delegate 12 (frac 0 5)]),
  -- managers named twice, then removed
  (active, [.owner 1 (.addManagers [4, 4]), .owner 1 (.addManagers [4]), .owner 1 (.removeManager 4), .delegatePending 4 none]),
  -- foreign tokens with matching nonces
  (redeemed, [.advance 100, .transferNft 11 13 1 5, .withdraw 11 0 [⟨502, 1, 3⟩], .withdraw 11 0 [⟨500, 1, 3⟩], .withdraw 11 0 [⟨501, 1, 3⟩]]),
  (ready, [.withdraw 11 0 [⟨502, 1, 1⟩], .withdraw 11 0 [⟨502, 1, 3⟩], .withdraw 11 0 [⟨500, 1, 3⟩], .withdraw 11 0 [⟨501, 1, 3⟩]]),
  (settled, [.transferLs 11 1000 (E 5), .unDelegate 12 0 [⟨502, 0, E 1⟩], .unDelegate 12 0 [⟨501, 0, E 1⟩], .unDelegate 12 0 [⟨500, 0, E 1⟩]]),
  -- caps at whitelisting, more providers than allowed
  (active, [.whitelist 1 (E 1) 21 41 (E 200) (E 100) 10 800, .whitelist 1 (E 1) 22 41 (E 200) (E 200) 10 800, .owner 1 (.maxAddresses 1),
    .whitelist 1 (E 1) 22 41 (E 2) (E 100) 10 800, .deliver 0 (.ok 0 0), .whitelist 1 (E 1) 23 41 (E 2) (E 100) 10 800, .deliver 0 (.ok 0 0),
    .whitelist 1 (E 1) 24 41 (E 2) (E 100) 10 800, .deliver 0 (.ok 0 0), .whitelist 1 (E 1) 25 41 (E 2) (E 100) 10 800]),
  -- time
  (redeemed, [.advance 3, .advance 2, .advance 0, .advance 100, .advance 20]),
  -- inflated rate
  (active, [.delegate 11 (E 2), .unDelegate 11 0 [⟨500, 0, E 2 - 1⟩], .addRewards 11 (E 100), .delegate 12 (E 200), .unDelegate 12 0 [⟨500, 0, 1⟩],
    .unDelegate 11 0 [⟨500, 0, 1⟩]]),
  -- the contract itself as caller, manager, owner, recipient
  (run many [.unDelegate 11 0 [⟨500, 0, E 50⟩]], [.owner 1 (.addManagers [1000]), .delegatePending 1000 none, .unDelegatePending 1000 none, .withdrawPending 1000 21,
    .claimRewards 1000, .whitelist 1000 (E 1) 26 41 0 0 10 800, .changeAdmin 1000 21 5, .changeAdmin 1 21 1000, .changeParams 1000 21 0 0 1 600 true,
    .setScoringConfig 1000 ScoringConfig.default, .fund 1000 5, .transferLs 1000 11 0, .transferLs 11 1000 5, .transferNft 11 1000 1 5, .transferNft 1000 11 1 1,
    .burnUnstake 1000 1 1, .burnLs 1000 0, .changeOwner 1 1000, .owner 1000 .stateInactive, .setMigrationSc 1000 3, .changeOwner 1000 1]),
  (fresh, [.registerLsToken 11 0, .registerUnstakeToken 11 0, .changeOwner 1 1000, .registerLsToken 1000 0, .registerUnstakeToken 1000 0]),
  -- the zero address and the contract among the contracts
  (match getW (initWorld 1000 1 [0, 3, 1000] 3 [(0, E 9), (11, E 100), (3, E 9)] 2 400 14400 1400 2 3 9) with | some w => w | none => fresh,
    [.registerLsToken 1 0, .issued 0 (some 500), .registerUnstakeToken 1 0, .issued 0 (some 501), .owner 1 .stateActive, .delegate 11 (E 5), .setMigrationSc 1 0,
     .migrate 0 (E 2) 12, .migratePending 0 (E 2), .setMigrationSc 1 1000, .migrate 1000 (E 2) 12, .migratePending 1000 (E 2), .setMigrationSc 1 4, .setMigrationSc 1 3,
     .migrate 3 (E 2) 12, .migratePending 3 (E 2)]),
  -- redeeming before the unstake token exists
  (fresh, [.registerLsToken 1 0, .issued 0 (some 500), .owner 1 .stateActive, .delegate 11 (E 5), .unDelegate 11 0 [⟨500, 0, E 3⟩], .delegate 12 (E 1),
    .unDelegate 11 0 [⟨500, 0, frac 4 5⟩], .unDelegate 11 0 [⟨500, 0, 0⟩], .unDelegate 11 0 [⟨500, 0, E 5⟩]]),
  -- nothing paid with
  (ready, [.withdraw 11 0 [⟨501, 1, 0⟩], .withdraw 11 0 [⟨501, 1, 0⟩, ⟨501, 1, 1⟩], .withdraw 11 0 [⟨501, 2, 0⟩]]),
  -- managers and past owners
  (active, [.owner 1 (.addManagers [4]), .owner 4 (.fees 9), .owner 4 (.addManagers [5]), .registerLsToken 4 0, .setMigrationSc 4 3, .changeOwner 4 4]),
  (fresh, [.registerLsToken 1 5, .changeOwner 1 12, .setScoringConfig 1 ScoringConfig.default, .owner 1 (.addManagers [1]), .setScoringConfig 12 ScoringConfig.default, .issued 0 none]),
  -- callbacks without gas
  (run settled [.unDelegate 11 0 [⟨500, 0, E 40⟩], .unDelegatePending 1 none], [.starve 0 (.ok 0 0), .deliver 0 (.ok 0 0), .advance 60, .withdrawPending 1 21,
    .withdrawPending 1 22, .deliver 0 (.ok (E 38) 0), .starve 0 (.ok (E 2) 0), .claimRewards 1, .starve 0 (.ok (E 3) (E 3)), .delegate 12 (E 30), .delegatePending 1 none,
    .starve 0 .err, .starve 0 (.ok 0 0), .whitelist 1 (E 2) 27 41 0 0 10 800, .starve 0 .err, .whitelist 1 (E 2) 27 41 0 0 10 800, .starve 3 .err]),
  -- plain transfers of smart contracts
  (run redeemed [.fund 2 (E 9), .transferLs 11 2 (E 5), .transferNft 11 2 1 (E 3)], [.giveEgld 2 (E 4), .giveLs 2 (E 5), .giveUnstake 2 1 (E 2), .giveUnstake 11 1 5,
    .giveLs 11 5, .giveEgld 11 5, .giveEgld 1000 5, .giveLs 1000 5, .giveUnstake 1000 1 1, .unDelegate 12 0 [⟨500, 0, E 5⟩], .unDelegate 12 0 [⟨500, 0, E 5⟩],
    .delegate 12 (E 9), .unDelegatePending 1 none, .deliver 0 (.ok 0 0), .deliver 0 (.ok 0 0), .advance 80, .unDelegate 12 0 [⟨500, 0, E 9⟩], .withdrawPending 1 21,
    .deliver 0 (.ok (E 5) 0), .withdrawPending 1 22, .deliver 0 (.ok (E 5) 0), .withdraw 11 0 [⟨501, 1, E 1⟩], .withdraw 2 0 [⟨501, 1, E 1⟩], .claimFees 11 true,
    .unDelegate 12 0 [⟨500, 0, E 4⟩], .advance 90, .unDelegate 11 0 [⟨500, 0, E 4⟩], .advance 99, .unDelegate 11 0 [⟨500, 0, E 4⟩]]),
  -- answers bringing EGLD that they should not
  (run settled [.unDelegate 11 0 [⟨500, 0, E 40⟩], .unDelegatePending 1 none], [.deliver 0 (.ok 7 0), .deliver 0 (.ok (E 1) 0), .delegate 12 (E 30), .delegatePending 1 none,
    .deliver 0 (.ok (E 2) 3), .claimRewards 1, .deliver 0 (.ok (E 4) (E 3)), .advance 60, .withdraw 11 (E 1) [], .withdrawPending 1 21, .deliver 0 (.ok (E 90) 0)])]

def scriptCampaign : List (String × Nat) :=
  scripts.foldl (fun bad (w, ops) => add bad (((ops.foldl check { w := w, issued := userTok w }).bad).map (·.1))) []

/-- C49: what a deployment starts with. -/
def initMon : List (String × Nat) :=
  ([(0, 1), (1, 0), (3, 2), (2, 5), (20, 7)] : List (Nat × Nat)).foldl (fun bad (ma, ms) =>
    add bad (match getW (initWorld 1000 1 [2] 3 [(11, 5), (1000, 7)] 2 400 14400 1400 ms ma 9) with
      | none => chk "C49" (ms == 0 || ma == 0)
      | some w => chk "C49" (ms != 0 && ma != 0 && w.self == 1000 && w.owner == 1 && w.epoch == 3 && w.st.state == .inactive && w.st.accumulator == 2 &&
          w.st.feeRate == 400 && w.st.roundsPerEpoch == 14400 && w.st.minimumRounds == 1400 && w.st.maxSelectedProviders == ms &&
          w.st.maxDelegationAddresses == ma && w.st.unbondPeriod == 9 && w.st.lsToken == none && w.st.unstakeToken == none && !w.st.lsPending &&
          !w.st.unstakePending && w.st.managers.isEmpty && w.st.delegList.isEmpty && w.st.undelegList.isEmpty && w.st.scoring == none &&
          w.st.migrationSc == none && supply w == 0 && reserve w == 0 && egldOf w 1000 == 0 && egldOf w 11 == 5))) []

/-! ### Scoring -/

def position (v lo hi n : Nat) : Bool :=
  if v < lo then n == 0 else if hi < v then n == 10000
  else decide (n * (hi - lo) ≤ (v - lo) * 10000) && decide ((v - lo) * 10000 < (n + 1) * (hi - lo))

def scoreMon : M V := do
  let lo ← rnd 20
  let hi ← rnd 60
  let v ← rnd 80
  let a := match normLinearClamp v lo hi false with
    | .ok n => chk "C33n" (decide (n ≤ 10000) && position v lo hi n)
    | .error _ => chk "C33f" (v == lo && v == hi)
  let b := match normLinearClamp v lo hi true with
    | .ok n => chk "C33n" (decide (n ≤ 10000) && position v lo hi (10000 - n))
    | .error _ => chk "C33f" (v == lo && v == hi)
  let n1 ← u64 120; let n2 ← u64 120; let a1 := 400 + (← u64 700); let a2 := 400 + (← u64 700)
  let s1 ← rnd 100; let s2 ← rnd 100; let t := s1 + s2 + (← rnd 50)
  let mk (n a : UInt64) (s : Nat) : SelInfo := ⟨1, 0, 0, a, n, s, none⟩
  let cfg := { ScoringConfig.default with exponentialBase := (← u64 4), apyGrowthMultiplier := (← u64 5) }
  let le (x y : UInt64) := decide (x ≤ y)
  let c := match updateScore (mk n1 a1 s1) true t cfg, updateScore (mk n2 a2 s2) true t cfg with
    | .ok j, .ok j' => chk "C33d" (!(le n2 n1 && le a1 a2 && decide (s2 ≤ s1)) || decide (j.score ≤ j'.score))
    | _, _ => ["C33s"]
  let d := match updateScore (mk n1 a1 s1) false t cfg, updateScore (mk n2 a2 s2) false t cfg with
    | .ok j, .ok j' => chk "C33u" (!(le n1 n2 && le a2 a1 && decide (s1 ≤ s2)) || decide (j.score ≤ j'.score))
    | _, _ => ["C33s"]
  return a ++ b ++ c ++ d

def scoreCampaign (n : Nat) : List (String × Nat) :=
  ((List.range n).foldl (fun (acc, g) _ => let (v, g') := (scoreMon.run g).run; (add acc v, g')) (([] : List (String × Nat)), (⟨5⟩ : G))).1

/-! ### Contract and providers, in order -/

def settlingF : Flight → Bool | .delegate .. | .undelegate .. | .withdraw .. => true | _ => false

def sysOne (s : Sys) : M (Sys × V) := do
  let tryIt (op : SysOp) : Sys := match sysStep s op with | .ok s' => s' | _ => s
  match ← rnd 3 with
  | 0 =>
    if s.msgs.isEmpty then return (s, []) else
    let i ← rnd s.msgs.length
    let (f, x) := s.msgs[i]!
    if x.isSome then
      let blocked := (s.msgs.take i).any fun e => target e.1 == target f && (target f).isSome
      if blocked then return (s, [])
      match sysStep s (.answer i) with
      | .ok s' => return (s', if settlingF f then chk "C38c" (s'.w.dead == s.w.dead) else [])
      | _ => return (s, if settlingF f then ["C38c"] else [])
    else
      let blocked := (s.msgs.take i).any fun e => target e.1 == target f && (target f).isSome && e.2.isNone
      if blocked then return (s, [])
      let o ← match f with
        | .withdraw p => do
          match ← rnd 3 with
          | 0 => pure Outcome.err
          | 1 => pure (Outcome.ok (← rnd ((booksOf s p).unbonding + 1)) 0)
          | _ => pure (Outcome.ok (booksOf s p).unbonding 0)
        | f => genOutcome s.w f
      return (tryIt (.serve i o), [])
  | _ =>
    let op ← genOp false false s.w
    if isDeliver op then return (s, []) else return (tryIt (.call op), [])

def sysState (s : Sys) : V :=
  chk "C38n" (s.w.dead.all fun f => !settlingF f) ++
  chk "C38r" (s.w.st.delegList.all fun p => s.msgs.any (fun e => target e.1 == some p) ||
    (figure (·.staked) s.w p == (booksOf s p).stake && figure (·.unstaked) s.w p == (booksOf s p).unbonding))

def sysTrace (n : Nat) (s : Sys) (bad : List (String × Nat)) : M (List (String × Nat)) := match n with
  | 0 => return bad
  | n + 1 => do
    let (s', v) ← sysOne s
    sysTrace n s' (add bad (v ++ sysState s'))

def sysInit : Sys :=
  let ops : List SysOp := [
    .call (.registerLsToken 1 0), .call (.issued 0 (some 500)), .call (.registerUnstakeToken 1 0), .call (.issued 0 (some 501)), .call (.owner 1 .stateActive),
    .call (.setScoringConfig 1 ScoringConfig.default), .call (.setMigrationSc 1 3), .call (.owner 1 (.addManagers [4])),
    .call (.whitelist 1 (E 1) 21 41 (E 1000) (E 1500) 10 800), .serve 0 (.ok 0 0), .answer 0,
    .call (.whitelist 1 (E 1) 22 42 (E 1000) 0 20 900), .serve 0 (.ok 0 0), .answer 0]
  ops.foldl (fun s op => match sysStep s op with | .ok s' => s' | _ => s) ⟨fresh, [], []⟩

def sysCampaign (traces len : Nat) : List (String × Nat) :=
  (List.range traces).foldl (fun bad i => (sysTrace len sysInit bad).run ⟨i * 104729 + 7⟩ |>.run.1) []

/-! ### Contract and providers, in any order, with callbacks lost -/

/-- C51. -/
def sysOwes (s : Sys) : V :=
  let books := (s.books.map fun e => (booksOf s e.1).stake + (booksOf s e.1).unbonding).sum
  chk "C51" (s.books.length == (s.books.map (·.1)).eraseDups.length) ++
  chk "C51" (decide (reserve s.w + (userTok s.w + s.w.burntUnstake) + feesReserve s.w + s.w.migratedPending ≤
    egldOf s.w s.w.self + books + allOnTheWay s.msgs + s.w.migratedVirtual))

def wildOne (s : Sys) : M Sys := do
  let tryIt (op : SysOp) : Sys := match sysStep s op with | .ok s' => s' | _ => s
  match ← rnd 3 with
  | 0 =>
    if s.msgs.isEmpty then return s else
    let i ← rnd s.msgs.length
    let (f, x) := s.msgs[i]!
    if x.isSome then
      if (← rnd 12) = 0 then return tryIt (.lose i) else return tryIt (.answer i)
    else
      let o ← match f with
        | .withdraw p => do
          match ← rnd 3 with
          | 0 => pure Outcome.err
          | 1 => pure (Outcome.ok (← rnd ((booksOf s p).unbonding + 1)) 0)
          | _ => pure (Outcome.ok (booksOf s p).unbonding 0)
        | f => genOutcome s.w f
      let o ← match o with
        | .ok g r => if (← rnd 4) = 0 then pure (Outcome.ok (if target f == none then g + 5 else match f with | .withdraw _ => g | _ => 7) r) else pure o
        | o => pure o
      return tryIt (.serve i o)
  | _ =>
    let op ← genOp false false s.w
    if isDeliver op then return s else return tryIt (.call op)

def wildTrace (n : Nat) (s : Sys) (bad : List (String × Nat)) : M (List (String × Nat)) := match n with
  | 0 => return bad
  | n + 1 => do
    let s' ← wildOne s
    wildTrace n s' (add bad (sysOwes s'))

def wildCampaign (traces len : Nat) : List (String × Nat) :=
  (List.range traces).foldl (fun bad i => (wildTrace len sysInit bad).run ⟨i * 15487 + 11⟩ |>.run.1) []

/-! ### The network of contract and mocks -/

/-- Requests and answers of one mock in order. -/
def netOrder (n : Net) : NetOp → Bool
  | .serve i => match n.msgs[i]? with
    | some (f, _) => !((n.msgs.take i).any fun e => target e.1 == target f && (target f).isSome && e.2.isNone)
    | none => true
  | .answer i => match n.msgs[i]? with
    | some (f, _) => !((n.msgs.take i).any fun e => target e.1 == target f && (target f).isSome)
    | none => true
  | .lose _ => false
  | _ => true

def mockAddrs : List Addr := [21, 22, 23, 24, 25]

def netTotal (n : Net) : Nat :=
  n.w.egld.foldl (fun s e => s + e.2) 0 + (mockAddrs.map (mockBalance n)).sum + costs n.w.issues +
    (n.msgs.map fun (f, o) => match o with | none => carried f | some .err => carried f | some (.ok g _) => g).sum

/-- C56, C57, C59 for one step. -/
def netMon (n : Net) (op : NetOp) (n' : Net) : V :=
  chk "C56n" (netTotal n' + netOut n op == netTotal n + netIn op) ++
  (match op with
  | .serve i => match n.msgs[i]? with
    | some (.claim ps, none) =>
      let can := ps.all fun p => (n.mocks.get none p).isSome && decide (rewardAt n p ≤ mockBalance n p)
      chk "C57" (if can then n'.msgs[i]? == some (.claim ps, some (.ok (allDue n ps) (allDue n ps))) &&
          ps.all fun p => mockBalance n' p + rewardAt n p == mockBalance n p && mockBooks n' p == mockBooks n p && rewardAt n' p == 0
        else n'.msgs[i]? == some (.claim ps, some .err) && n'.mocks == n.mocks) ++
      chk "C57o" (mockAddrs.all fun p => ps.contains p || n'.mocks.get none p == n.mocks.get none p)
    | some (.delegate p a, none) => chk "C59" (n'.msgs[i]? == some (.delegate p a, some (.ok 0 0)))
    | some (.undelegate p a, none) => chk "C59" (n'.msgs[i]? == some (.undelegate p a, some (.ok 0 0)))
    | _ => []
  | _ => []) ++
  chk "C59r" (n'.w.st.delegList.all fun p => n'.msgs.any (fun e => target e.1 == some p) ||
    match n'.mocks.get none p with
    | some m => figure (·.staked) n'.w p == m.deposit && figure (·.unstaked) n'.w p == m.undAmount
    | none => false)

def netTry (n : Net) (op : NetOp) : Option Net :=
  if netOrder n op then (match netStep n op with | .ok n' => some n' | _ => none) else none

/-- C58: waiting ten epochs and collecting from every provider, then everything owed is available. -/
def exitMon (n : Net) : V :=
  if n.msgs.isEmpty && toUndelegate n.w == 0 && n.w.st.state == .active && n.w.st.lsToken.isSome && n.w.st.unstakeToken.isSome &&
      mockAddrs.all (fun p => decide ((mockBooks n p).unbonding ≤ mockBalance n p)) then
    let go (n : Net) (op : NetOp) : Net := (netTry n op).getD n
    let n1 := go n (.call (.advance (n.w.epoch + 10)))
    let n2 := mockAddrs.foldl (fun n p =>
      let m := go n (.call (.withdrawPending n.w.owner p))
      if m.msgs.isEmpty then n else go (go m (.serve 0)) (.answer 0)) n1
    chk "C58" (withdrawable n2.w == userTok n2.w + n2.w.burntUnstake)
  else []

def netOne (n : Net) : M (Net × V) := do
  let op : NetOp ← match ← rnd 6 with
    | 0 | 1 => if n.msgs.isEmpty then pure (.call (.advance (n.w.epoch + (← u64 12)))) else pure (.serve (← rnd n.msgs.length))
    | 2 => if n.msgs.isEmpty then pure (.call (.claimRewards 1)) else pure (.answer (← rnd n.msgs.length))
    | 3 => match ← rnd 12 with
      | 0 => pure (.deploy (← pick mockAddrs))
      | 1 => pure (.deposit (← pick mockAddrs) (← amount (E 5)))
      | 2 => pure (.call (.advance (n.w.epoch + (← u64 400))))
      | 3 => pure (.call (.advance (n.w.epoch + (← u64 6000))))
      | _ => pure (.call (← genOp false false n.w))
    | _ => pure (.call (← genOp false false n.w))
  match netTry n op with
  | some n' => return (n', netMon n op n' ++ exitMon n')
  | none => return (n, [])

def netTrace (k : Nat) (n : Net) (bad : List (String × Nat)) : M (List (String × Nat)) := match k with
  | 0 => return bad
  | k + 1 => do
    let (n', v) ← netOne n
    netTrace k n' (add bad v)

def netInit (poor : Bool) : Net :=
  let ops : List NetOp := [
    .call (.registerLsToken 1 0), .call (.issued 0 (some 500)), .call (.registerUnstakeToken 1 0), .call (.issued 0 (some 501)), .call (.owner 1 .stateActive),
    .call (.setScoringConfig 1 ScoringConfig.default), .call (.setMigrationSc 1 3), .call (.owner 1 (.addManagers [4])),
    .deploy 21, .deploy 22, .deploy 23] ++ (if poor then [] else [.deposit 21 (E 100), .deposit 22 (E 100)]) ++ [
    .call (.whitelist 1 (E 1) 21 41 (E 1000) (E 1500) 10 800), .serve 0, .answer 0,
    .call (.whitelist 1 (E 1) 22 42 (E 1000) 0 20 900), .serve 0, .answer 0,
    .call (.delegate 11 (E 100)), .call (.delegate 12 (E 50)), .call (.delegatePending 1 none), .serve 0, .serve 1, .answer 0, .answer 0]
  ops.foldl (fun n op => (netTry n op).getD n) ⟨fresh, [], []⟩

def netCampaign (traces len : Nat) : List (String × Nat) :=
  (List.range traces).foldl (fun bad i => (netTrace len (netInit (i % 3 == 0)) bad).run ⟨i * 15485863 + 3⟩ |>.run.1) []

/-- C51 and C56 in any order, with lost callbacks. -/
def wildNetMon (n : Net) (op : NetOp) (n' : Net) : V :=
  chk "C56w" (netTotal n' + netOut n op == netTotal n + netIn op) ++
  chk "C51n" (decide (reserve n'.w + (userTok n'.w + n'.w.burntUnstake) + feesReserve n'.w + n'.w.migratedPending ≤
    egldOf n'.w n'.w.self + (mockAddrs.map fun p => (mockBooks n' p).stake + (mockBooks n' p).unbonding).sum + allOnTheWay n'.msgs + n'.w.migratedVirtual))

def wildNetOne (n : Net) : M (Net × V) := do
  let op : NetOp ← match ← rnd 6 with
    | 0 | 1 => if n.msgs.isEmpty then pure (.call (.advance (n.w.epoch + (← u64 12)))) else pure (.serve (← rnd n.msgs.length))
    | 2 => if n.msgs.isEmpty then pure (.call (.claimRewards 1)) else
      if (← rnd 8) = 0 then pure (.lose (← rnd n.msgs.length)) else pure (.answer (← rnd n.msgs.length))
    | _ => pure (.call (← genOp false false n.w))
  match netStep n op with
  | .ok n' => return (n', wildNetMon n op n')
  | _ => return (n, [])

def wildNetTrace (k : Nat) (n : Net) (bad : List (String × Nat)) : M (List (String × Nat)) := match k with
  | 0 => return bad
  | k + 1 => do
    let (n', v) ← wildNetOne n
    wildNetTrace k n' (add bad v)

def wildNetCampaign (traces len : Nat) : List (String × Nat) :=
  (List.range traces).foldl (fun bad i => (wildNetTrace len (netInit (i % 3 == 0)) bad).run ⟨i * 104729 + 7⟩ |>.run.1) []

/-- C57: claiming in two steps. -/
def twoClaims : List (String × Nat) :=
  ((List.range 200).foldl (fun (acc, g) _ =>
    let (v, g') := ((do
      let d ← amount (E 3); let l ← u64 50; let a ← u64 60; let b ← u64 60
      let m : Mock := ⟨d, d, l, 0, 0, E 1000⟩
      let e1 := l + a
      match m.claimRewards e1, m.claimRewards (e1 + b) with
      | .ok (m1, r1), .ok (_, r) => match m1.claimRewards (e1 + b) with
        | .ok (_, r2) => return chk "C57s" (decide (r1 + r2 ≤ r) && decide (r ≤ r1 + r2 + 1))
        | _ => return []
      | _, _ => return [] : M V).run g).run
    (add acc v, g')) (([] : List (String × Nat)), (⟨11⟩ : G))).1

end LS.Mon

#eval IO.println s!"MON {LS.Mon.campaign 140 120}"
#eval IO.println s!"SCORE {LS.Mon.scoreCampaign 300}"
#eval IO.println s!"SYS {LS.Mon.sysCampaign 30 150}"
#eval IO.println s!"WILD {LS.Mon.wildCampaign 30 150}"
#eval IO.println s!"SCRIPTS {LS.Mon.scriptCampaign}"
#eval IO.println s!"INIT {LS.Mon.initMon}"
#eval IO.println s!"NET {LS.Mon.netCampaign 30 150}"
#eval IO.println s!"WILDNET {LS.Mon.wildNetCampaign 30 150}"
#eval IO.println s!"CLAIMS {LS.Mon.twoClaims}"
