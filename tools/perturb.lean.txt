
/-! Which effects do the statements leave open?  Every field of the world after a transaction is changed in turn; the pairs (transaction,
field) for which no statement notices are listed. -/

namespace LS.Mon
open LS.Spec LS.Demo

def kindOf (w : World) : Op → String
  | .delegate .. => "delegate" | .unDelegate .. => "unDelegate" | .withdraw .. => "withdraw" | .upgrade => "upgrade"
  | .delegatePending .. => "delegatePending" | .unDelegatePending .. => "unDelegatePending" | .withdrawPending .. => "withdrawPending"
  | .claimRewards .. => "claimRewards" | .claimFees .. => "claimFees" | .whitelist .. => "whitelist" | .changeAdmin .. => "changeAdmin"
  | .changeParams .. => "changeParams" | .migrate .. => "migrate" | .migratePending .. => "migratePending" | .addRewards .. => "addRewards"
  | .setMigrationSc .. => "setMigrationSc" | .registerLsToken .. => "registerLs" | .registerUnstakeToken .. => "registerUnstake"
  | .owner .. => "owner" | .setScoringConfig .. => "setScoring" | .viewLsValue .. => "viewLs" | .viewEgldPosition .. => "viewEgld"
  | .deliver i o =>
    let r := match o with | .err => "-err" | _ => "-ok"
    match w.flights[i]? with
    | some (.delegate ..) => "cb-delegate" ++ r | some (.undelegate ..) => "cb-undelegate" ++ r | some (.withdraw ..) => "cb-withdraw" ++ r
    | some (.claim ..) => "cb-claim" ++ r | some (.whitelist ..) => "cb-whitelist" ++ r | none => "?"
  | .issued _ none => "issued-err" | .issued _ _ => "issued-ok"
  | .transferLs .. => "transferLs" | .transferNft .. => "transferNft" | .fund .. => "fund" | .advance .. => "advance" | .changeOwner .. => "changeOwner"

def rot : List Addr → List Addr | [] => [] | a :: l => l ++ [a]

def onR (f : Reserves → Reserves) (w : World) : World := { w with st := { w.st with r := f w.st.r } }
def onD (f : ProviderData → ProviderData) (w : World) : World :=
  match w.st.data.filter (fun e => e.2.isSome) with
  | (p, some d) :: _ => { w with st := { w.st with data := w.st.data.set p (some (f d)) } }
  | _ => w

def perturbations : List (String × (World → World)) := [
  ("state", fun w => { w with st := { w.st with state := if w.st.state == .active then .inactive else .active } }),
  ("lsToken", fun w => { w with st := { w.st with lsToken := some 555 } }),
  ("lsPending", fun w => { w with st := { w.st with lsPending := !w.st.lsPending } }),
  ("unstakeToken", fun w => { w with st := { w.st with unstakeToken := some 556 } }),
  ("unstakePending", fun w => { w with st := { w.st with unstakePending := !w.st.unstakePending } }),
  ("supply", onR fun r => { r with lsSupply := r.lsSupply + 1 }),
  ("reserve", onR fun r => { r with reserve := r.reserve + 1 }),
  ("fees", onR fun r => { r with fees := r.fees + 1 }),
  ("withdrawn", onR fun r => { r with withdrawn := r.withdrawn + 1 }),
  ("pending", onR fun r => { r with pending := r.pending + 1 }),
  ("toUnstake", onR fun r => { r with toUnstake := r.toUnstake + 1 }),
  ("toUnbond", onR fun r => { r with toUnbond := r.toUnbond + 1 }),
  ("fees-", onR fun r => { r with fees := r.fees - 1 }),
  ("withdrawn-", onR fun r => { r with withdrawn := r.withdrawn - 1 }),
  ("feeRate", fun w => { w with st := { w.st with feeRate := w.st.feeRate + 1 } }),
  ("accumulator", fun w => { w with st := { w.st with accumulator := w.st.accumulator + 1 } }),
  ("roundsPerEpoch", fun w => { w with st := { w.st with roundsPerEpoch := w.st.roundsPerEpoch + 1 } }),
  ("minimumRounds", fun w => { w with st := { w.st with minimumRounds := w.st.minimumRounds + 1 } }),
  ("maxAddresses", fun w => { w with st := { w.st with maxDelegationAddresses := w.st.maxDelegationAddresses + 1 } }),
  ("maxSelected", fun w => { w with st := { w.st with maxSelectedProviders := w.st.maxSelectedProviders + 1 } }),
  ("unbondPeriod", fun w => { w with st := { w.st with unbondPeriod := w.st.unbondPeriod + 1 } }),
  ("scoring", fun w => { w with st := { w.st with scoring := some { ScoringConfig.default with minApy := 1 } } }),
  ("managers+", fun w => { w with st := { w.st with managers := w.st.managers ++ [777] } }),
  ("managers-", fun w => { w with st := { w.st with managers := w.st.managers.drop 1 } }),
  ("migrationSc", fun w => { w with st := { w.st with migrationSc := some 778 } }),
  ("delegList~", fun w => { w with st := { w.st with delegList := rot w.st.delegList } }),
  ("undelegList~", fun w => { w with st := { w.st with undelegList := rot w.st.undelegList } }),
  ("d.admin", onD fun d => { d with admin := d.admin + 1 }),
  ("d.total", onD fun d => { d with totalStaked := d.totalStaked - 1 }),
  ("d.cap", onD fun d => { d with cap := d.cap + 1 }),
  ("d.nodes", onD fun d => { d with nrNodes := d.nrNodes + 1 }),
  ("d.apy", onD fun d => { d with apy := d.apy + 1 }),
  ("d.staked", onD fun d => { d with staked := d.staked + 1 }),
  ("d.unstaked", onD fun d => { d with unstaked := d.unstaked + 1 }),
  ("d.eligible", onD fun d => { d with eligible := !d.eligible }),
  ("d.pStake", onD fun d => { d with pStake := d.pStake + 1 }),
  ("d.pUnstake", onD fun d => { d with pUnstake := d.pUnstake + 1 }),
  ("unstakeNonce", fun w => { w with st := { w.st with unstakeNonce := w.st.unstakeNonce.map fun e => (e.1, 0) } }),
  ("epoch", fun w => { w with epoch := w.epoch + 1 }),
  ("self", fun w => { w with self := w.self + 1 }),
  ("owner", fun w => { w with owner := w.owner + 1 }),
  ("contracts", fun w => { w with contracts := w.contracts ++ [11] }),
  ("egld-self", fun w => { w with egld := credit w.egld w.self 1 }),
  ("egld-user", fun w => { w with egld := credit w.egld 13 1 }),
  ("ls-user", fun w => { w with ls := credit w.ls 13 1 }),
  ("nft-user", fun w => { w with nft := credit w.nft (1, 13) 1 }),
  ("nft-self", fun w => { w with nft := credit w.nft (1, w.self) 1 }),
  ("attrs", fun w => { w with attrs := w.attrs.map fun e => (e.1, e.2.map fun (a : Attrs) => { a with unbondEpoch := a.unbondEpoch + 1 }) }),
  ("attrs-u", fun w => { w with attrs := w.attrs.map fun e => (e.1, e.2.map fun (a : Attrs) => { a with unstakeEpoch := a.unstakeEpoch + 1 }) }),
  ("lastNonce", fun w => { w with lastNonce := w.lastNonce + 1 }),
  ("flights+", fun w => { w with flights := w.flights ++ [.withdraw 21] }),
  ("flights-", fun w => { w with flights := w.flights.drop 1 }),
  ("dead", fun w => { w with dead := w.dead ++ [.withdraw 21] }),
  ("issues+", fun w => { w with issues := w.issues ++ [⟨.ls, 1, 0⟩] }),
  ("events+", fun w => { w with events := w.events ++ [.protocolRevenue 1 w.epoch] }),
  ("events-", fun w => { w with events := w.events.dropLast })]

/-- (kind, field) → samples, unnoticed. -/
abbrev Table := List ((String × String) × (Nat × Nat))

def Table.note (t : Table) (k : String × String) (missed : Bool) : Table :=
  if t.any (·.1 == k) then t.map (fun e => if e.1 == k then (k, (e.2.1 + 1, e.2.2 + (if missed then 1 else 0))) else e)
  else t ++ [(k, (1, if missed then 1 else 0))]

def checkAll (noFail : Bool) (w : World) (op : Op) (w' : World) (mat : List (Nat × UInt64)) (tok : Nat) : V :=
  okMon w op w' ++ effMon w op w' ++ econMon w op w' ++ callMon w op w' ++ stateMon true noFail w' ++ viewMon w' ++ issueState w' ++
  mustMon w op (some w') ++ issueMon w op (some w') ++ payMon w op (some w') ++
  chk "C12" (mat.all fun (n, e) => maturityOf w' n == some e) ++ chk "C42" (userTok w' == tok)

def pStep (fees : Bool) (t : T) (tab : Table) : M (T × Table) := do
  let op ← if (← rnd 3) = 0 ∧ !t.w.flights.isEmpty then do
      let i ← rnd t.w.flights.length
      pure (Op.deliver i (← genOutcome t.w (t.w.flights[i]!)))
    else genOp fees t.w
  let t' := check t op
  let w := t.w
  match getW (step w op) with
  | none => return (t', tab)
  | some w' =>
    let k := kindOf w op
    if (tab.filter fun e => e.1.1 == k).any (fun e => e.2.1 ≥ 25) then return (t', tab) else
    let mat := ((List.range (w'.lastNonce + 1)).filterMap fun n => (maturityOf w' n).map fun e => (n, e))
    let tab := perturbations.foldl (fun tab (f, g) =>
      let w2 := g w'
      if w2 == w' then tab else tab.note (k, f) (checkAll t.noFail w op w2 mat (userTok w')).isEmpty) tab
    return (t', tab)

def pTrace (fees : Bool) (n : Nat) (t : T) (tab : Table) : M Table := match n with
  | 0 => return tab
  | n + 1 => do
    let (t', tab') ← pStep fees t tab
    pTrace fees n t' tab'

def pCampaign (traces len : Nat) : Table :=
  (List.range traces).foldl (fun tab i =>
    (pTrace false len { w := start[i % start.length]!, issued := 0 } tab).run ⟨i * 7919 + 13⟩ |>.run.1) []

def report (t : Table) : String :=
  let kinds := (t.map (·.1.1)).eraseDups
  String.intercalate "\n" (kinds.map fun k =>
    k ++ ": " ++ String.intercalate ", " ((t.filter (fun e => e.1.1 == k && e.2.2 != 0)).map fun e => s!"{e.1.2} {e.2.2}/{e.2.1}"))

end LS.Mon

#eval IO.println (LS.Mon.report (LS.Mon.pCampaign 56 120))
