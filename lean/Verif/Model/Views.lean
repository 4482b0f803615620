import Verif.Model.Abi
import Verif.Model.Mapper

/-! What the views answer, in bytes, from the bytes of storage: the views of liquid-staking/src/storage/mod.rs:8-101, migrate.rs:95-97
and views.rs:23-57.  A view on a `SingleValueMapper` decodes the entry and encodes the value found; an entry that cannot be decoded
makes the call fail (`none`), as does the empty entry of a structure or of an address.  A view on a mapper of addresses reads all of
them.  Left out: `getLsTokenId` and `getUnstakeTokenId` (storage/mod.rs:51-53, 71-73), whose entries hold a state of the framework's token
mappers that is not in the repository, and the two views of views.rs:11-21, which are operations of the model
(`Model/Endpoints`: `viewLsValue`, `viewEgldPosition`). -/

namespace LS.Views
open Layout Abi Mapper

/-- Storage: single entries in bytes, the lists as the mappers keep them. -/
structure Stored where
  raw : Raw
  deleg : Queue
  undeleg : Queue
  managers : Vec

/-- The bytes of an entry. -/
def Stored.at (s : Stored) (k : Slot) (arg : Bytes := []) : Bytes := s.raw (k.name ++ arg)

/-- A `BigUint`. -/
def big (b : Bytes) : Option (List Bytes) := some [encTop (beVal b)]

/-- A `u64` (`n = 64`) or a `usize` (`n = 32`). -/
def num (n : Nat) (b : Bytes) : Option (List Bytes) := if beVal b < 2 ^ n then some [encTop (beVal b)] else none

/-- A `ManagedAddress`. -/
def addr (b : Bytes) : Option (List Bytes) := if b.length = 32 then some [encAddr (beVal b)] else none

/-- A `State`. -/
def state (b : Bytes) : Option (List Bytes) := (decState b).map fun x => [encState x]

/-- A `ScoringConfig`. -/
def scoring (b : Bytes) : Option (List Bytes) := (decScoring b).map fun x => [encScoring x]

/-- Something of a `DelegationContractData`. -/
def record (f : ProviderData → Bytes) (b : Bytes) : Option (List Bytes) := (decProvider b).map fun d => [f d]

/-- `SetMapper::iter`, every address a result of its own. -/
def queue (q : Queue) : Option (List Bytes) := (items q (Mapper.len q)).map (·.map encAddr)

/-- `UnorderedSetMapper::iter`. -/
def vec (v : Vec) : Option (List Bytes) := v.items.map (·.map encAddr)

/-- `get_exchange_rate`, views.rs:23-39. -/
def rate (supply reserve : Bytes) : Option (List Bytes) :=
  if beVal supply = 0 then some [encTop (10 ^ 18)] else some [encTop (beVal reserve * 10 ^ 18 / beVal supply)]

/-- What a view answers; its arguments have been accepted. -/
def answer (s : Stored) (f : Fn) (args : List Bytes) : Option (List Bytes) :=
  match f, args with
  /- storage/mod.rs:8-14 -/
  | .getDelegationAddressesList, [] => queue s.deleg
  | .getUnDelegationAddressesList, [] => queue s.undeleg
  /- storage/mod.rs:16-21 -/
  | .getDelegationContractInfo, [a] => record encProvider (s.at .provider (encAddr (beVal a)))
  /- storage/mod.rs:23-25 -/
  | .getManagers, [] => vec s.managers
  /- storage/mod.rs:27-49 -/
  | .getScoringConfig, [] => scoring (s.at .scoring)
  | .fees, [] => big (s.at .fees)
  | .getAccumulatorContract, [] => addr (s.at .accumulator)
  | .roundsPerEpoch, [] => num 64 (s.at .roundsPerEpoch)
  | .minimumRounds, [] => num 64 (s.at .minimumRounds)
  | .getState, [] => state (s.at .state)
  /- storage/mod.rs:55-69 -/
  | .getLsSupply, [] => big (s.at .lsSupply)
  | .getVirtualEgldReserve, [] => big (s.at .reserve)
  | .getFeesReserve, [] => big (s.at .feesReserve)
  | .getTotalWithdrawnEgld, [] => big (s.at .withdrawn)
  /- storage/mod.rs:75-85 -/
  | .getPendingEGLDForDelegate, [] => big (s.at .pending)
  | .getPendingEGLDForUnDelegate, [] => big (s.at .toUnstake)
  | .getPendingEgldForUnbond, [] => big (s.at .toUnbond)
  /- storage/mod.rs:87-89 -/
  | .getUnstakeTokenNonce, [e] => num 64 (s.at .unstakeNonce (beFixed 8 (beVal e)))
  /- storage/mod.rs:91-101 -/
  | .maxDelegationAddresses, [] => num 32 (s.at .maxDelegationAddresses)
  | .maxSelectedProviders, [] => big (s.at .maxSelectedProviders)
  | .unbondPeriod, [] => num 64 (s.at .unbondPeriod)
  /- migrate.rs:95-97 -/
  | .getMigrationScAddress, [] => addr (s.at .migrationSc)
  /- views.rs:23-39 -/
  | .getExchangeRate, [] => rate (s.at .lsSupply) (s.at .reserve)
  /- views.rs:41-57 -/
  | .getDelegationContractStakedAmount, [a] => record (fun d => encTop d.staked) (s.at .provider (encAddr (beVal a)))
  | .getDelegationContractUnstakedAmount, [a] => record (fun d => encTop d.unstaked) (s.at .provider (encAddr (beVal a)))
  | _, _ => none

/-- A call of a view. -/
def view (s : Stored) (c : Call) : Option (List Bytes) :=
  match parse c, Fn.all.find? (fun f => f.name = c.fn) with
  | .ok none, some f => answer s f c.args
  | _, _ => none

end LS.Views
