import Verif.Model.Types

/-! How storage is laid out: the key of every entry and the bytes stored there.  Keys are those of the `#[storage_mapper("…")]`
attributes, liquid-staking/src/storage/mod.rs:8-102 and migrate.rs:96, followed by the encoded arguments.  The sub-keys of the set
mappers and of a promise's callback closure, and the byte formats, are those of the framework (multiversx-sc 0.54.0,
liquid-staking/Cargo.toml:15), whose text is not in the repository. -/

namespace LS.Layout

abbrev Bytes := List UInt8

/-- The bytes of a name in the source. -/
def ascii (cs : List Char) : Bytes := cs.map fun c => c.toNat.toUInt8

/-- Kinds of storage entries. -/
inductive Slot
  /- `delegation_addresses_list`, storage/mod.rs:8-10: a `SetMapper` -/
  | delegInfo | delegLinks | delegValue | delegId
  /- `un_delegation_addresses_list`, storage/mod.rs:12-14: a `SetMapper` -/
  | undelegInfo | undelegLinks | undelegValue | undelegId
  /- `delegation_contract_data`, storage/mod.rs:16-21 -/
  | provider
  /- `managers`, storage/mod.rs:23-25: an `UnorderedSetMapper` -/
  | managersLen | managersItem | managersIndex
  /- storage/mod.rs:27-53 -/
  | scoring | fees | accumulator | roundsPerEpoch | minimumRounds | state | lsToken
  /- storage/mod.rs:55-86 -/
  | lsSupply | reserve | feesReserve | withdrawn | unstakeToken | pending | toUnstake | toUnbond
  /- `unstake_token_nonce`, storage/mod.rs:87-89 -/
  | unstakeNonce
  /- storage/mod.rs:91-101 -/
  | maxDelegationAddresses | maxSelectedProviders | unbondPeriod
  /- migrate.rs:95-97 -/
  | migrationSc
  /- framework: the saved arguments of a callback, by transaction hash -/
  | closure
  deriving DecidableEq, Repr

/-- The constant part of a key. -/
def Slot.name : Slot → Bytes
  | .delegInfo => ascii "delegationAddressesMap.info".toList
  | .delegLinks => ascii "delegationAddressesMap.node_links".toList
  | .delegValue => ascii "delegationAddressesMap.value".toList
  | .delegId => ascii "delegationAddressesMap.node_id".toList
  | .undelegInfo => ascii "unDelegationAddressesMap.info".toList
  | .undelegLinks => ascii "unDelegationAddressesMap.node_links".toList
  | .undelegValue => ascii "unDelegationAddressesMap.value".toList
  | .undelegId => ascii "unDelegationAddressesMap.node_id".toList
  | .provider => ascii "delegationContract".toList
  | .managersLen => ascii "managers.len".toList
  | .managersItem => ascii "managers.item".toList
  | .managersIndex => ascii "managers.index".toList
  | .scoring => ascii "scoringConfig".toList
  | .fees => ascii "fees".toList
  | .accumulator => ascii "accumulatorContract".toList
  | .roundsPerEpoch => ascii "roundsPerEpoch".toList
  | .minimumRounds => ascii "minimumRounds".toList
  | .state => ascii "state".toList
  | .lsToken => ascii "lsTokenId".toList
  | .lsSupply => ascii "lsTokenSupply".toList
  | .reserve => ascii "virtualEgldReserve".toList
  | .feesReserve => ascii "feesReserve".toList
  | .withdrawn => ascii "totalWithdrawnEgld".toList
  | .unstakeToken => ascii "unstakeTokenId".toList
  | .pending => ascii "pendingEgld".toList
  | .toUnstake => ascii "pendingEgldForUnstake".toList
  | .toUnbond => ascii "pendingEgldForUnbond".toList
  | .unstakeNonce => ascii "unstakeTokenNonce".toList
  | .maxDelegationAddresses => ascii "maxDelegationAddresses".toList
  | .maxSelectedProviders => ascii "maxSelectedProviders".toList
  | .unbondPeriod => ascii "unbondPeriod".toList
  | .migrationSc => ascii "migrationScAddress".toList
  | .closure => ascii "CB_CLOSURE".toList

/-- Bytes of the encoded argument: an address or a hash (32), an epoch (8), the number of a node (4), none. -/
def Slot.argLen : Slot → Nat
  | .provider | .delegId | .undelegId | .managersIndex | .closure => 32
  | .unstakeNonce => 8
  | .delegLinks | .delegValue | .undelegLinks | .undelegValue | .managersItem => 4
  | _ => 0

/-- One storage entry: a kind and the bytes of its argument. -/
structure Entry where
  slot : Slot
  arg : Bytes
  len : arg.length = slot.argLen

/-- The key under which an entry is stored. -/
def Entry.key (e : Entry) : Bytes := e.slot.name ++ e.arg

/-- Contract storage as the VM keeps it; an absent entry reads as no bytes. -/
abbrev Raw := Bytes → Bytes

def Raw.read (s : Raw) (e : Entry) : Bytes := s e.key

def Raw.write (s : Raw) (e : Entry) (v : Bytes) : Raw := fun k => if k = e.key then v else s k

/-- `k` bytes, most significant first. -/
def beFixed : Nat → Nat → Bytes
  | 0, _ => []
  | k + 1, n => beFixed k (n / 256) ++ [(n % 256).toUInt8]

/-- The number a sequence of bytes stands for, most significant first. -/
def beVal (b : Bytes) : Nat := b.foldl (fun acc x => acc * 256 + x.toNat) 0

/-- How many bytes a number needs. -/
def byteLen (n : Nat) : Nat := if n = 0 then 0 else Nat.log2 n / 8 + 1

/-- A number at top level (`BigUint`, `u64`, `usize`): as few bytes as possible, none for zero. -/
def encTop (n : Nat) : Bytes := beFixed (byteLen n) n

def encU64 (x : UInt64) : Bytes := beFixed 8 x.toNat

/-- A `BigUint` within a structure: four bytes of length, then the number. -/
def encBig (n : Nat) : Bytes := beFixed 4 (byteLen n) ++ encTop n

/-- An address.  Simplification: addresses are numbers in this model; here they get their 32 bytes. -/
def encAddr (a : Addr) : Bytes := beFixed 32 a

def encBool (b : Bool) : Bytes := [if b then 1 else 0]

/-- `DelegationContractData`, structs.rs:6-17: the fields in the order of their declaration. -/
def encProvider (d : ProviderData) : Bytes :=
  encAddr d.admin ++ (encBig d.totalStaked ++ (encBig d.cap ++ (encU64 d.nrNodes ++ (encU64 d.apy ++ (encBig d.staked ++
    (encBig d.unstaked ++ (encBool d.eligible ++ (encBig d.pStake ++ encBig d.pUnstake))))))))

/-- `UnstakeTokenAttributes`, structs.rs:28-31. -/
def encAttrs (a : Attrs) : Bytes := encU64 a.unstakeEpoch ++ encU64 a.unbondEpoch

/-- `ScoringConfig`, structs.rs:89-107. -/
def encScoring (c : ScoringConfig) : Bytes :=
  encU64 c.minNodes ++ (encU64 c.maxNodes ++ (encU64 c.minApy ++ (encU64 c.maxApy ++ (encU64 c.stakeWeight ++
    (encU64 c.apyWeight ++ (encU64 c.nodesWeight ++ (encU64 c.maxScorePerCategory ++ (encU64 c.exponentialBase ++
      encU64 c.apyGrowthMultiplier))))))))

/-- `State`, structs.rs:82-85: the number of the variant, at top level. -/
def encState : CState → Bytes
  | .inactive => encTop 0
  | .active => encTop 1

/-- Reading a field from the front of the remaining bytes. -/
abbrev Dec (α : Type) := Bytes → Option (α × Bytes)

def takeN (k : Nat) : Dec Bytes := fun b => if k ≤ b.length then some (b.take k, b.drop k) else none

def decFixed (k : Nat) : Dec Nat := fun b =>
  match takeN k b with
  | none => none
  | some (x, r) => some (beVal x, r)

def decU64 : Dec UInt64 := fun b =>
  match decFixed 8 b with
  | none => none
  | some (x, r) => some (x.toUInt64, r)

def decBig : Dec Nat := fun b =>
  match decFixed 4 b with
  | none => none
  | some (k, r) => decFixed k r

def decAddr : Dec Addr := fun b =>
  match decFixed 32 b with
  | none => none
  | some (x, r) => some (x, r)

/-- Only 0 and 1 are booleans. -/
def decBool : Dec Bool := fun b =>
  match b with
  | x :: r => if x = 0 then some (false, r) else if x = 1 then some (true, r) else none
  | [] => none

/-- A structure at top level: nothing may be left over. -/
def decAll {α : Type} (d : Dec α) (b : Bytes) : Option α :=
  match d b with
  | some (x, []) => some x
  | _ => none

def decProviderFields : Dec ProviderData := fun b => do
  let (admin, b) ← decAddr b
  let (totalStaked, b) ← decBig b
  let (cap, b) ← decBig b
  let (nrNodes, b) ← decU64 b
  let (apy, b) ← decU64 b
  let (staked, b) ← decBig b
  let (unstaked, b) ← decBig b
  let (eligible, b) ← decBool b
  let (pStake, b) ← decBig b
  let (pUnstake, b) ← decBig b
  some (⟨admin, totalStaked, cap, nrNodes, apy, staked, unstaked, eligible, pStake, pUnstake⟩, b)

def decAttrsFields : Dec Attrs := fun b => do
  let (u, b) ← decU64 b
  let (v, b) ← decU64 b
  some (⟨u, v⟩, b)

def decScoringFields : Dec ScoringConfig := fun b => do
  let (x1, b) ← decU64 b
  let (x2, b) ← decU64 b
  let (x3, b) ← decU64 b
  let (x4, b) ← decU64 b
  let (x5, b) ← decU64 b
  let (x6, b) ← decU64 b
  let (x7, b) ← decU64 b
  let (x8, b) ← decU64 b
  let (x9, b) ← decU64 b
  let (x10, b) ← decU64 b
  some (⟨x1, x2, x3, x4, x5, x6, x7, x8, x9, x10⟩, b)

def decProvider : Bytes → Option ProviderData := decAll decProviderFields
def decAttrs : Bytes → Option Attrs := decAll decAttrsFields
def decScoring : Bytes → Option ScoringConfig := decAll decScoringFields

/-- Decoding of a state: the empty entry is `Inactive`. -/
def decState (b : Bytes) : Option CState :=
  match beVal b with
  | 0 => some .inactive
  | 1 => some .active
  | _ => none

end LS.Layout
