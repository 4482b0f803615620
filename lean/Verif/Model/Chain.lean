import Verif.Model.Selection

/-! The part of the MultiversX VM the contract uses: EGLD and ESDT transfers, minting and burning, promises, and the
`StorageCache` that brackets every endpoint. -/

namespace LS

/-- Add to a balance. -/
def credit {K : Type} [DecidableEq K] (m : Map K Nat) (k : K) (v : Nat) : Map K Nat := m.set k (m.get 0 k + v)

/-- Take from a balance; the VM refuses when the balance is too small. -/
def debit {K : Type} [DecidableEq K] (m : Map K Nat) (k : K) (v : Nat) : Res (Map K Nat) :=
  if v ≤ m.get 0 k then .ok (m.set k (m.get 0 k - v)) else .error .insufficientFunds

/-- VM: the EGLD value of a transaction moves from the sender to the contract before the endpoint runs. -/
def payEgld (w : World) (caller : Addr) (v : Nat) : Res World := do
  let m ← debit w.egld caller v
  .ok { w with egld := credit m w.self v }

/-- `self.tx().to(to).egld(v).transfer()`: a transfer that runs no code.  Simplification: the recipient never refuses it. -/
def sendEgld (w : World) (dst : Addr) (v : Nat) : Res World := do
  let m ← debit w.egld w.self v
  .ok { w with egld := credit m dst v }

/-- VM: one incoming ESDT transfer.  LS tokens (nonce 0) and unstake tokens are moved in their ledgers; transfers of any
other token are not tracked. -/
def payEsdt1 (w : World) (caller : Addr) (p : Payment) : Res World :=
  if w.st.lsToken = some p.token then
    if p.nonce = 0 then do
      let m ← debit w.ls caller p.amount
      .ok { w with ls := credit m w.self p.amount }
    else .error .insufficientFunds
  else if w.st.unstakeToken = some p.token then do
    let m ← debit w.nft (p.nonce, caller) p.amount
    .ok { w with nft := credit m (p.nonce, w.self) p.amount }
  else .ok w

/-- VM: all incoming ESDT transfers of a transaction, in order. -/
def payEsdts (w : World) (caller : Addr) : List Payment → Res World
  | [] => .ok w
  | p :: ps => do
    let w1 ← payEsdt1 w caller p
    payEsdts w1 caller ps

/-- VM: a transaction to a `#[payable("*")]` endpoint carries either EGLD or ESDT transfers. -/
def payAny (w : World) (caller : Addr) (v : Nat) (ps : List Payment) : Res World := do
  req (v = 0 ∨ ps = []) .badValue
  let w1 ← payEgld w caller v
  payEsdts w1 caller ps

/-- `FungibleTokenMapper::mint` followed by the transfer to a user
(liquidity_pool.rs:72-74; utils/delegate.rs:47-51, callback.rs:130-133, migrate.rs:36-41): the contract mints to itself and
sends.  The two steps are kept apart. -/
def mintLs (w : World) (v : Nat) : World := { w with ls := credit w.ls w.self v }

/-- `self.tx().to(to).esdt(ls payment).transfer()`. -/
def sendLs (w : World) (dst : Addr) (v : Nat) : Res World := do
  let m ← debit w.ls w.self v
  .ok { w with ls := credit m dst v }

/-- `burn_ls_token`, liquid-staking/src/liquidity_pool.rs:76-78. -/
def burnLs (w : World) (v : Nat) : Res World := do
  let m ← debit w.ls w.self v
  .ok { w with ls := m }

/-- `esdt_nft_create`: a fresh nonce (one more than the last), quantity credited to the contract, attributes attached. -/
def nftCreate (w : World) (v : Nat) (a : Attrs) : World × Nat :=
  let n := w.lastNonce + 1
  ({ w with nft := credit w.nft (n, w.self) v, attrs := w.attrs.set n (some a), lastNonce := n }, n)

/-- `nft_add_quantity`: the VM requires the contract to hold some of the nonce. -/
def nftAddQuantity (w : World) (n v : Nat) : Res World :=
  if w.nft.get 0 (n, w.self) = 0 then .error .nftNotOwned
  else .ok { w with nft := credit w.nft (n, w.self) v }

/-- `nft_burn` (`burn_unstake_tokens`, liquid-staking/src/liquidity_pool.rs:119-121). -/
def nftBurn (w : World) (n v : Nat) : Res World := do
  let m ← debit w.nft (n, w.self) v
  .ok { w with nft := m }

/-- `self.tx().to(to).single_esdt(unstake token, n, v).transfer()`. -/
def sendNft (w : World) (dst : Addr) (n v : Nat) : Res World := do
  let m ← debit w.nft (n, w.self) v
  .ok { w with nft := credit m (n, dst) v }

/-- `NonFungibleTokenMapper::get_token_attributes`: reads the contract's own holding, so decoding fails when it holds none. -/
def nftAttrs (w : World) (n : Nat) : Res Attrs :=
  if w.nft.get 0 (n, w.self) = 0 then .error .decode
  else match w.attrs.get none n with
    | some a => .ok a
    | none => .error .decode

/-- `register_promise` with EGLD attached: the EGLD leaves the contract, the callback stays to come. -/
def registerPromise (w : World) (f : Flight) (v : Nat) : Res World := do
  let m ← debit w.egld w.self v
  .ok { w with egld := m, flights := w.flights ++ [f] }

/-- `StorageCache::new`, liquid-staking/src/contexts/base.rs:26-38; `get_token_id` fails while the token is not issued. -/
def cacheNew (st : Store) : Res Cache :=
  match st.lsToken with
  | some t => .ok { state := st.state, lsTokenId := t, r := st.r }
  | none => .error .invalidTokenId

/-- `StorageCache::drop`, liquid-staking/src/contexts/base.rs:46-63. -/
def commit (w : World) (c : Cache) : World := { w with st := { w.st with r := c.r } }

/-- The five emit functions build the same record from the cache, the block epoch and a caller:
liquid-staking/src/events.rs:28-154. -/
def emit (w : World) (c : Cache) (k : EventKind) (caller : Addr) : World :=
  { w with events := w.events ++ [.change k caller c.lsTokenId c.r w.epoch] }

/-- `self.delegation_contract_data(&a).update(f)`: fails on an empty entry. -/
def updateData (w : World) (a : Addr) (f : ProviderData → Res ProviderData) : Res World := do
  let d ← getData w.st a
  let d' ← f d
  .ok { w with st := { w.st with data := w.st.data.set a (some d') } }

/-- `is_manager`, liquid-staking/src/config.rs:125-132. -/
def isManager (w : World) (a : Addr) : Bool := w.st.managers.contains a || a == w.owner

/-- `is_manager(.., true)`, liquid-staking/src/config.rs:128-130. -/
def requireManager (w : World) (a : Addr) : Res Unit := req (isManager w a = true) .notManager

/-- `#[only_owner]`. -/
def requireOwner (w : World) (a : Addr) : Res Unit := req (a = w.owner) .onlyOwner

/-- `is_state_active`, liquid-staking/src/utils/generic.rs:75-77. -/
def requireActive (c : Cache) : Res Unit := req (c.state = .active) .notActive

/-- `SetMapper::insert`: appends unless present. -/
def setInsert (l : List Addr) (a : Addr) : List Addr := if a ∈ l then l else l ++ [a]

/-- `move_delegation_contract_to_back` / `move_un_delegation_contract_to_back`, utils/generic.rs:60-72:
`SetMapper::remove` then `insert`. -/
def moveToBack (l : List Addr) (a : Addr) : List Addr := setInsert (l.erase a) a

/-- `UnorderedSetMapper::swap_remove`: the last element takes the place of the removed one. -/
def swapRemove (l : List Addr) (a : Addr) : List Addr :=
  if a ∈ l then
    match l.getLast? with
    | some last => if last = a then l.dropLast else l.dropLast.map (fun x => if x = a then last else x)
    | none => l
  else l

end LS
