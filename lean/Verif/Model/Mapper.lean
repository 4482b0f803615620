import Verif.Model.Chain

/-! How the lists of addresses are kept in storage.  `delegation_addresses_list` and `un_delegation_addresses_list`
(liquid-staking/src/storage/mod.rs:8-14) are `SetMapper`s: a queue of linked nodes and, for each address, the number of its node.
`managers` (storage/mod.rs:23-25) is an `UnorderedSetMapper`: numbered items and, for each address, its number.  The mappers are the
framework's (multiversx-sc 0.54.0, liquid-staking/Cargo.toml:15), whose text is not in the repository; the entries are those of
`Model/Layout`.  Numbers of nodes and lengths are `u32` and wrap around (`overflow-checks = false`, liquid-staking/wasm/Cargo.toml). A
read of a missing entry where one is needed fails (`none`). -/

namespace LS.Mapper

/-- A storage entry set. -/
def put {α β : Type} [DecidableEq α] (f : α → β) (k : α) (v : β) : α → β := fun x => if x = k then v else f x

def u32 (n : Nat) : Nat := n % 2 ^ 32

/-- Entry `.info`: length, first and last node, the number given last. -/
structure Info where
  len : Nat
  front : Nat
  back : Nat
  new : Nat
  deriving DecidableEq, Repr

/-- Entry `.node_links`; 0 stands for no node. -/
structure Node where
  id : Nat
  next : Nat
  prev : Nat
  deriving DecidableEq, Repr

/-- A `SetMapper` in storage: `.info`, `.node_links`, `.value`, `.node_id`. -/
structure Queue where
  info : Info
  node : Nat → Option Node
  value : Nat → Option Addr
  id : Addr → Nat

/-- Nothing stored. -/
def empty : Queue := ⟨⟨0, 0, 0, 0⟩, fun _ => none, fun _ => none, fun _ => 0⟩

/-- The node for a new value is linked in behind the last one. -/
def pushBack (q : Queue) (a : Addr) : Option Queue :=
  let n := u32 (q.info.new + 1)
  if q.info.len = 0 then
    some { q with info := ⟨u32 (q.info.len + 1), n, n, n⟩, node := put q.node n (some ⟨n, 0, 0⟩), value := put q.value n (some a) }
  else
    match q.node q.info.back with
    | none => none
    | some b =>
      some { q with
        info := ⟨u32 (q.info.len + 1), q.info.front, n, n⟩
        node := put (put q.node q.info.back (some { b with next := n })) n (some ⟨n, 0, q.info.back⟩)
        value := put q.value n (some a) }

/-- `SetMapper::insert`. -/
def insert (q : Queue) (a : Addr) : Option Queue :=
  if q.id a ≠ 0 then some q
  else
    match pushBack q a with
    | none => none
    | some q' => some { q' with id := put q'.id a q'.info.new }

/-- The front of the queue and the links once the node before a removed one is joined to the node after it. -/
def unlinkPrev (q : Queue) (n : Node) : Option (Nat × (Nat → Option Node)) :=
  if n.prev = 0 then some (n.next, q.node)
  else
    match q.node n.prev with
    | none => none
    | some p => some (q.info.front, put q.node n.prev (some { p with next := n.next }))

/-- The same for its back. -/
def unlinkNext (back : Nat) (node : Nat → Option Node) (n : Node) : Option (Nat × (Nat → Option Node)) :=
  if n.next = 0 then some (n.prev, node)
  else
    match node n.next with
    | none => none
    | some x => some (back, put node n.next (some { x with prev := n.prev }))

/-- `SetMapper::remove`. -/
def remove (q : Queue) (a : Addr) : Option Queue :=
  if q.id a = 0 then some q
  else
    match q.node (q.id a), q.value (q.id a) with
    | some n, some _ =>
      match unlinkPrev q n with
      | none => none
      | some (front, node) =>
        match unlinkNext q.info.back node n with
        | none => none
        | some (back, node) =>
          some {
            info := ⟨q.info.len - 1, front, back, q.info.new⟩
            node := put node (q.id a) none
            value := put q.value (q.id a) none
            id := put q.id a 0 }
    | _, _ => none

/-- `move_delegation_contract_to_back`, liquid-staking/src/utils/generic.rs:60-72. -/
def move (q : Queue) (a : Addr) : Option Queue :=
  match remove q a with
  | none => none
  | some q' => insert q' a

/-- `SetMapper::contains`, `len`. -/
def contains (q : Queue) (a : Addr) : Bool := q.id a != 0

def len (q : Queue) : Nat := q.info.len

/-- `SetMapper::iter` from a node on, for at most so many nodes. -/
def walk (q : Queue) : Nat → Nat → Option (List Addr)
  | _, 0 => some []
  | 0, _ + 1 => none
  | k + 1, i + 1 =>
    match q.value (i + 1), q.node (i + 1) with
    | some v, some n => (walk q k n.next).map (v :: ·)
    | _, _ => none

def items (q : Queue) (k : Nat) : Option (List Addr) := walk q k q.info.front

/-- An `UnorderedSetMapper` in storage: `.len`, `.item` (from 1), `.index` (0 if absent). -/
structure Vec where
  len : Nat
  item : Nat → Option Addr
  index : Addr → Nat

def Vec.empty : Vec := ⟨0, fun _ => none, fun _ => 0⟩

/-- `UnorderedSetMapper::insert` (`extend` inserts one after the other). -/
def Vec.insert (v : Vec) (a : Addr) : Vec :=
  if v.index a ≠ 0 then v
  else
    let n := u32 (v.len + 1)
    ⟨n, put v.item n (some a), put v.index a n⟩

/-- `UnorderedSetMapper::swap_remove`. -/
def Vec.remove (v : Vec) (a : Addr) : Option Vec :=
  let i := v.index a
  if i = 0 then some v
  else if i = v.len then some ⟨v.len - 1, put v.item v.len none, put v.index a 0⟩
  else
    match v.item v.len with
    | none => none
    | some z => some ⟨v.len - 1, put (put v.item i (some z)) v.len none, put (put v.index z i) a 0⟩

def Vec.contains (v : Vec) (a : Addr) : Bool := v.index a != 0

/-- Reading the items in the order of their numbers. -/
def Vec.from (v : Vec) : Nat → Nat → Option (List Addr)
  | _, 0 => some []
  | i, k + 1 =>
    match v.item i with
    | none => none
    | some a => (Vec.from v (i + 1) k).map (a :: ·)

def Vec.items (v : Vec) : Option (List Addr) := v.from 1 v.len

end LS.Mapper
