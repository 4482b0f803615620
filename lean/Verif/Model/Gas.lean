import Verif.Model.Step
import Verif.Model.Wire

/-! The gas the contract sets aside for its own calls.

`register_promise` names two amounts of gas for every call: what the called contract may use and what is kept for the callback.
Both are taken from the gas of the transaction that registers the promise, which fails if it has less. The gas used by the code
itself is not modelled, so these amounts are what a transaction needs *at least*. -/

namespace LS

/-- What the VM takes for a list of promises, the `.gas(…)` and `.gas_for_callback(…)` of each: manage.rs:91-96, 167-172, 202-204,
236-238, delegation.rs:87-95. It adds without wrapping. -/
def gasOf (fs : List Flight) : Nat := (fs.map fun f => (Wire.encode f).gas.toNat + (Wire.encode f).cbGas.toNat).sum

/-- A transaction with a limit on its gas: it succeeds only if what it sets aside for the promises it registers is within the
limit; otherwise it fails without effect. New promises come after those already in flight (manage.rs:84-98, 160-174, 198-205,
232-239, delegation.rs:83-96). -/
def stepWithin (limit : Nat) (w : World) (op : Op) : Option World :=
  match step w op with
  | .ok w' => if gasOf (w'.flights.drop w.flights.length) ≤ limit then some w' else none
  | .error _ => none

end LS
