import Verif.Spec.Rename

/-! The same, some epochs later: every epoch in the state and in a transaction replaced by the one that many epochs later. -/

namespace LS.Spec

variable (k : UInt64)

def lateAttrs (a : Attrs) : Attrs := { unstakeEpoch := a.unstakeEpoch + k, unbondEpoch := a.unbondEpoch + k }

def lateEvent : Event → Event
  | .change x c t r e => .change x c t r (e + k)
  | .protocolRevenue x e => .protocolRevenue x (e + k)

/-- The world some epochs later: the block epoch, the epochs of the unstake tokens, the table from unbond epochs to nonces, and the epochs
of the events.  All else, amounts, balances, lists and settings, is the same. -/
def lateWorld (w : World) : World :=
  { w with
    epoch := w.epoch + k
    attrs := renMap id (Option.map (lateAttrs k)) w.attrs
    st := { w.st with unstakeNonce := renMap (· + k) id w.st.unstakeNonce }
    events := w.events.map (lateEvent k) }

/-- The transaction some epochs later: only the passing of time names an epoch. -/
def lateOp : Op → Op
  | .advance e => .advance (e + k)
  | op => op

/-- The epoch can be that much later: epochs are `u64`. -/
def fits (e : UInt64) : Prop := e.toNat + k.toNat < 2 ^ 64

/-- All the epochs the code compares can be that much later. -/
structure Roomy (w : World) : Prop where
  now : fits k w.epoch
  tokens : ∀ n a, w.attrs.get none n = some a → fits k a.unstakeEpoch ∧ fits k a.unbondEpoch

end LS.Spec
