import Verif.Model.Step

/-! The same with other token identifiers. -/

namespace LS.Spec

variable (f : TokenId → TokenId)

def tokEvent : Event → Event
  | .change x c t r e => .change x c (f t) r e
  | .protocolRevenue x e => .protocolRevenue x e

/-- The world with the identifiers of the two tokens replaced, in storage and in the events.  All else is the same. -/
def tokWorld (w : World) : World :=
  { w with
    st := { w.st with lsToken := w.st.lsToken.map f, unstakeToken := w.st.unstakeToken.map f }
    events := w.events.map (tokEvent f) }

def tokPay (p : Payment) : Payment := { p with token := f p.token }

/-- The transaction with other identifiers: payments name tokens, and so does the answer to an issue. -/
def tokOp : Op → Op
  | .unDelegate c v ps => .unDelegate c v (ps.map (tokPay f))
  | .withdraw c v ps => .withdraw c v (ps.map (tokPay f))
  | .issued i o => .issued i (o.map f)
  | op => op

end LS.Spec
