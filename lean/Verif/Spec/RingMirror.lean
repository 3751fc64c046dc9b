import Verif.Spec.RingCap

/-!
# A ring seen from its other end (no code from the model)
-/

namespace Verif.Ring.Spec

/-- The call which does the same thing at the other end. -/
def Buf.mirror (b : Buf) : Op → Op
  | .put p => .putFront p
  | .putFront p => .put p
  | .get => .getLast
  | .getLast => .get
  | .drop n => .dropLast n
  | .dropLast n => .drop n
  | .dataAt i => .dataAt (if 0 ≤ i ∧ i < b.items.length then b.items.length - 1 - i else i)
  | op => op

/-- ... for a sequence of calls -/
def Buf.mirrors : Buf → List Op → List Op
  | _, [] => []
  | b, op :: ops => b.mirror op :: (b.next op).2.mirrors ops

/-- What's returned is the same, but the flattened block is in the opposite order. -/
def Out.mirror : Out → Out
  | .block b n => .block (b.map List.reverse) n
  | o => o

/-- The maximum size is never lowered so far that something gets dropped (which would be the oldest elements). -/
def Buf.NoCut : Buf → List Op → Prop
  | _, [] => True
  | b, op :: ops => (match op with | .setMaxSize n => n < 0 ∨ b.items.length ≤ n | _ => True) ∧ (b.next op).2.NoCut ops

end Verif.Ring.Spec
