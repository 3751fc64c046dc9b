import Verif.Spec.RingMem

/-!
# What becomes of the elements of a ring (no code from the model)
-/

namespace Verif.Ring.Spec

/-- Elements stored by the calls: those for which put or put_front has returned true -/
def Buf.stored : Buf → List Op → List Ptr
  | _, [] => []
  | b, op :: ops => Spec.stored op (b.next op).1 ++ (b.next op).2.stored ops

/-- The element handed over to the caller: the oldest one by get and the newest one by get_last -/
def Buf.takes (b : Buf) : Op → List Ptr
  | .get => b.items.head?.toList
  | .getLast => b.items.getLast?.toList
  | _ => []

/-- Elements handed over to the caller -/
def Buf.taken : Buf → List Op → List Ptr
  | _, [] => []
  | b, op :: ops => b.takes op ++ (b.next op).2.taken ops

end Verif.Ring.Spec
