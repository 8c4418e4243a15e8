import Verif.Spec.Copies
import Verif.Model.SM2Heap
/-!
# Results in memory of their own, for functions with a loop that may still be running
-/
namespace Verif.Spec

/-- `Outcome` for a function with a loop that may still be running (`none`). -/
def OutcomeOpt {α β : Type} (h : Heap) (Q : Heap → α → β → Prop) (r : Option (Res (Heap × α))) (v : Option (Res β)) :
    Prop :=
  match r, v with
  | none, none => True
  | some r, some v => Outcome h Q r v
  | _, _ => False

/-- What `Decrypt` returns: the same error, and nil or the message in an array that was not there in `h0`. -/
def DecAt (h0 h : Heap) (a : SM2.DecRef) (v : SM2.DecOut) : Prop :=
  a.2 = v.2 ∧
    match a.1, v.1 with
    | none, none => True
    | some s, some b => FreshCopy h0 h s b
    | _, _ => False

/-- The bytes in the capacity of a slice beyond its length. -/
def spareOf (h : Heap) (s : Slice) : Bytes := ((h.mem s.arr).drop (s.off + s.len)).take (s.cap - s.len)

end Verif.Spec
