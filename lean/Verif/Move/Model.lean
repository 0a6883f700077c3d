import Verif.Index.Props
import Verif.Variants.Props
import Verif.Extend.Props

/-!
Model of the move constructor of a network (Network.cpp l.82-93): the extensions (`Extend.move`), the index and the
variants of the network itself.  The variant manager is moved member by member (VariantManager.cpp l.34-40), the views
start afresh, and every other object stays where it is.
-/

namespace Verif.Move

open Verif

/-- `NetworkIndex(Network&, NetworkIndex&&)` (NetworkIndex.cpp l.40-51): `m_objectsById` and `m_objectsByType` are
    moved, `m_idByAlias` is not and starts empty; the network is replaced under its id and at the first place of its
    type by the new one, whose address is the new handle `s.next`.  The network is always registered (Network.cpp l.79);
    otherwise the access to the first place is undefined. -/
def moveIndex (netId : String) (netTy : Nat) (s : Index.State) : Out Index.State :=
  match s.objs.get? netId with
  | none => .ub
  | some o =>
    match s.types.get? netTy with
    | some (_ :: r) => .ok
      { objs := s.objs.set netId { o with uid := s.next }, alias := [], types := s.types.set netTy (s.next :: r),
        next := s.next + 1 }
    | _ => .ub

/-- `VariantArray(Owner&, VariantArray&&)` (VariantArray.hxx l.33-39): every slot is dereferenced; a null one is
    undefined behaviour. -/
def moveSlots {V : Type} : List (Option V) → Out (List (Option V))
  | [] => .ok []
  | none :: _ => .ub
  | some v :: r => (moveSlots r).map (fun l => some v :: l)

/-- `m_variants` of the network, the attribute number `a`, is the only array that is moved. -/
def moveVariants {V : Type} (a : Nat) (s : Variants.State V) : Out (Variants.State V) :=
  match s.arrs[a]? with
  | none => .ub
  | some arr => (moveSlots arr.slots).map (fun l => { s with arrs := s.arrs.set a { arr with slots := l } })

end Verif.Move
