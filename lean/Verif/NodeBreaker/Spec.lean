import Verif.NodeBreaker.Model
import Verif.Graph.TraverseProps

/-! Vocabulary of the properties about node/breaker voltage levels, independent of the computation. -/

namespace Verif.NodeBreaker

open Verif Verif.Graph

/-- Current passes through the edge in this view: an internal connection, or a closed switch (not retained in the
    bus/breaker view). -/
def Passing (view : View) (opened retained : Nat → Bool) : Option Sw → Prop
  | none => True
  | some s => opened s.handle = false ∧ (view = .busBreaker → retained s.handle = false)

/-- The two nodes are linked by passing edges. -/
inductive Conn {ν ε : Type} (g : G ν ε) (P : Option ε → Prop) (u : Nat) : Nat → Prop
  | refl : Conn g P u u
  | step {v w e : Nat} {ed : Edge ε} : Conn g P u v → g.edgeAt e = some ed → P ed.obj → Joins ed v w → Conn g P u w

/-- Some switch or internal connection ends at the node. -/
def OnEdge {ν ε : Type} (g : G ν ε) (u : Nat) : Prop := ∃ e ed, g.edgeAt e = some ed ∧ (ed.v1 = u ∨ ed.v2 = u)

/-- Equipment of a type satisfying `p` on the node. -/
def Has (g : Gr) (p : EqType → Prop) (x : Nat) : Prop := ∃ t, g.vertexAt x = some (some t) ∧ p t.type

/-- Lines, transformers, converter stations, dangling lines. -/
def Branchy (t : EqType) : Prop :=
  t = .line ∨ t = .twoWindingsTransformer ∨ t = .threeWindingsTransformer ∨ t = .hvdcConverterStation ∨ t = .danglingLine

/-- The class of the node qualifies as a bus.  Bus/breaker view: always.  Bus view: a busbar section and another
    equipment, or a branch and another equipment that is not a busbar section. -/
def Qualifies (g : Gr) (view : View) (P : Option Sw → Prop) (u : Nat) : Prop :=
  match view with
  | .busBreaker => True
  | .bus =>
    (∃ x y, Conn g P u x ∧ Conn g P u y ∧ Has g (· = .busbarSection) x ∧ Has g (· ≠ .busbarSection) y) ∨
    (∃ x y, x ≠ y ∧ Conn g P u x ∧ Conn g P u y ∧ Has g Branchy x ∧ Has g (· ≠ .busbarSection) y)

/-- The node is on the bus `vl_m`: `m` is the least node of its class. -/
def OnBus (vl : String) (g : Gr) (view : View) (P : Option Sw → Prop) (u : Nat) (id : String) : Prop :=
  OnEdge g u ∧ Qualifies g view P u ∧ ∃ m, Conn g P u m ∧ (∀ x, Conn g P u x → m ≤ x) ∧ id = vl ++ "_" ++ toString m

end Verif.NodeBreaker
