import Verif.BusState.Model
import Verif.NodeBreaker.Spec

/-! Specification of the voltage and of the angle of a bus, independent of the loops of the code. -/

namespace Verif.BusState

open Verif Verif.Graph Verif.NodeBreaker

/-- What a voltage or an angle is kept by. -/
inductive Holder where
  | terminal (t : Nat)
  | bus (b : Nat)
  deriving DecidableEq, Repr

/-- The voltage kept by a holder in a variant. -/
def voltage (s : St) : Holder → Nat → Dbl
  | .terminal t => s.tv t
  | .bus b => s.bv b

/-- The angle kept by a holder in a variant. -/
def angle (s : St) : Holder → Nat → Dbl
  | .terminal t => s.ta t
  | .bus b => s.ba b

/-- The holder belongs to the bus. -/
def Owns : Bus → Holder → Prop
  | .calculated _ ts _, .terminal t => t ∈ ts
  | .conf c, .bus b => b = c
  | .merged _ bs, .bus b => b ∈ bs
  | _, _ => False

instance (b : Bus) (h : Holder) : Decidable (Owns b h) := by
  cases b <;> cases h <;> unfold Owns <;> infer_instance

/-- The bus has not been invalidated. -/
def Valid : Bus → Prop
  | .calculated valid _ _ => valid = true
  | .conf _ => True
  | .merged valid _ => valid = true

/-- The bus comes from a constructor, and was possibly invalidated. -/
inductive Made : Bus → Prop
  | calculated {g : Gr} {opened : Nat → Bool} {b : NodeBreaker.Bus} {r : Bus} : construct g opened b = .ok r → Made r
  | conf (c : Nat) : Made (.conf c)
  | merged {bs : List Nat} {r : Bus} : merge bs = .ok r → Made r
  | invalidated {b : Bus} : Made b → Made (invalidate b)

/-- A voltage that is accepted. -/
def Acceptable (x : Dbl) : Prop := x = .nan ∨ Dbl.le (.fin 0) x = true

/-- Terminals of the graph are told apart by their handles. -/
def Distinct (g : Gr) : Prop :=
  ∀ u u' t t', g.vertexAt u = some (some t) → g.vertexAt u' = some (some t') → t.handle = t'.handle → u = u'

/-- The nodes are linked by closed switches and internal connections, retained or not. -/
def Tied (g : Gr) (opened : Nat → Bool) (u w : Nat) : Prop := Conn g (Passing .bus opened (fun _ => false)) u w

end Verif.BusState
