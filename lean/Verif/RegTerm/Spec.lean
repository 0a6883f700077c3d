import Verif.RegTerm.Model

/-! What the references should be: told from the calls alone. -/

namespace Verif.RegTerm

open Verif

/-- What a call that was accepted has asked for. -/
inductive Fact where
  | nothing
  /-- A new equipment, its network, its number of terminals and the terminal it regulates. -/
  | born (e net terms : Nat) (own : Option Term)
  /-- A reference was set. -/
  | told (e : Nat) (s : Slot) (t : Option Term)
  /-- A tap changer or the extension was removed. -/
  | dropped (e : Nat) (s : Slot)
  | gone (e : Nat)
  | merged (a b : Nat)
  deriving DecidableEq, Repr

/-- Without a terminal an equipment regulates its own. -/
def orOwn (e : Nat) : Option Term → Term
  | none => ⟨e, 0⟩
  | some t => t

/-- The call and what it gave. -/
def fact : Op → Out Res → Fact
  | .addDevice net t _ _, .ok (.made e) => .born e net 1 (some (orOwn e t))
  | .addOther net terms, .ok (.made e) => .born e net terms none
  | .setReg e t, .ok _ => .told e .own (some (orOwn e t))
  | .addTap e s _ _ _ _ t, .ok _ => .told e s t
  | .setTap e s _ _ _ t, .ok _ => .told e s t
  | .addCtrl e t, .ok _ => .told e .ctrl t
  | .drop e s, .ok _ => .dropped e s
  | .remove e, .ok _ => .gone e
  | .merge a b, .ok _ => .merged a b
  | _, _ => .nothing

/-- The facts since the beginning, the last one first, and the world they lead to.  Nothing is said after a call that is undefined. -/
inductive Reach : List Fact → World → Prop where
  | init : Reach [] init
  | step {h w} (o : Op) : Reach h w → (step w o).1 ≠ .ub → Reach (fact o (step w o).1 :: h) (step w o).2

/-- The last thing asked for a reference: `none` when there is no such reference, `some none` when it is null. -/
def asked (e : Nat) (s : Slot) : List Fact → Option (Option Term)
  | [] => none
  | .born e' _ _ own :: h => if e' = e ∧ s = .own ∧ own.isSome then some own else asked e s h
  | .told e' s' t :: h => if e' = e ∧ s' = s then some t else asked e s h
  | .dropped e' s' :: h => if e' = e ∧ s' = s then none else asked e s h
  | _ :: h => asked e s h

/-- The network an equipment is in: the one it was added to, or what that one was merged into. -/
def home (e : Nat) : List Fact → Option Nat
  | [] => none
  | .born e' net _ _ :: h => if e' = e then some net else home e h
  | .merged a b :: h => (home e h).map fun n => if n = b then a else n
  | _ :: h => home e h

/-- The number of terminals of an equipment. -/
def size (e : Nat) : List Fact → Nat
  | [] => 0
  | .born e' _ k _ :: h => if e' = e then k else size e h
  | _ :: h => size e h

/-- The equipment is there: it was added and not removed. -/
def Here (h : List Fact) (e : Nat) : Prop := (∃ net k own, Fact.born e net k own ∈ h) ∧ Fact.gone e ∉ h

/-- The terminal is there. -/
def THere (h : List Fact) (t : Term) : Prop := Here h t.eq ∧ t.ix < size t.eq h

/-- No equipment was removed while another one held a reference to one of its terminals. -/
def Careful : List Fact → Prop
  | [] => True
  | .gone e' :: h => (∀ e s t, Here h e → e ≠ e' → asked e s h = some (some t) → t.eq ≠ e') ∧ Careful h
  | _ :: h => Careful h

/-- The equipment and the terminals a call names are there. -/
def Named (h : List Fact) : Op → Prop
  | .addDevice _ t _ _ => ∀ x, t = some x → THere h x
  | .addOther _ _ => True
  | .setReg e t => Here h e ∧ ∀ x, t = some x → THere h x
  | .addTap e _ _ _ _ _ t => Here h e ∧ ∀ x, t = some x → THere h x
  | .setTap e _ _ _ _ t => Here h e ∧ ∀ x, t = some x → THere h x
  | .touchTap e _ _ _ _ => Here h e
  | .addCtrl e t => Here h e ∧ ∀ x, t = some x → THere h x
  | .drop e _ => Here h e
  | .remove e => Here h e
  | .merge _ _ => True
  | .write e => Here h e

end Verif.RegTerm
