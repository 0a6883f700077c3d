import Verif.BusEquip.Model

/-!
What the equipment of a bus should be, without the functions of the model.
-/

namespace Verif.BusEquip.Spec

open Verif

/-- Whether a terminal of a bus/breaker voltage level is connected. -/
def connected (n : Net) (t : Nat) : Bool :=
  match n.terms t with
  | some x => x.connected
  | none => false

/-- The terminals that a bus holds. -/
def held : Bus → List Nat
  | .calculated _ ts => ts
  | .configured ts => ts
  | .merged _ bs => bs.flatten

/-- The terminals connected to a bus: all of them for a calculated bus. -/
def on (n : Net) : Bus → List Nat
  | .calculated _ ts => ts
  | .configured ts => ts.filter (connected n)
  | .merged _ bs => bs.flatten.filter (connected n)

/-- A bus that can be asked: not invalidated, and its terminals are alive. -/
def Usable (n : Net) (b : Bus) : Prop :=
  (match b with
    | .calculated v _ => v = true
    | .configured _ => True
    | .merged v _ => v = true) ∧ ∀ t ∈ held b, n.terms t ≠ none

/-- The position of a side. -/
def pos : Side → Nat
  | .one => 0
  | .two => 1
  | .three => 2

/-- The equipment at `e` is of class `c` and its terminal number `k` is `t`. -/
def HasTerm (n : Net) (e : Nat) (c : Cls) (k t : Nat) : Prop :=
  ∃ q, n.equips e = some q ∧ q.cls = c ∧ q.terms[k]? = some t

/-- A call of the visitor tells of the terminal: it is the method for that class, it is given the equipment that has the
    terminal, and the side is the one of the terminal. -/
def Tells (n : Net) (t : Nat) : Call → Prop
  | .busbarSection e => HasTerm n e .busbarSection 0 t
  | .line e s => HasTerm n e .line (pos s) t ∨ HasTerm n e .tieLine (pos s) t
  | .twoWindings e s => HasTerm n e .twoWindings (pos s) t
  | .threeWindings e s => HasTerm n e .threeWindings (pos s) t
  | .generator e => HasTerm n e .generator 0 t
  | .battery e => HasTerm n e .battery 0 t
  | .load e => HasTerm n e .load 0 t
  | .shunt e => HasTerm n e .shunt 0 t
  | .danglingLine e => HasTerm n e .danglingLine 0 t
  | .svc e => HasTerm n e .svc 0 t
  | .station e => HasTerm n e .lcc 0 t ∨ HasTerm n e .vsc 0 t

/-- One call per terminal, in the same order. -/
inductive TellsAll (n : Net) : List Nat → List Call → Prop
  | nil : TellsAll n [] []
  | cons {t c ts cs} : Tells n t c → TellsAll n ts cs → TellsAll n (t :: ts) (c :: cs)

/-- The actions are done one after the other, up to the first that does not return. -/
def doAll {α σ : Type} (f : α → σ → Out σ) : List α → σ → Out σ
  | [], s => .ok s
  | a :: as, s =>
    match f a s with
    | .ok s' => doAll f as s'
    | .thrown => .thrown
    | .ub => .ub

/-- The classes found in each listing. -/
def listed : Ty → List Cls
  | .busbarSection => [.busbarSection]
  | .line => [.line, .tieLine]
  | .twoWindings => [.twoWindings]
  | .threeWindings => [.threeWindings]
  | .generator => [.generator]
  | .battery => [.battery]
  | .load => [.load]
  | .shunt => [.shunt]
  | .danglingLine => [.danglingLine]
  | .svc => [.svc]
  | .lcc => [.lcc]
  | .vsc => [.vsc]
  | .station => [.lcc, .vsc]

/-- The terminal belongs to the equipment. -/
def Of (n : Net) (e t : Nat) : Bool :=
  match n.equips e with
  | some q => decide (t ∈ q.terms)
  | none => false

/-- The terminal belongs to an equipment of one of the classes. -/
def OfClass (n : Net) (cs : List Cls) (t : Nat) : Prop := ∃ e q, n.equips e = some q ∧ t ∈ q.terms ∧ q.cls ∈ cs

/-- The classes whose active power counts in the balance of a bus. -/
def active : List Cls := [.generator, .battery, .load, .lcc, .vsc]

/-- The classes whose reactive power counts in the balance of a bus. -/
def reactive : List Cls := [.generator, .battery, .load, .shunt, .svc, .lcc, .vsc]

end Verif.BusEquip.Spec

namespace Verif.BusEquip.Spec

open Verif

/-- The values of the terminals that belong to one of the classes, in order, without those that are NaN. -/
inductive Amounts (n : Net) (cs : List Cls) (value : Term → Dbl) : List Nat → List Dbl → Prop
  | nil : Amounts n cs value [] []
  | other {t ts vs} : ¬ OfClass n cs t → Amounts n cs value ts vs → Amounts n cs value (t :: ts) vs
  | unset {t x ts vs} : n.terms t = some x → value x = .nan → Amounts n cs value ts vs → Amounts n cs value (t :: ts) vs
  | counted {t x ts vs} : OfClass n cs t → n.terms t = some x → value x ≠ .nan → Amounts n cs value ts vs →
      Amounts n cs value (t :: ts) (value x :: vs)

/-- The number that a value stands for; none counts for nothing. -/
def number : Dbl → Rat
  | .fin r => r
  | _ => 0

/-- Sum of numbers. -/
def total : List Dbl → Rat
  | [] => 0
  | v :: vs => number v + total vs

/-- A value is finite. -/
def Finite (v : Dbl) : Prop := ∃ r, v = .fin r

end Verif.BusEquip.Spec
