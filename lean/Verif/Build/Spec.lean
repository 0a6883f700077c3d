import Verif.Build.Model
import Verif.ReadBack.HonestSpec
import Verif.UniqueId.Props
import Verif.Adders.Props
import Verif.XmlNet.NetValid
import Verif.Setters.Spec

/-!
What it takes to add an object to a network, said without the adders: the specification of C98.
-/

namespace Verif.Build

open Verif Verif.Xml Verif.XmlNet Verif.Setters

/-- Nobody has this name, neither as an identifier nor as an alias. -/
def Free (l : List Item) (n : String) : Prop := ∀ x ∈ l, n ∉ x.names

/-- The identifier of the new object: the one that was asked for, or the first free one that is made from it. -/
def NewName (l : List Item) (b : Base) (n : String) : Prop :=
  b.id ≠ "" ∧ Free l n ∧ (b.ensure = false → n = b.id) ∧ (b.ensure = true → UniqueId.IsUniqueName (fun m => ¬ Free l m) b.id n)

/-- The place is one of the voltage level: a node without a terminal, or a bus. -/
def Fits (l : List Item) (vl : String) (node : Bool) : Adders.Place → Prop
  | .node n => node = true ∧ ∀ x ∈ l, ∀ e ∈ x.ends, e.vl = vl → e.place ≠ .node n
  | .bus b _ => node = false ∧ ∃ y ∈ l, y.id = b ∧ y.obj = .bus vl

/-- What an injection gets: a new identifier, and a terminal without flows at the place that is wanted. -/
def Attached (l : List Item) (v : VL) (b : Base) (a : Adders.Args) (i : Ident) (t : Term) : Prop :=
  ∃ n p, NewName l b n ∧ Adders.Wanted a p ∧ Fits l v.ident.head.id v.topo.isNode p ∧ i = ⟨⟨n, b.name, b.fictitious⟩, [], []⟩ ∧ t = ⟨p, .nan, .nan⟩

/-- A side is in a voltage level of the network (of the substation, for a transformer) that has one of its names, by its identifier, at a place of its kind. -/
def SideOf (l : List Item) (only : Option String) (e : String × Adders.Args) (s : Side) : Prop :=
  e.1 ≠ "" ∧ ∃ v ∈ l, e.1 ∈ v.names ∧ ∃ sub node p, v.obj = .level sub node ∧ (∀ o, only = some o → o = sub) ∧ Adders.Wanted e.2 p ∧ Suits l v node p ∧
    s = ⟨v.id, ⟨p, .nan, .nan⟩⟩

/-- No node of the sides has a terminal, nor is the node of two of them. -/
def SidesFree (l : List Item) (ss : List Side) : Prop :=
  (∀ s ∈ ss, ∀ n, s.term.place = .node n → ∀ x ∈ l, ∀ e ∈ x.ends, e.vl = s.vl → e.place ≠ .node n) ∧
    ss.Pairwise fun s t => s.vl = t.vl → ∀ n, s.term.place = .node n → t.term.place ≠ .node n

/-- What a branch gets. -/
def Placed (l : List Item) (b : Base) (ss : List Side) (i : Ident) : Prop := ∃ n, NewName l b n ∧ SidesFree l ss ∧ i = ⟨⟨n, b.name, b.fictitious⟩, [], []⟩

/-! ### What is asked of the calls -/

/-- Enumerators are those of the enumerations: the adders do not look. -/
def VLAdd.Known : VLAdd → Prop
  | .gen _ _ _ _ x => x.source < Enums.energySource.enumerators.length
  | .nodeSwitch _ _ _ k _ _ => ∀ n, k = some n → n < Enums.switchKind.enumerators.length
  | _ => True

def SubAdd.Known : SubAdd → Prop
  | .vl _ o => o.Known
  | _ => True

def NetAdd.Known : NetAdd → Prop
  | .sub _ o => o.Known
  | .substation _ c _ _ => ∀ n, c = some n → n < Enums.country.enumerators.length
  | _ => True

/-- The bounds of the generation of a dangling line are doubles: rational numbers may be greater. -/
def VLAdd.Doubles : VLAdd → Prop
  | .dl _ _ x => ∀ y, x.gen = some y → y.minP.InRange ∧ y.maxP.InRange
  | _ => True

def SubAdd.Doubles : SubAdd → Prop
  | .vl _ o => o.Doubles
  | _ => True

def NetAdd.Doubles : NetAdd → Prop
  | .sub _ o => o.Doubles
  | _ => True

/-- Regulating terminals are those of equipment of the network. -/
def VLAdd.Honest (l : List Item) : VLAdd → Prop
  | .gen _ _ _ _ x => Refers (RefById l) x.reg
  | .sh _ _ _ _ _ x => Refers (RefById l) x.reg
  | .svc _ _ _ _ x => Refers (RefById l) x.reg
  | _ => True

def SubAdd.Honest (l : List Item) : SubAdd → Prop
  | .vl _ o => o.Honest l
  | _ => True

def NetAdd.Honest (l : List Item) : NetAdd → Prop
  | .sub _ o => o.Honest l
  | _ => True

def Call.Safe {T : Type} (x : Net T) : Call T → Prop
  | .add o => o.Known ∧ o.Doubles ∧ o.Honest (netItems x)
  | .set o => o.Safe x ∧ o.Honest x

/-- Every call is safe in the network in which it is made. -/
def SafeCalls {T : Type} (x : Net T) : List (Call T) → Prop
  | [] => True
  | o :: os => o.Safe x ∧ (∀ y, o.run x = .ok y → SafeCalls y os) ∧ (o.run x = .thrown → SafeCalls x os)

/-! ### New objects among the others -/

/-- An object that may join the others: its name is new, its voltage levels, buses and stations are there, under their identifiers, and its nodes are free. -/
structure Joins (l : List Item) (a : Item) : Prop where
  fresh : Free l a.id
  named : a.id ≠ ""
  aliases : a.ident.aliases = []
  needs : ∀ n ∈ a.needs, ∃ b ∈ l, b.id = n.2 ∧ b.obj = .bus n.1
  ends : ∀ e ∈ a.ends, ∃ v ∈ l, e.vl = v.id ∧ ∃ sub node, v.obj = .level sub node ∧ Suits l v node e.place ∧ ∀ s, e.only = some s → s = sub
  free : ∀ e ∈ a.ends, ∀ n, e.place = .node n → ∀ x ∈ l, ∀ f ∈ x.ends, f.vl = e.vl → f.place ≠ .node n
  apart : a.ends.Pairwise fun e f => e.vl = f.vl → ∀ n, e.place = .node n → f.place ≠ .node n
  stations : ∀ s, a.stations = some s → (∃ y ∈ l, s.1 = y.id ∧ y.obj = .station) ∧ ∃ y ∈ l, s.2 = y.id ∧ y.obj = .station

end Verif.Build
