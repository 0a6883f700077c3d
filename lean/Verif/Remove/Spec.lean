import Verif.Remove.Model

/-! What a removal leaves, said without the functions that remove: the specification of C99. -/

namespace Verif.Remove

open Verif Verif.Xml Verif.XmlNet Verif.Setters Verif.Build

/-- Everything of the list in its order, but for what is called `n`. -/
def Fewer {α : Type} (f : α → Ident) (n : String) (xs ys : List α) : Prop := ys.Sublist xs ∧ (∀ a ∈ ys, (f a).head.id ≠ n) ∧ ∀ a ∈ xs, (f a).head.id ≠ n → a ∈ ys

/-- The elements of two lists, place by place. -/
def Along {α : Type} (R : α → α → Prop) (xs ys : List α) : Prop := xs.length = ys.length ∧ ∀ (i : Nat) a b, xs[i]? = some a → ys[i]? = some b → R a b

structure FewerEquip (n : String) (x y : Equip) : Prop where
  gens : Fewer Gen.ident n x.gens y.gens
  bats : Fewer Bat.ident n x.bats y.bats
  loads : Fewer Load.ident n x.loads y.loads
  shs : Fewer Sh.ident n x.shs y.shs
  dls : Fewer Dl.ident n x.dls y.dls
  svcs : Fewer Svc.ident n x.svcs y.svcs
  vscs : Fewer Vsc.ident n x.vscs y.vscs
  lccs : Fewer Lcc.ident n x.lccs y.lccs

inductive FewerTopo (n : String) : Topo → Topo → Prop
  | node {bbs bbs' sws sws' conns calcs} (h1 : Fewer Bbs.ident n bbs bbs') (h2 : Fewer NSw.ident n sws sws') : FewerTopo n (.node bbs sws conns calcs) (.node bbs' sws' conns calcs)
  | bus {buses buses' sws sws'} (h1 : Fewer Bus.ident n buses buses') (h2 : Fewer BSw.ident n sws sws') : FewerTopo n (.bus buses sws) (.bus buses' sws')

/-- A voltage level without the object: nothing else of it is changed. -/
def FewerVL (n : String) (v w : VL) : Prop :=
  ∃ t e, w = { v with topo := t, equip := e } ∧ FewerTopo n v.topo t ∧ FewerEquip n v.equip e

def FewerSub (n : String) (s t : Substation) : Prop :=
  ∃ vs t2 t3, t = { s with vls := vs, tw2s := t2, tw3s := t3 } ∧ Along (FewerVL n) s.vls vs ∧ Fewer Tw2.ident n s.tw2s t2 ∧ Fewer Tw3.ident n s.tw3s t3

/-- The network without what is called `n`: nothing else is changed. -/
def FewerNet {T : Type} (n : String) (x y : Net T) : Prop :=
  ∃ ss ls hs, y = { x with subs := ss, lines := ls, hvdcs := hs } ∧ Along (FewerSub n) x.subs ss ∧ Fewer anyIdent n x.lines ls ∧ Fewer HvdcLine.ident n x.hvdcs hs

/-- The voltage level of this name, with another topology, in a network of which nothing else is changed. -/
def OneLevel {T : Type} (vl : String) (R : Topo → Topo → Prop) (x y : Net T) : Prop :=
  ∃ ss s ss' vs v vs' t, x.subs = ss ++ s :: ss' ∧ s.vls = vs ++ v :: vs' ∧ v.ident.head.id = vl ∧ R v.topo t ∧
    y = { x with subs := ss ++ { s with vls := vs ++ { v with topo := t } :: vs' } :: ss' }

/-- A connection between two nodes, in one direction or the other. -/
def Links (i j : Nat) (c : Nat × Nat) : Prop := c = (i, j) ∨ c = (j, i)

/-- Connections between two nodes are all removed, if any. -/
inductive Unlinked (i j : Nat) : Topo → Topo → Prop
  | mk {bbs sws conns conns' calcs} (h : ∃ c ∈ conns, Links i j c) (h1 : conns'.Sublist conns) (h2 : ∀ c ∈ conns', ¬ Links i j c) (h3 : ∀ c, ¬ Links i j c → conns'.count c = conns.count c) : Unlinked i j (.node bbs sws conns calcs) (.node bbs sws conns' calcs)

/-- An equipment, or a converter station that no HVDC line has. -/
def Removable {T : Type} (x : Net T) (a : Item) : Prop := (∃ k, a.obj = .equip k) ∨ (a.obj = .station ∧ ∀ h ∈ x.hvdcs, h.station1 ≠ a.id ∧ h.station2 ≠ a.id)

/-- A switch of the voltage level. -/
def SwitchOf {T : Type} (x : Net T) (vl n : String) : Prop := ∃ s ∈ x.subs, ∃ v ∈ s.vls, v.ident.head.id = vl ∧
  ((∃ bbs sws conns calcs, v.topo = .node bbs sws conns calcs ∧ ∃ w ∈ sws, w.ident.head.id = n) ∨ ∃ buses sws, v.topo = .bus buses sws ∧ ∃ w ∈ sws, w.ident.head.id = n)

/-- The object that a removal is about, when it is only one. -/
def Removal.target : Removal → Option String
  | .connectable n => some n
  | .hvdcLine n => some n
  | .bus _ n => some n
  | .switch _ n => some n
  | _ => none

/-- An equipment is removed only when nothing that stays refers to its terminals. -/
def Removal.Safe {T : Type} (x : Net T) : Removal → Prop
  | .connectable n => ∀ y, (Removal.connectable n).run x = .ok y → ∀ r, y.HasRef r → r.id ≠ n
  | _ => True

def Step.Safe {T : Type} (x : Net T) : Step T → Prop
  | .call o => o.Safe x
  | .remove o => o.Safe x

/-- Every call is safe in the network in which it is made. -/
def SafeSteps {T : Type} (x : Net T) : List (Step T) → Prop
  | [] => True
  | o :: os => o.Safe x ∧ (∀ y, o.run x = .ok y → SafeSteps y os) ∧ (o.run x = .thrown → SafeSteps x os)

/-- The adders of a single object that others do not belong to. -/
def SingleSub : SubAdd → Prop
  | .vl _ o => ∀ i j, o ≠ .connection i j
  | .level .. => False
  | _ => True

/-- The adders of a single object that others do not belong to.  HVDC lines are apart: their stations are not checked. -/
def SingleNet : NetAdd → Prop
  | .sub _ o => SingleSub o
  | .substation .. => False
  | .hvdc .. => False
  | _ => True

end Verif.Remove
