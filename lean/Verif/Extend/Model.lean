import Verif.Common.Out
import Verif.Common.AMap

/-! Model of the extensions of an object (Extendable.cpp, Extendable.hxx, Extension.cpp).

An extension object is its address, its name (`getName`) and its type (`getType`, taken to be its dynamic type as in every extension of the
repository).  It is owned by the map by name; once erased from there it is destroyed, and using it is undefined behaviour. -/

namespace Verif.Extend

open Verif

/-- An extension object. -/
structure Ext where
  addr : Nat
  name : Nat
  type : Nat
  deriving DecidableEq, Repr

/-- `m_extensionsByName` and `m_extensionsByType`. -/
structure St where
  byName : AMap Nat Ext
  byType : AMap Nat Ext
  deriving DecidableEq, Repr

/-- A new object. -/
def init : St := ⟨[], []⟩

/-- The object is alive: it is owned by the map by name. -/
def alive (s : St) (e : Ext) : Bool := s.byName.any fun p => p.2 == e

/-- Removal of the existing extension of the same name (Extendable.cpp l.30-36). -/
def cleanExisting (e : Ext) (s : St) : St :=
  match s.byName.get? e.name with
  | some _ => { byName := s.byName.erase e.name, byType := s.byType.erase e.type }
  | none => s

/-- `addExtension` (Extendable.cpp l.29-43).  `accepted` is whether `setExtendable(*this)` succeeds (Extension.cpp l.25-32: the type of the
    extended object is checked, and the extension must not belong to another object). -/
def addExtension (e : Ext) (accepted : Bool) (s : St) : Out Unit × St :=
  let s1 := cleanExisting e s
  if !accepted then (.thrown, s1)
  else (.ok (), { byName := s1.byName.emplace e.name e, byType := s1.byType.emplace e.type e })

/-- `findExtension<E>` (Extendable.hxx l.20-42). -/
def findByType (t : Nat) (s : St) : Out (Option Ext) :=
  match s.byType.get? t with
  | none => .ok none
  | some e => if alive s e then .ok (some e) else .ub

/-- `getExtension<E>` (Extendable.hxx l.44-56). -/
def getByType (t : Nat) (s : St) : Out Ext :=
  match s.byType.get? t with
  | none => .thrown
  | some e => if alive s e then .ok e else .ub

/-- `getExtensionByName<E>` (Extendable.hxx l.58-70), `E` being a final class. -/
def findByName (n t : Nat) (s : St) : Out (Option Ext) :=
  match s.byName.get? n with
  | none => .ok none
  | some e => if e.type = t then .ok (some e) else .ok none

/-- `getExtensions` (Extendable.cpp l.45-51). -/
def getExtensions (s : St) : List Ext := s.byName.map Prod.snd

/-- `removeExtension<E>` (Extendable.hxx l.77-84): the name is read from the object. -/
def removeExtension (t : Nat) (s : St) : Out Unit × St :=
  match s.byType.get? t with
  | none => (.ok (), s)
  | some e =>
    if alive s e then (.ok (), { byName := s.byName.erase e.name, byType := s.byType.erase t })
    else (.ub, s)

/-- Outcome of the move constructor, which is `noexcept`: an exception ends the program. -/
inductive Moved where
  | moved (s : St)
  | terminated
  deriving DecidableEq, Repr

/-- Move constructor (Extendable.cpp l.20-27): `setExtendable` of each extension is called with the new object while the extension still
    belongs to the old one, and throws (Extension.cpp l.28-30). -/
def move (s : St) : Moved :=
  match getExtensions s with
  | [] => .moved s
  | _ :: _ => .terminated

/-- A modifying call. -/
inductive Op where
  | add (e : Ext) (accepted : Bool)
  | remove (type : Nat)
  deriving DecidableEq, Repr

/-- Performs a call. -/
def step (o : Op) (s : St) : Out Unit × St :=
  match o with
  | .add e a => addExtension e a s
  | .remove t => removeExtension t s

/-- Performs calls in sequence, going on after exceptions; `none` after undefined behaviour. -/
def run : List Op → St → Option St
  | [], s => some s
  | o :: os, s => match (step o s).1 with
    | .ub => none
    | _ => run os (step o s).2

end Verif.Extend
