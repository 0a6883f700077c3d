import Verif.Common.Out
import Verif.Common.AMap
import Verif.UniqueId.Model

/-!
Model of the network index: ids, aliases and per-type listings
(src/iidm/NetworkIndex.cpp, include/powsybl/iidm/NetworkIndex.hxx, src/iidm/Identifiable.cpp l.36-69 and
l.173-183, include/powsybl/iidm/IdentifiableAdder.hxx l.25-47).

An object instance is identified by a handle `uid` (its address); handles are never reused in the model.
-/

namespace Verif.Index

open Verif

/-- The part of an `Identifiable` relevant for the index (include/powsybl/iidm/Identifiable.hpp):
    address, id, dynamic type (`typeid`), `m_aliasesWithoutType` and `m_aliasesByType`. -/
structure Obj where
  uid : Nat
  id : String
  ty : Nat
  noType : List String
  byType : AMap String String
  deriving DecidableEq, Repr

/-- `Identifiable::getAliases` (Identifiable.cpp l.99-101). -/
def Obj.aliases (o : Obj) : List String := o.noType ++ o.byType.map Prod.snd

/-- `NetworkIndex` (NetworkIndex.hpp l.78-93): `m_objectsById`, `m_idByAlias`, `m_objectsByType`; `next` is the
    next unused handle (model only). -/
structure State where
  objs : AMap String Obj
  alias : AMap String String
  types : AMap Nat (List Nat)
  next : Nat
  deriving Repr

/-- The index of a network without objects.  (The `Network` object itself, which also registers in the index,
    is one more object added with `checkAndAdd`, Network.cpp l.79.) -/
def init : State := { objs := [], alias := [], types := [], next := 0 }

/-- `stdcxx::getOrDefault(m_idByAlias, id, id)` (NetworkIndex.cpp l.87). -/
def resolve (s : State) (n : String) : String := (s.alias.get? n).getD n

/-- `NetworkIndex::find<Identifiable>` (NetworkIndex.cpp l.86-92). -/
def find (s : State) (n : String) : Out (Option Obj) :=
  let r := resolve s n
  if r = "" then .thrown else .ok (s.objs.get? r)

/-- `static_cast<bool>(network.find(id))` as used by the uniqueness predicates
    (IdentifiableAdder.hxx l.35-37, Identifiable.cpp l.55-57).  `find` throws only for a name that resolves to the
    empty string; the names tested are never empty and no alias resolves to the empty string in a reachable
    state (theorem `reachable_find_total`), so the exception is not represented here. -/
def inUse (s : State) (n : String) : Bool :=
  match find s n with
  | .ok (some _) => true
  | _ => false

/-- `NetworkIndex::checkAndAdd` (NetworkIndex.hxx l.32-52) for a new object without alias (the constructors called
    by the adders create objects without alias, so the loop l.43-45 does nothing).  Returns the handle. -/
def checkAndAdd (s : State) (id : String) (ty : Nat) : Out Nat × State :=
  if id = "" then (.thrown, s)
  else
    match s.objs.get? id with
    | some _ => (.thrown, s)
    | none =>
      let o : Obj := { uid := s.next, id := id, ty := ty, noType := [], byType := [] }
      (.ok s.next,
        { s with
          objs := s.objs.emplace id o
          types := s.types.set ty (((s.types.get? ty).getD []) ++ [s.next])
          next := s.next + 1 })

/-- Adder: `checkAndGetUniqueId` (IdentifiableAdder.hxx l.25-47) then `checkAndAdd`. -/
def add (s : State) (id : String) (ty : Nat) (ensureUnicity : Bool) : Out Nat × State :=
  if id = "" then (.thrown, s)
  else if ensureUnicity then
    checkAndAdd s (UniqueId.getUniqueId id (inUse s)) ty
  else
    match find s id with
    | .thrown => (.thrown, s)
    | .ub => (.ub, s)
    | .ok (some _) => (.thrown, s)
    | .ok none => checkAndAdd s id ty

/-- The object behind a handle held by the caller, if it is still alive (objects are owned by `m_objectsById`). -/
def live (s : State) (uid : Nat) : Option Obj :=
  (s.objs.find? (fun p => p.2.uid == uid)).map Prod.snd

/-- `NetworkIndex::addAlias` (NetworkIndex.cpp l.53-79). -/
def indexAddAlias (s : State) (o : Obj) (a : String) : Out Bool × State :=
  match s.objs.get? a with
  | some c => if c.uid = o.uid then (.ok false, s) else (.thrown, s)
  | none =>
    match s.alias.get? a with
    | some id =>
      match s.objs.get? id with
      | some c => if c.uid = o.uid then (.ok false, s) else (.thrown, s)
      | none => (.ub, s)      -- l.68: `*m_objectsById[id]` dereferences a null pointer
    | none => (.ok true, { s with alias := s.alias.emplace a o.id })

/-- `std::set::emplace`. -/
def setInsert (l : List String) (a : String) : List String := if a ∈ l then l else l ++ [a]

/-- Updates the object owned under its id. -/
def updateObj (s : State) (o : Obj) : State := { s with objs := s.objs.set o.id o }

/-- `Identifiable::addAlias(alias, aliasType, ensureAliasUnicity)` (Identifiable.cpp l.52-69) called on the object
    `uid`.  Calling it on a destroyed object is undefined behaviour. -/
def addAlias (s : State) (uid : Nat) (a : String) (aliasType : String) (ensureUnicity : Bool) :
    Out Unit × State :=
  match live s uid with
  | none => (.ub, s)
  | some o =>
    let a' := if ensureUnicity then UniqueId.getUniqueId a (inUse s) else a
    if aliasType ≠ "" ∧ (o.byType.get? aliasType).isSome then (.thrown, s)
    else
      match indexAddAlias s o a' with
      | (.ok true, s') =>
        if aliasType = "" then
          (.ok (), updateObj s' { o with noType := setInsert o.noType a' })
        else
          (.ok (), updateObj s' { o with byType := o.byType.set aliasType a' })
      | (.ok false, s') => (.ok (), s')
      | (.thrown, s') => (.thrown, s')
      | (.ub, s') => (.ub, s')

/-- `Identifiable::getAliasType` (Identifiable.cpp l.111-119). -/
def Obj.aliasType (o : Obj) (a : String) : String :=
  if a ∈ o.noType then ""
  else
    match o.byType.find? (fun p => p.2 == a) with
    | some p => p.1
    | none => ""

/-- `Identifiable::removeAlias` (Identifiable.cpp l.173-183) with `NetworkIndex::removeAlias`
    (NetworkIndex.cpp l.176-185). -/
def removeAlias (s : State) (uid : Nat) (a : String) : Out Unit × State :=
  match live s uid with
  | none => (.ub, s)
  | some o =>
    match s.alias.get? a with
    | none => (.thrown, s)
    | some id =>
      if id ≠ o.id then (.thrown, s)
      else
        let s' := { s with alias := s.alias.erase a }
        match o.byType.find? (fun p => p.2 == a) with
        | some p => (.ok (), updateObj s' { o with byType := o.byType.erase p.1 })
        | none => (.ok (), updateObj s' { o with noType := o.noType.filter (fun b => !decide (b = a)) })

/-- Erases every alias of a list from the alias table (loop of NetworkIndex.cpp l.166-168). -/
def eraseAliases (m : AMap String String) (l : List String) : AMap String String :=
  l.foldl (fun m a => m.erase a) m

/-- `NetworkIndex::remove` (NetworkIndex.cpp l.154-174) for an object that is alive.  Removing through a handle whose
    object was destroyed is undefined behaviour. -/
def remove (s : State) (uid : Nat) : Out Unit × State :=
  match live s uid with
  | none => (.ub, s)
  | some o =>
    match s.objs.get? o.id with
    | none => (.ok (), s)
    | some c =>
      if c.uid ≠ o.uid then (.ok (), s)       -- l.158: namesake
      else
        match s.types.get? o.ty with
        | none => (.ub, s)                       -- l.159: dereference of `end()`
        | some l =>
          if o.uid ∈ l then
            (.ok (), { s with
              alias := eraseAliases s.alias o.aliases
              types := s.types.set o.ty (l.erase o.uid)
              objs := s.objs.erase o.id })
          else (.ok (), s)

/-- `NetworkIndex::getAll<T>` (NetworkIndex.hxx l.93-109): handles registered for a type. -/
def getAll (s : State) (ty : Nat) : List Nat := (s.types.get? ty).getD []

/-- `NetworkIndex::getObjectCount<T>` (NetworkIndex.hxx l.111-118). -/
def getObjectCount (s : State) (ty : Nat) : Nat :=
  match s.types.get? ty with
  | some l => l.length
  | none => 0

/-- Calls of the public interface that involve the index. -/
inductive Op where
  | add (id : String) (ty : Nat) (ensureUnicity : Bool)
  | remove (uid : Nat)
  | addAlias (uid : Nat) (a : String) (aliasType : String) (ensureUnicity : Bool)
  | removeAlias (uid : Nat) (a : String)
  deriving Repr

/-- One call: outcome (a handle for `add`, nothing otherwise) and new state. -/
def step (s : State) : Op → Out (Option Nat) × State
  | .add id ty e => let r := add s id ty e; (r.1.map some, r.2)
  | .remove u => let r := remove s u; (r.1.map (fun _ => none), r.2)
  | .addAlias u a t e => let r := addAlias s u a t e; (r.1.map (fun _ => none), r.2)
  | .removeAlias u a => let r := removeAlias s u a; (r.1.map (fun _ => none), r.2)

/-- State after a history of calls (exceptions are caught by the caller, who goes on). -/
def run (s : State) (ops : List Op) : State := ops.foldl (fun s op => (step s op).2) s

end Verif.Index
