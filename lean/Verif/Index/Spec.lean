import Verif.UniqueId.Props
import Verif.Common.Out

/-!
Abstract specification of the naming service of a network: a single table from names to owners.
It knows nothing of the three tables of the implementation.
-/

namespace Verif.Index

open Verif

/-- How a name is attached to its owner. -/
inductive Kind where
  | id (ty : Nat)
  | alias (aliasType : String)
  deriving DecidableEq, Repr

/-- Owner of a name. -/
structure Entry where
  owner : Nat
  kind : Kind
  deriving DecidableEq, Repr

/-- Abstract state: who owns each name, the objects of each type in registration order, next handle. -/
structure Spec where
  names : String → Option Entry
  listing : Nat → List Nat
  next : Nat

namespace Spec

/-- The object exists. -/
def Alive (S : Spec) (u : Nat) : Prop := ∃ n ty, S.names n = some ⟨u, .id ty⟩

/-- The name given to a request: itself, or the first free variant of it when unicity is asked for. -/
def Chosen (S : Spec) (ensure : Bool) (requested result : String) : Prop :=
  if ensure then UniqueId.IsUniqueName (fun n => S.names n ≠ none) requested result
  else result = requested

/-- Transition relation of the abstract naming service: `Add S id ty ensure out S'`. -/
def Add (S : Spec) (id : String) (ty : Nat) (ensure : Bool) (out : Out (Option Nat)) (S' : Spec) : Prop :=
  ∃ n, S.Chosen ensure id n ∧
    if id = "" ∨ S.names n ≠ none then out = .thrown ∧ S' = S
    else
      out = .ok (some S.next) ∧
      S'.names = (fun m => if m = n then some ⟨S.next, .id ty⟩ else S.names m) ∧
      S'.listing = (fun t => if t = ty then S.listing t ++ [S.next] else S.listing t) ∧
      S'.next = S.next + 1

/-- Removal of a living object: all its names become free, it leaves the listing. -/
def Remove (S : Spec) (u : Nat) (out : Out (Option Nat)) (S' : Spec) : Prop :=
  (¬ S.Alive u ∧ out = .ub ∧ S' = S) ∨
  (∃ n ty, S.names n = some ⟨u, .id ty⟩ ∧ out = .ok none ∧
    S'.names = (fun m => match S.names m with
      | some e => if e.owner = u then none else some e
      | none => none) ∧
    S'.listing = (fun t => if t = ty then (S.listing t).erase u else S.listing t) ∧
    S'.next = S.next)

/-- Adding an alias. -/
def AddAlias (S : Spec) (u : Nat) (a t : String) (ensure : Bool) (out : Out (Option Nat)) (S' : Spec) : Prop :=
  (¬ S.Alive u ∧ out = .ub ∧ S' = S) ∨
  (S.Alive u ∧ ∃ n, S.Chosen ensure a n ∧
    ((t ≠ "" ∧ (∃ m, S.names m = some ⟨u, .alias t⟩) ∧ out = .thrown ∧ S' = S) ∨
     (¬ (t ≠ "" ∧ ∃ m, S.names m = some ⟨u, .alias t⟩) ∧
      match S.names n with
      | some e => if e.owner = u then out = .ok none ∧ S' = S else out = .thrown ∧ S' = S
      | none =>
        out = .ok none ∧
        S'.names = (fun m => if m = n then some ⟨u, .alias t⟩ else S.names m) ∧
        S'.listing = S.listing ∧ S'.next = S.next)))

/-- Removing an alias. -/
def RemoveAlias (S : Spec) (u : Nat) (a : String) (out : Out (Option Nat)) (S' : Spec) : Prop :=
  (¬ S.Alive u ∧ out = .ub ∧ S' = S) ∨
  (S.Alive u ∧
    (((∃ t, S.names a = some ⟨u, .alias t⟩) ∧
      out = .ok none ∧
      S'.names = (fun m => if m = a then none else S.names m) ∧
      S'.listing = S.listing ∧ S'.next = S.next) ∨
     (¬ (∃ t, S.names a = some ⟨u, .alias t⟩) ∧ out = .thrown ∧ S' = S)))

end Spec

end Verif.Index
