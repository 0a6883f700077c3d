import Verif.Variants.Model
import Verif.Finder.Model

/-!
Model of the slack terminals of a network (src/iidm/extensions/SlackTerminal.cpp, SlackTerminalAdder.cpp), over the variants
(VariantManager.cpp, modelled in `Verif/Variants`) and the extensions of the voltage levels (Extendable.cpp, Identifiable.cpp).

An extension `SlackTerminal` of a voltage level is its vector `m_terminals`; `none` in `Slot` is the null reference.  The caller uses
one thread and no other network: the index of the working variant is shared (MultipleVariantContext.cpp).

Not modelled: the other extensions of the voltage levels (they do not meet, see C49); what becomes of a reference when the
equipment of the terminal is removed; clones to several variants in one call (see C07).
-/

namespace Verif.Slack

open Verif

/-- A terminal: its address, the type of its connectable, the id of its voltage level. -/
structure Tm where
  addr : Nat
  kind : Finder.Kind
  level : String
  deriving DecidableEq, Repr

/-- `stdcxx::Reference<Terminal>`. -/
abbrev Slot := Option Tm

/-- `m_terminals` (SlackTerminal.hpp l.70).  The outer option of an element is that of the arrays of `Verif.Variants`. -/
abbrev Vec := List (Option Slot)

/-- A network: its voltage levels, the bookkeeping of the variants, the index of the working variant, and the `SlackTerminal` of
    the voltage levels that have one. -/
structure Net where
  levels : List String
  bk : Variants.Bk
  cur : Option Nat
  exts : AMap String Vec
  deriving DecidableEq, Repr

/-- A new network with those voltage levels. -/
def init (levels : List String) : Net := ⟨levels, ⟨[(Variants.initialId, 0)], [], 1⟩, some 0, []⟩

/-- The class of `m_terminals` for the variant manager. -/
def kind : Variants.Kind Slot := Variants.slackTerminal Slot none

/-- The state seen by the variant manager: the loops over the extensions of the objects (Identifiable.cpp l.75-97, l.165-171). -/
def Net.view (s : Net) : Variants.State Slot :=
  ⟨s.bk, .single s.cur, fun _ => none, s.exts.map fun p => ⟨kind, p.2⟩⟩

/-- The network once the variant manager has done its work. -/
def Net.back (s : Net) (v : Variants.State Slot) : Net :=
  { s with
    bk := v.bk
    cur := v.sel 0
    exts := (s.exts.map Prod.fst).zip (v.arrs.map fun a => a.slots) }

/-- Runs a call of the variant manager. -/
def viaVariants (s : Net) (f : Variants.State Slot → Out Unit × Variants.State Slot) : Out Unit × Net :=
  ((f s.view).1, s.back (f s.view).2)

/-- `VariantManager::cloneVariant` with one target (VariantManager.cpp l.78-129). -/
def clone (s : Net) (source target : String) (mayOverwrite : Bool) : Out Unit × Net :=
  viaVariants s fun v => Variants.clone v source [target] mayOverwrite

/-- `VariantManager::removeVariant` (VariantManager.cpp l.202-246). -/
def remove (s : Net) (id : String) : Out Unit × Net := viaVariants s fun v => Variants.remove v 0 id

/-- `VariantManager::setWorkingVariant` (VariantManager.cpp l.248-253). -/
def select (s : Net) (id : String) : Out Unit × Net := viaVariants s fun v => Variants.setWorking v 0 id

/-- `SlackTerminal::setTerminal(terminal)` on a vector (SlackTerminal.cpp l.103-109): the voltage level is checked, then the working
    variant asked (`getVariantIndex` throws when there is none), then the element assigned without any check of the index. -/
def assign (cur : Option Nat) (level : String) (a : Vec) (t : Slot) : Out Vec :=
  if t.all (fun x => x.level == level) then
    match cur with
    | none => .thrown
    | some i => if i < a.length then .ok (a.set i (some t)) else .ub
  else .thrown

/-- `SlackTerminal::isEmpty` (SlackTerminal.cpp l.77-82). -/
def isEmpty (a : Vec) : Bool := !a.any fun o => o.join.isSome

/-- `newExtension<SlackTerminalAdder>().withTerminal(t).add()` on a voltage level (SlackTerminalAdder.cpp l.25-38, SlackTerminal.cpp l.23-27,
    ExtensionAdder.cpp l.22-25); the extension already there is destroyed (Extendable.cpp l.30-44). -/
def add (s : Net) (level : String) (t : Slot) : Out Unit × Net :=
  if level ∈ s.levels then
    match t with
    | none => (.thrown, s)
    | some x =>
      if x.level = level then
        match assign s.cur level (List.replicate s.bk.size (some none)) (some x) with
        | .ok a => (.ok (), { s with exts := s.exts.set level a })
        | .thrown => (.thrown, s)
        | .ub => (.ub, s)
      else (.thrown, s)
  else (.thrown, s)

/-- `setTerminal(terminal, cleanIfEmpty)` on the extension of a voltage level (SlackTerminal.cpp l.115-121; with `cleanIfEmpty` false it is
    l.103-109); `getExtension` throws when there is none.  The call removes the extension it is called on when it ends up empty. -/
def setTerminal (s : Net) (level : String) (t : Slot) (clean : Bool) : Out Unit × Net :=
  match s.exts.get? level with
  | none => (.thrown, s)
  | some a =>
    match assign s.cur level a t with
    | .ok a' =>
      if clean && isEmpty a' then (.ok (), { s with exts := s.exts.erase level })
      else (.ok (), { s with exts := s.exts.set level a' })
    | .thrown => (.thrown, s)
    | .ub => (.ub, s)

/-- `SlackTerminal::reset(voltageLevel, terminal)` (SlackTerminal.cpp l.94-101). -/
def reset (s : Net) (level : String) (t : Slot) : Out Unit × Net :=
  match s.exts.get? level with
  | none =>
    match t with
    | none => (.ok (), s)
    | some x => add s level (some x)
  | some _ => setTerminal s level t true

/-- The loop of `SlackTerminal::reset(network)` (SlackTerminal.cpp l.88-92). -/
def resetLoop : List String → Net → Out Unit × Net
  | [], s => (.ok (), s)
  | l :: ls, s =>
    match reset s l none with
    | (.ok (), s') => resetLoop ls s'
    | (.thrown, s') => (.thrown, s')
    | (.ub, s') => (.ub, s')

/-- `SlackTerminal::reset(network)` (SlackTerminal.cpp l.88-92). -/
def resetAll (s : Net) : Out Unit × Net := resetLoop s.levels s

/-- The default rules of the terminal finder (TerminalFinder.cpp l.41-50). -/
def rules : List (Tm → Bool) := Finder.defaultRules.map fun p t => p ⟨t.addr, t.kind⟩

/-- `SlackTerminal::attach(bus)` (SlackTerminal.cpp l.41-48) for a bus of that voltage level with those connected terminals. -/
def attach (s : Net) (level : String) (connected : List Tm) : Out Unit × Net :=
  match Finder.find rules connected with
  | none => (.thrown, s)
  | some t => reset s level (some t)

/-- `removeExtension<SlackTerminal>()` (Extendable.hxx l.77-84) of a voltage level. -/
def removeExt (s : Net) (level : String) : Out Unit × Net := (.ok (), { s with exts := s.exts.erase level })

/-- `getExtension<SlackTerminal>().getTerminal()` in the working variant (SlackTerminal.cpp l.64-70). -/
def getTerminal (s : Net) (level : String) : Out Slot :=
  match s.exts.get? level with
  | none => .thrown
  | some a =>
    match s.cur with
    | none => .thrown
    | some i => Variants.Arr.read ⟨kind, a⟩ i

/-- `extension.setTerminal(t, cleanIfEmpty).getTerminal()`: `setTerminal` returns `*this` (SlackTerminal.cpp l.115-121), which refers to nothing once
    the extension is removed. -/
def setThenGet (s : Net) (level : String) (t : Slot) (clean : Bool) : Out Slot :=
  match setTerminal s level t clean with
  | (.ok (), s') => if (s'.exts.get? level).isSome then getTerminal s' level else .ub
  | (.thrown, _) => .thrown
  | (.ub, _) => .ub

/-- Calls of the interface. -/
inductive Op where
  | clone (source target : String) (mayOverwrite : Bool)
  | remove (id : String)
  | select (id : String)
  | add (level : String) (t : Slot)
  | setTerminal (level : String) (t : Slot) (clean : Bool)
  | reset (level : String) (t : Slot)
  | resetAll
  | attach (level : String) (connected : List Tm)
  | removeExt (level : String)
  deriving DecidableEq, Repr

/-- One call. -/
def step (s : Net) : Op → Out Unit × Net
  | .clone src tgt m => clone s src tgt m
  | .remove id => remove s id
  | .select id => select s id
  | .add l t => add s l t
  | .setTerminal l t c => setTerminal s l t c
  | .reset l t => reset s l t
  | .resetAll => resetAll s
  | .attach l ts => attach s l ts
  | .removeExt l => removeExt s l

/-- A sequence of calls; exceptions are caught by the caller, who goes on. -/
def run (s : Net) (ops : List Op) : Net := ops.foldl (fun s op => (step s op).2) s

end Verif.Slack
