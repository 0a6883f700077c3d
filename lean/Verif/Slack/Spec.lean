import Verif.Slack.Model

/-!
What the slack terminals of a network should be after any calls: at most one terminal per variant and voltage level.

The abstract state knows the ids of the variants and of the voltage levels; it has no index, no array, no slot to recycle.
-/

namespace Verif.Slack

open Verif

/-- The slack terminals of a network. -/
structure Abs where
  levels : List String
  /-- the variants -/
  vars : List String
  /-- the working variant -/
  cur : Option String
  /-- the voltage levels that have the extension -/
  ext : String → Bool
  /-- the slack terminal of a voltage level (second argument) in a variant (first argument) -/
  slack : String → String → Slot

/-- A new network. -/
def Abs.init (levels : List String) : Abs :=
  ⟨levels, [Variants.initialId], some Variants.initialId, fun _ => false, fun _ _ => none⟩

/-- Some variant has a slack terminal in that voltage level. -/
def Abs.used (a : Abs) (level : String) : Bool := a.vars.any fun v => (a.slack v level).isSome

/-- `t` may be a slack terminal of the voltage level. -/
def fits (level : String) : Slot → Bool
  | none => true
  | some t => t.level == level

/-- Gives a voltage level its slack terminal in one variant. -/
def Abs.put (a : Abs) (v level : String) (t : Slot) : Abs :=
  { a with slack := fun v' l' => if v' = v ∧ l' = level then t else a.slack v' l' }

/-- Drops the extension of the voltage levels among `ls` that no variant uses. -/
def Abs.clean (a : Abs) (ls : List String) : Abs := { a with ext := fun l => a.ext l && (!ls.contains l || a.used l) }

def Abs.clone (a : Abs) (src tgt : String) (m : Bool) : Out Unit × Abs :=
  if src ∈ a.vars ∧ (m ∨ tgt ∉ a.vars) then
    (.ok (), { a with vars := if tgt ∈ a.vars then a.vars else tgt :: a.vars,
                      slack := fun v l => if v = tgt then a.slack src l else a.slack v l })
  else (.thrown, a)

def Abs.remove (a : Abs) (id : String) : Out Unit × Abs :=
  if id ∈ a.vars ∧ id ≠ Variants.initialId then
    (.ok (), { a with vars := a.vars.filter (· ≠ id),
                      cur := if a.cur = some id then none else a.cur,
                      slack := fun v l => if v = id then none else a.slack v l })
  else (.thrown, a)

def Abs.select (a : Abs) (id : String) : Out Unit × Abs :=
  if id ∈ a.vars then (.ok (), { a with cur := some id }) else (.thrown, a)

/-- A new extension replaces the old one: the terminals of the other variants are lost. -/
def Abs.add (a : Abs) (level : String) (t : Slot) : Out Unit × Abs :=
  match a.cur, t with
  | some v, some x =>
    if level ∈ a.levels ∧ x.level = level then
      (.ok (), { a with ext := fun l => l = level || a.ext l,
                        slack := fun v' l => if l = level then (if v' = v then t else none) else a.slack v' l })
    else (.thrown, a)
  | _, _ => (.thrown, a)

def Abs.setTerminal (a : Abs) (level : String) (t : Slot) (clean : Bool) : Out Unit × Abs :=
  match a.cur with
  | none => (.thrown, a)
  | some v =>
    if a.ext level ∧ fits level t then (.ok (), if clean then (a.put v level t).clean [level] else a.put v level t)
    else (.thrown, a)

/-- The slack terminal of one voltage level becomes `t` in the working variant. -/
def Abs.reset (a : Abs) (level : String) (t : Slot) : Out Unit × Abs :=
  match a.cur with
  | some v =>
    if a.ext level = false ∧ t = none then (.ok (), a)
    else if level ∈ a.levels ∧ fits level t then
      (.ok (), Abs.clean { a.put v level t with ext := fun l => l = level || a.ext l } [level])
    else (.thrown, a)
  | none => if a.ext level = false ∧ t = none then (.ok (), a) else (.thrown, a)

/-- No voltage level has a slack terminal in the working variant any more. -/
def Abs.resetAll (a : Abs) : Out Unit × Abs :=
  match a.cur with
  | some v => (.ok (), Abs.clean { a with slack := fun v' l => if v' = v then none else a.slack v' l } a.levels)
  | none => if a.levels.any a.ext then (.thrown, a) else (.ok (), a)

/-- `t` is the best of a list: no terminal before it is as good, no terminal is better. -/
def Best (connected : List Tm) (t : Tm) : Prop :=
  ∃ pre suf, connected = pre ++ t :: suf ∧ (∀ u ∈ pre, rank t.kind < rank u.kind) ∧ ∀ u ∈ suf, rank t.kind ≤ rank u.kind
where
  /-- busbar sections first, then injections, branches, three windings transformers -/
  rank : Finder.Kind → Nat
    | .busbarSection => 0
    | .injection => 1
    | .hvdcStation => 1
    | .branch => 2
    | .threeWindings => 3

/-- What a call answers and makes of the slack terminals. -/
inductive Abs.Step (a : Abs) : Op → Out Unit × Abs → Prop where
  | clone {src tgt m} : Step a (.clone src tgt m) (a.clone src tgt m)
  | remove {id} : Step a (.remove id) (a.remove id)
  | select {id} : Step a (.select id) (a.select id)
  | add {l t} : Step a (.add l t) (a.add l t)
  | setTerminal {l t c} : Step a (.setTerminal l t c) (a.setTerminal l t c)
  | reset {l t} : Step a (.reset l t) (a.reset l t)
  | resetAll : Step a .resetAll a.resetAll
  | attach {l ts t} : Best ts t → Step a (.attach l ts) (a.reset l (some t))
  | attachNone {l} : Step a (.attach l []) (.thrown, a)
  | removeExt {l} : Step a (.removeExt l)
      (.ok (), { a with ext := fun l' => l' ≠ l && a.ext l', slack := fun v l' => if l' = l then none else a.slack v l' })

/-- The network shows those slack terminals. -/
structure Shows (s : Net) (a : Abs) : Prop where
  levels : s.levels = a.levels
  vars : ∀ v, v ∈ a.vars ↔ (s.bk.byId.get? v).isSome
  cur : ∀ v, a.cur = some v ↔ ∃ i, s.cur = some i ∧ s.bk.byId.get? v = some i
  ext : ∀ l, a.ext l = (s.exts.get? l).isSome
  /-- once the variant is selected, the extension of the voltage level answers that terminal -/
  slack : ∀ v l, v ∈ a.vars → a.ext l = true → getTerminal (select s v).2 l = .ok (a.slack v l)
  /-- nothing is claimed of voltage levels without extension: they have no slack terminal -/
  none : ∀ v l, a.ext l = false ∨ v ∉ a.vars → a.slack v l = none

end Verif.Slack
