import Verif.Common.Out
import Verif.Common.AMap

/-!
Model of the variant manager and of the multi-variant attributes
(src/iidm/VariantManager.cpp, src/iidm/MultipleVariantContext.cpp, src/iidm/ThreadLocalMultipleVariantContext.cpp,
src/iidm/VariantContextGuard.cpp, include/powsybl/iidm/VariantArray.hxx, and the `allocate` / `delete` /
`extend` / `reduce` functions of the multi-variant classes).

A multi-variant attribute (`m_p` of a terminal, `m_open` of a switch, the `VariantArray` of a voltage level, ...) is an
array indexed by the variant index.  All attributes of all objects of the network are put in one list, in the
order in which `Network::getStatefulObjects` reaches them.
-/

namespace Verif.Variants

open Verif

/-- Threads of the caller. -/
abbrev Thread := Nat

/-- Effect of `deleteVariantArrayElement` on the slot: nothing (Terminal.cpp l.44-46, TapChanger.hxx l.48-50 and the
    classes that do not override it), reset of the pointer (VariantArray.hxx l.53-56), or a cleared value
    (BusTerminal.cpp l.39-43, ConfiguredBus.cpp l.58-62, SlackTerminal.cpp l.51-53). -/
inductive Del (V : Type) where
  | keep
  | reset
  | clear (v : V)

/-- The differences between the multi-variant classes that matter here. -/
structure Kind (V : Type) where
  /-- effect of `deleteVariantArrayElement` -/
  del : Del V
  /-- `some d` for `SlackTerminal`, whose `reduceVariantArraySize(number)` does `resize(number)`
      (SlackTerminal.cpp l.84-86); `none` for all the other classes, that do `resize(size() - number)`. -/
  badReduce : Option V
  /-- the getter uses `.at` (an index out of range throws) and not `[]` (undefined behaviour) -/
  readChecked : Bool
  /-- same for the setter -/
  writeChecked : Bool

/-- A multi-variant attribute; a `none` slot is a null pointer of a `VariantArray`. -/
structure Arr (V : Type) where
  kind : Kind V
  slots : List (Option V)

/-- Kind of the plain vectors (`m_p` of Terminal.cpp l.28, 81-83, 118; Load, Generator, Switch, tap changers...). -/
def plain (V : Type) : Kind V := ⟨.keep, none, true, false⟩

/-- Kind of `VariantArray` (VariantArray.hxx). -/
def variantArray (V : Type) : Kind V := ⟨.reset, none, true, true⟩

/-- Kind of `SlackTerminal::m_terminals`; `none` is the null reference. -/
def slackTerminal (V : Type) (null : V) : Kind V := ⟨.clear null, some null, false, false⟩

/-- Bookkeeping of the `VariantManager` (VariantManager.hpp l.84-88). `unused` is a `std::set`: an ascending list. -/
structure Bk where
  byId : AMap String Nat
  unused : List Nat
  size : Nat
  deriving DecidableEq, Repr

/-- The variant context: one index shared by all threads, or the thread local one. -/
inductive Mode where
  | single (idx : Option Nat)
  | multi
  deriving DecidableEq, Repr

/-- State of a network as far as variants are concerned.  `tls` is the static
    `thread_local ThreadLocalMultipleVariantContext::m_index` (it belongs to no network). -/
structure State (V : Type) where
  bk : Bk
  mode : Mode
  tls : Thread → Option Nat
  arrs : List (Arr V)

/-- `VariantManager::getInitialVariantId` (VariantManager.cpp l.142-146). -/
def initialId : String := "InitialVariant"

/-- A new network (VariantManager.cpp l.27-32). -/
def init (V : Type) (tls : Thread → Option Nat) : State V :=
  { bk := { byId := [(initialId, 0)], unused := [], size := 1 }, mode := .single (some 0), tls := tls, arrs := [] }

variable {V : Type}

/-- `m_variantContext->getVariantIndex()` seen from a thread; `none`: not set. -/
def State.sel (s : State V) (t : Thread) : Option Nat :=
  match s.mode with
  | .single i => i
  | .multi => s.tls t

/-- `m_variantContext->setVariantIndex` / reset of the index. -/
def State.setSel (s : State V) (t : Thread) (i : Option Nat) : State V :=
  match s.mode with
  | .single _ => { s with mode := .single i }
  | .multi => { s with tls := fun t' => if t' = t then i else s.tls t' }

/-! ### Array operations -/

/-- Getter of an attribute for a variant index. -/
def Arr.read (a : Arr V) (i : Nat) : Out V :=
  match a.slots[i]? with
  | some (some v) => .ok v
  | some none => .ub
  | none => if a.kind.readChecked then .thrown else .ub

/-- Setter of an attribute for a variant index. -/
def Arr.write (a : Arr V) (i : Nat) (v : V) : Out (Arr V) :=
  match a.slots[i]? with
  | some (some _) => .ok { a with slots := a.slots.set i (some v) }
  | some none => .ub
  | none => if a.kind.writeChecked then .thrown else .ub

/-- Assigns the same value to a set of indices. -/
def setAll (l : List (Option V)) (idxs : List Nat) (v : V) : List (Option V) :=
  idxs.foldl (fun l i => l.set i (some v)) l

/-- `allocateVariantArrayElement(indexes, sourceIndex)` (Terminal.cpp l.33-38, VariantArray.hxx l.42-51).  Indices
    out of range or a null source are undefined behaviour (`operator[]`). -/
def Arr.allocate (a : Arr V) (idxs : List Nat) (src : Nat) : Out (Arr V) :=
  match a.slots[src]? with
  | some (some v) =>
    if idxs.all (fun i => decide (i < a.slots.length)) then .ok { a with slots := setAll a.slots idxs v }
    else .ub
  | _ => .ub

/-- `extendVariantArraySize(_, number, sourceIndex)` (Terminal.cpp l.52-55, VariantArray.hxx l.59-63). -/
def Arr.extend (a : Arr V) (number src : Nat) : Out (Arr V) :=
  match a.slots[src]? with
  | some (some v) => .ok { a with slots := a.slots ++ List.replicate number (some v) }
  | _ => .ub

/-- `reduceVariantArraySize(number)` (Terminal.cpp l.97-100, VariantArray.hxx l.78-80, SlackTerminal.cpp l.84-86).
    `resize(size() - number)` with `number` above the size asks for a huge vector and throws. -/
def Arr.reduce (a : Arr V) (number : Nat) : Out (Arr V) :=
  match a.kind.badReduce with
  | some d => .ok { a with slots := a.slots.take number ++ List.replicate (number - a.slots.length) (some d) }
  | none =>
    if number ≤ a.slots.length then .ok { a with slots := a.slots.take (a.slots.length - number) }
    else .thrown

/-- `deleteVariantArrayElement(index)`. -/
def Arr.delete (a : Arr V) (i : Nat) : Out (Arr V) :=
  match a.kind.del with
  | .keep => .ok a
  | .reset => if i < a.slots.length then .ok { a with slots := a.slots.set i none } else .ub
  | .clear v => if i < a.slots.length then .ok { a with slots := a.slots.set i (some v) } else .ub

/-- Runs an operation on every attribute (loops over `getStatefulObjects`); a failure leaves the attributes already
    processed modified. -/
def mapArrs (f : Arr V → Out (Arr V)) : List (Arr V) → Out Unit × List (Arr V)
  | [] => (.ok (), [])
  | a :: r =>
    match f a with
    | .ok a' => ((mapArrs f r).1, a' :: (mapArrs f r).2)
    | .thrown => (.thrown, a :: r)
    | .ub => (.ub, a :: r)

/-- Sequence of two loops over the attributes. -/
def andThen (x : Out Unit × List (Arr V)) (f : List (Arr V) → Out Unit × List (Arr V)) :
    Out Unit × List (Arr V) :=
  match x.1 with
  | .ok () => f x.2
  | .thrown => (.thrown, x.2)
  | .ub => (.ub, x.2)

/-! ### Variant manager operations -/

/-- `std::set::insert` on an ascending list. -/
def insertSorted (n : Nat) : List Nat → List Nat
  | [] => [n]
  | a :: r => if n < a then n :: a :: r else if n = a then a :: r else a :: insertSorted n r

/-- Local variables of the loop of `cloneVariant` (VariantManager.cpp l.94-97) with the bookkeeping it updates. -/
structure LoopSt where
  bk : Bk
  ext : Nat
  recycled : List Nat
  overwritten : List Nat
  deriving DecidableEq, Repr

/-- The loop over the targets (VariantManager.cpp l.98-119).  The exception of l.103 leaves with the bookkeeping
    already modified by the previous targets. -/
def cloneLoop (mayOverwrite : Bool) : List String → LoopSt → Out Unit × LoopSt
  | [], l => (.ok (), l)
  | t :: ts, l =>
    match l.bk.byId.get? t with
    | some i =>
      if mayOverwrite then cloneLoop mayOverwrite ts { l with overwritten := insertSorted i l.overwritten }
      else (.thrown, l)
    | none =>
      match l.bk.unused with
      | [] =>
        cloneLoop mayOverwrite ts
          { l with
            bk := { l.bk with byId := l.bk.byId.emplace t l.bk.size, size := l.bk.size + 1 }
            ext := l.ext + 1 }
      | i :: rest =>
        cloneLoop mayOverwrite ts
          { l with
            bk := { l.bk with byId := l.bk.byId.emplace t i, unused := rest }
            recycled := insertSorted i l.recycled }

/-- `VariantManager::cloneVariant` (VariantManager.cpp l.82-129). -/
def clone (s : State V) (source : String) (targets : List String) (mayOverwrite : Bool) :
    Out Unit × State V :=
  if targets = [] then (.thrown, s)
  else
    match s.bk.byId.get? source with
    | none => (.thrown, s)
    | some src =>
      match cloneLoop mayOverwrite targets ⟨s.bk, 0, [], []⟩ with
      | (.ok (), l) =>
        -- l.42-56 and l.121-126
        let r1 := if l.recycled = [] then (.ok (), s.arrs) else mapArrs (fun a => a.allocate l.recycled src) s.arrs
        let r2 := andThen r1 (fun as =>
          if l.overwritten = [] then (.ok (), as) else mapArrs (fun a => a.allocate l.overwritten src) as)
        let r3 := andThen r2 (fun as =>
          if l.ext = 0 then (.ok (), as) else mapArrs (fun a => a.extend l.ext src) as)
        (r3.1, { s with bk := l.bk, arrs := r3.2 })
      | (.thrown, l) => (.thrown, { s with bk := l.bk })
      | (.ub, l) => (.ub, { s with bk := l.bk })

/-- The loop of `removeVariant` (VariantManager.cpp l.219-227): number of consecutive unused indices below `i`. -/
def trim : Nat → List Nat → Nat × List Nat
  | 0, u => (0, u)
  | i + 1, u =>
    if i ∈ u then
      let r := trim i (u.erase i)
      (r.1 + 1, r.2)
    else (0, u)

/-- `resetIfVariantIndexIs` (MultipleVariantContext.cpp l.31-35, ThreadLocalMultipleVariantContext.cpp l.36-40) called
    by thread `t`. -/
def resetIf (s : State V) (t : Thread) (i : Nat) : State V :=
  if s.sel t = some i then s.setSel t none else s

/-- `VariantManager::removeVariant` (VariantManager.cpp l.202-246). -/
def remove (s : State V) (t : Thread) (id : String) : Out Unit × State V :=
  if id = initialId then (.thrown, s)
  else
    match s.bk.byId.get? id with
    | none => (.thrown, s)
    | some index =>
      let byId := s.bk.byId.erase id
      if index = s.bk.size - 1 then
        let r := trim index s.bk.unused
        let bk : Bk := { byId := byId, unused := r.2, size := s.bk.size - (1 + r.1) }
        match mapArrs (fun a => a.reduce (1 + r.1)) s.arrs with
        | (.ok (), arrs) => (.ok (), resetIf { s with bk := bk, arrs := arrs } t index)
        | (.thrown, arrs) => (.thrown, { s with bk := { bk with size := s.bk.size }, arrs := arrs })
        | (.ub, arrs) => (.ub, { s with bk := { bk with size := s.bk.size }, arrs := arrs })
      else
        let bk : Bk := { s.bk with byId := byId, unused := insertSorted index s.bk.unused }
        match mapArrs (fun a => a.delete index) s.arrs with
        | (.ok (), arrs) => (.ok (), resetIf { s with bk := bk, arrs := arrs } t index)
        | (.thrown, arrs) => (.thrown, { s with bk := bk, arrs := arrs })
        | (.ub, arrs) => (.ub, { s with bk := bk, arrs := arrs })

/-- `VariantManager::setWorkingVariant` (VariantManager.cpp l.248-253). -/
def setWorking (s : State V) (t : Thread) (id : String) : Out Unit × State V :=
  match s.bk.byId.get? id with
  | none => (.thrown, s)
  | some i => (.ok (), s.setSel t (some i))

/-- `VariantManager::allowVariantMultiThreadAccess` (VariantManager.cpp l.58-76). -/
def allowMT (s : State V) (t : Thread) (allow : Bool) : State V :=
  match s.mode, allow with
  | .single (some i), true => { s with mode := .multi, tls := fun t' => if t' = t then some i else s.tls t' }
  | .single none, true => { s with mode := .multi }
  | .multi, false =>
    match s.tls t with
    | some i => { s with mode := .single (some i) }
    | none => { s with mode := .single (some 0) }
  | .single _, false => s
  | .multi, true => s

/-- `VariantManager::getWorkingVariantId` (VariantManager.cpp l.187-196): dereferences `end()` when the index
    selected belongs to no variant. -/
def getWorkingId (s : State V) (t : Thread) : Out String :=
  match s.sel t with
  | none => .thrown
  | some i =>
    match s.bk.byId.find? (fun p => p.2 == i) with
    | some p => .ok p.1
    | none => .ub

/-- Reading attribute number `a` from thread `t`. -/
def read (s : State V) (t : Thread) (a : Nat) : Out V :=
  match s.arrs[a]? with
  | none => .ub      -- not an attribute of the network
  | some arr =>
    match s.sel t with
    | none => .thrown
    | some i => arr.read i

/-- Writing attribute number `a` from thread `t`. -/
def write (s : State V) (t : Thread) (a : Nat) (v : V) : Out Unit × State V :=
  match s.arrs[a]? with
  | none => (.ub, s)
  | some arr =>
    match s.sel t with
    | none => (.thrown, s)
    | some i =>
      match arr.write i v with
      | .ok arr' => (.ok (), { s with arrs := s.arrs.set a arr' })
      | .thrown => (.thrown, s)
      | .ub => (.ub, s)

/-- Creation of an object: its attributes get `getVariantArraySize()` elements with the initial value
    (Terminal.cpp l.28-29); a `VariantArray` only fills the slots in use (VariantArray.hxx l.21-30). -/
def newAttr (s : State V) (k : Kind V) (v : V) : State V :=
  let slots : List (Option V) := match k.del with
    | .reset => (List.range s.bk.size).map (fun i => if i ∈ s.bk.byId.map Prod.snd then some v else none)
    | _ => List.replicate s.bk.size (some v)
  { s with arrs := s.arrs ++ [⟨k, slots⟩] }

/-- Calls of the public interface. -/
inductive Op (V : Type) where
  | clone (t : Thread) (source : String) (targets : List String) (mayOverwrite : Bool)
  | remove (t : Thread) (id : String)
  | setWorking (t : Thread) (id : String)
  | allowMT (t : Thread) (allow : Bool)
  | write (t : Thread) (a : Nat) (v : V)
  | newAttr (k : Kind V) (v : V)
  /-- an operation on *another* network in multi-thread mode, that ends with this index in the thread local variable -/
  | foreign (t : Thread) (i : Option Nat)

/-- One call. -/
def step (s : State V) : Op V → Out Unit × State V
  | .clone _ src ts m => clone s src ts m
  | .remove t id => remove s t id
  | .setWorking t id => setWorking s t id
  | .allowMT t b => (.ok (), allowMT s t b)
  | .write t a v => write s t a v
  | .newAttr k v => (.ok (), newAttr s k v)
  | .foreign t i => (.ok (), { s with tls := fun t' => if t' = t then i else s.tls t' })

/-- State after a history; exceptions are caught by the caller, who goes on. -/
def run (s : State V) (ops : List (Op V)) : State V := ops.foldl (fun s op => (step s op).2) s

/-- What a caller reads in the variant `id`: select it, then call the getter (observable through
    `setWorkingVariant` and the getters). -/
def readIn (s : State V) (id : String) (a : Nat) : Out V :=
  match setWorking s 0 id with
  | (.ok (), s') => read s' 0 a
  | (.thrown, _) => .thrown
  | (.ub, _) => .ub

/-! ### forEachVariant -/

/-- Loop of `forEachVariant` (VariantManager.cpp l.136-139).  The body is any function of the state that may throw; it
    cannot call the variant manager, whose mutex is held (that would be a dead-lock).  The list returned by the model
    records the index selected at each call of the body. -/
def forEachLoop (t : Thread) (body : State V → Out Unit × State V) :
    List Nat → State V → Out Unit × State V × List (Option Nat)
  | [], s => (.ok (), s, [])
  | i :: is, s =>
    let s1 := s.setSel t (some i)
    match body s1 with
    | (.ok (), s2) =>
      let r := forEachLoop t body is s2
      (r.1, r.2.1, s1.sel t :: r.2.2)
    | (.thrown, s2) => (.thrown, s2, [s1.sel t])
    | (.ub, s2) => (.ub, s2, [s1.sel t])

/-- `VariantManager::forEachVariant` (VariantManager.cpp l.131-140) with `VariantContextGuard`
    (VariantContextGuard.cpp l.16-23).  The iteration order of the `unordered_map` is the list order, which is
    arbitrary. -/
def forEachVariant (s : State V) (t : Thread) (body : State V → Out Unit × State V) :
    Out Unit × State V × List (Option Nat) :=
  match s.sel t with
  | none => (.thrown, s, [])
  | some saved =>
    let r := forEachLoop t body (s.bk.byId.map Prod.snd) s
    match r.1 with
    | .ub => r
    | _ => (r.1, r.2.1.setSel t (some saved), r.2.2)

end Verif.Variants
