import Verif.Variants.Model
import Verif.Common.Dbl

/-!
Model of the four functions by which every class of the network follows the variants
(`allocateVariantArrayElement`, `deleteVariantArrayElement`, `extendVariantArraySize`, `reduceVariantArraySize`), class
by class and array by array, and of the loops of the variant manager over all the objects.

`Verif/Variants` models the manager over one list of abstract attributes.  Here the objects are the ones of the code,
with their arrays; nothing is said of the attributes by the model: which arrays are extended, and by what, is what each
function of each class does.

Simplifications.  A function of a class that loops over the indices and assigns all its arrays for each of them is
modelled array after array.  Terminals and buses are referred to by numbers.  The enumerations are numbers.  Of a cache
only whether it is there and whether something was computed in it is kept.  What a call that throws or runs into
undefined behaviour leaves behind is not modelled (C09 says it for the attributes).
-/

namespace Verif.Fields

open Verif

/-! ### Arrays -/

/-- `m_x[index] = m_x[sourceIndex]`; an index out of range is undefined behaviour. -/
def assign {α : Type} (src : Nat) (l : List α) (i : Nat) : Out (List α) :=
  match l[src]? with
  | some v => if i < l.length then .ok (l.set i v) else .ub
  | none => .ub

/-- `for (auto index : indexes) m_x[index] = m_x[sourceIndex];` (Terminal.cpp l.33-38 and all the classes). -/
def alloc {α : Type} (idxs : List Nat) (src : Nat) (l : List α) : Out (List α) := idxs.foldlM (assign src) l

/-- `m_x.resize(m_x.size() + number, m_x[sourceIndex])` (Terminal.cpp l.52-55 and all the classes). -/
def ext {α : Type} (n src : Nat) (l : List α) : Out (List α) :=
  match l[src]? with
  | some v => .ok (l ++ List.replicate n v)
  | none => .ub

/-- `m_x.resize(m_x.size() - number)` (Terminal.cpp l.97-100 and all the classes): with `number` above the size, a huge
    vector is asked for, which throws. -/
def red {α : Type} (n : Nat) (l : List α) : Out (List α) :=
  if n ≤ l.length then .ok (l.take (l.length - n)) else .thrown

/-- `m_x[index] = v` of the functions `deleteVariantArrayElement`. -/
def put {α : Type} (v : α) (i : Nat) (l : List α) : Out (List α) :=
  if i < l.length then .ok (l.set i v) else .ub

/-- A loop over objects that calls a function on each of them. -/
def mapOut {α β : Type} (f : α → Out β) : List α → Out (List β)
  | [] => .ok []
  | a :: r => do
    let a' ← f a
    let r' ← mapOut f r
    pure (a' :: r')

/-- `if (m_x) { m_x->f(...) }`. -/
def optOut {α : Type} (f : α → Out α) : Option α → Out (Option α)
  | none => .ok none
  | some a => do
    let a' ← f a
    pure (some a')

/-! ### `VariantArray` (VariantArray.hxx) -/

/-- The array of the caches: a null pointer, or a cache in which something was computed or not. -/
abbrev Cache := List (Option Bool)

/-- `VariantArray::copy` (VariantArray.hxx l.49-51) with `VariantImpl::copy` (NodeBreakerVoltageLevelVariant.cpp l.27-29,
    BusBreakerVoltageLevelVariant.cpp l.23-25, NetworkVariant.cpp l.62-64): a new, empty, cache. -/
def cacheCopy (src : Nat) (l : Cache) : Out (Option Bool) :=
  match l[src]? with
  | some (some _) => .ok (some false)
  | _ => .ub

/-- `m_variants[index] = variantFactory()`. -/
def cacheAssign (src : Nat) (l : Cache) (i : Nat) : Out Cache := do
  let c ← cacheCopy src l
  put c i l

/-- `VariantArray::allocateVariantArrayElement` (VariantArray.hxx l.42-46). -/
def cacheAlloc (idxs : List Nat) (src : Nat) (l : Cache) : Out Cache := idxs.foldlM (cacheAssign src) l

/-- `VariantArray::extendVariantArraySize` (VariantArray.hxx l.59-63). -/
def cacheExt : Nat → Nat → Cache → Out Cache
  | 0, _, l => .ok l
  | n + 1, src, l => do
    let c ← cacheCopy src l
    cacheExt n src (l ++ [c])

/-- `VariantArray::reduceVariantArraySize` (VariantArray.hxx l.78-80). -/
def cacheRed (n : Nat) (l : Cache) : Out Cache := red n l

/-- `VariantArray::deleteVariantArrayElement` (VariantArray.hxx l.54-56). -/
def cacheDel (i : Nat) (l : Cache) : Out Cache := put none i l

/-! ### `LoadDetail` -/

/-- The extension `LoadDetail` (LoadDetail.hpp). -/
structure LoadDetail where
  fixedP : List Dbl
  fixedQ : List Dbl
  variableP : List Dbl
  variableQ : List Dbl
  deriving DecidableEq

/-- `allocateVariantArrayElement` (LoadDetail.cpp l.32-39). -/
def LoadDetail.alloc (idxs : List Nat) (src : Nat) (x : LoadDetail) : Out LoadDetail := do
  let fixedP ← Fields.alloc idxs src x.fixedP
  let fixedQ ← Fields.alloc idxs src x.fixedQ
  let variableP ← Fields.alloc idxs src x.variableP
  let variableQ ← Fields.alloc idxs src x.variableQ
  pure ⟨fixedP, fixedQ, variableP, variableQ⟩

/-- `extendVariantArraySize` (LoadDetail.cpp l.58-63). -/
def LoadDetail.ext (n src : Nat) (x : LoadDetail) : Out LoadDetail := do
  let fixedP ← Fields.ext n src x.fixedP
  let fixedQ ← Fields.ext n src x.fixedQ
  let variableP ← Fields.ext n src x.variableP
  let variableQ ← Fields.ext n src x.variableQ
  pure ⟨fixedP, fixedQ, variableP, variableQ⟩

/-- `reduceVariantArraySize` (LoadDetail.cpp l.91-96). -/
def LoadDetail.red (n : Nat) (x : LoadDetail) : Out LoadDetail := do
  let fixedP ← Fields.red n x.fixedP
  let fixedQ ← Fields.red n x.fixedQ
  let variableP ← Fields.red n x.variableP
  let variableQ ← Fields.red n x.variableQ
  pure ⟨fixedP, fixedQ, variableP, variableQ⟩

/-- `deleteVariantArrayElement` (LoadDetail.cpp l.54-56: nothing). -/
def LoadDetail.del (i : Nat) (x : LoadDetail) : Out LoadDetail := do
  pure ⟨x.fixedP, x.fixedQ, x.variableP, x.variableQ⟩

/-! ### `SlackTerminal` and the extensions -/

/-- The extension `SlackTerminal`; `none` is the null reference. -/
structure Slack where
  terminals : List (Option Nat)
  deriving DecidableEq

/-- `allocateVariantArrayElement` (SlackTerminal.cpp l.29-34): the source is read once. -/
def Slack.alloc (idxs : List Nat) (src : Nat) (x : Slack) : Out Slack :=
  match x.terminals[src]? with
  | none => .ub
  | some t => do
    let terminals ← idxs.foldlM (fun l i => put t i l) x.terminals
    pure ⟨terminals⟩

/-- `extendVariantArraySize` (SlackTerminal.cpp l.55-57). -/
def Slack.ext (n src : Nat) (x : Slack) : Out Slack := do
  let terminals ← Fields.ext n src x.terminals
  pure ⟨terminals⟩

/-- `reduceVariantArraySize` (SlackTerminal.cpp l.84-86): `resize(number)`, and not `resize(size() - number)`. -/
def Slack.red (n : Nat) (x : Slack) : Out Slack :=
  .ok ⟨x.terminals.take n ++ List.replicate (n - x.terminals.length) none⟩

/-- `deleteVariantArrayElement` (SlackTerminal.cpp l.51-53). -/
def Slack.del (i : Nat) (x : Slack) : Out Slack := do
  let terminals ← put none i x.terminals
  pure ⟨terminals⟩

/-- An extension; those that are not `MultiVariantObject` have nothing per variant. -/
inductive Ext where
  | loadDetail (d : LoadDetail)
  | slack (s : Slack)
  | other
  deriving DecidableEq

/-- Body of the loop of `Identifiable::allocateVariantArrayElement` (Identifiable.cpp l.75-81). -/
def Ext.alloc (idxs : List Nat) (src : Nat) : Ext → Out Ext
  | .loadDetail d => do let d ← d.alloc idxs src; pure (.loadDetail d)
  | .slack d => do let d ← d.alloc idxs src; pure (.slack d)
  | .other => .ok .other

/-- Body of the loop of `Identifiable::extendVariantArraySize` (Identifiable.cpp l.91-97). -/
def Ext.ext (n src : Nat) : Ext → Out Ext
  | .loadDetail d => do let d ← d.ext n src; pure (.loadDetail d)
  | .slack d => do let d ← d.ext n src; pure (.slack d)
  | .other => .ok .other

/-- Body of the loop of `Identifiable::reduceVariantArraySize` (Identifiable.cpp l.165-171). -/
def Ext.red (n : Nat) : Ext → Out Ext
  | .loadDetail d => do let d ← d.red n; pure (.loadDetail d)
  | .slack d => do let d ← d.red n; pure (.slack d)
  | .other => .ok .other

/-- Body of the loop of `Identifiable::deleteVariantArrayElement` (Identifiable.cpp l.83-89). -/
def Ext.del (i : Nat) : Ext → Out Ext
  | .loadDetail d => do let d ← d.del i; pure (.loadDetail d)
  | .slack d => do let d ← d.del i; pure (.slack d)
  | .other => .ok .other

/-! ### `Terminal` -/

/-- `Terminal` (Terminal.hpp). -/
structure Terminal where
  p : List Dbl
  q : List Dbl
  deriving DecidableEq

/-- `allocateVariantArrayElement` (Terminal.cpp l.33-38). -/
def Terminal.alloc (idxs : List Nat) (src : Nat) (x : Terminal) : Out Terminal := do
  let p ← Fields.alloc idxs src x.p
  let q ← Fields.alloc idxs src x.q
  pure ⟨p, q⟩

/-- `extendVariantArraySize` (Terminal.cpp l.52-55). -/
def Terminal.ext (n src : Nat) (x : Terminal) : Out Terminal := do
  let p ← Fields.ext n src x.p
  let q ← Fields.ext n src x.q
  pure ⟨p, q⟩

/-- `reduceVariantArraySize` (Terminal.cpp l.97-100). -/
def Terminal.red (n : Nat) (x : Terminal) : Out Terminal := do
  let p ← Fields.red n x.p
  let q ← Fields.red n x.q
  pure ⟨p, q⟩

/-- `deleteVariantArrayElement` (Terminal.cpp l.44-46: nothing). -/
def Terminal.del (i : Nat) (x : Terminal) : Out Terminal := do
  pure ⟨x.p, x.q⟩

/-! ### `NodeTerminal` -/

/-- `NodeTerminal` (NodeTerminal.hpp). -/
structure NodeTerminal where
  base : Terminal
  v : List Dbl
  connectedComponent : List (Option Nat)
  synchronousComponent : List (Option Nat)
  angle : List Dbl
  deriving DecidableEq

/-- `allocateVariantArrayElement` (NodeTerminal.cpp l.34-43). -/
def NodeTerminal.alloc (idxs : List Nat) (src : Nat) (x : NodeTerminal) : Out NodeTerminal := do
  let base ← x.base.alloc idxs src
  let v ← Fields.alloc idxs src x.v
  let connectedComponent ← Fields.alloc idxs src x.connectedComponent
  let synchronousComponent ← Fields.alloc idxs src x.synchronousComponent
  let angle ← Fields.alloc idxs src x.angle
  pure ⟨base, v, connectedComponent, synchronousComponent, angle⟩

/-- `extendVariantArraySize` (NodeTerminal.cpp l.45-52). -/
def NodeTerminal.ext (n src : Nat) (x : NodeTerminal) : Out NodeTerminal := do
  let base ← x.base.ext n src
  let v ← Fields.ext n src x.v
  let connectedComponent ← Fields.ext n src x.connectedComponent
  let synchronousComponent ← Fields.ext n src x.synchronousComponent
  let angle ← Fields.ext n src x.angle
  pure ⟨base, v, connectedComponent, synchronousComponent, angle⟩

/-- `reduceVariantArraySize` (NodeTerminal.cpp l.102-110). -/
def NodeTerminal.red (n : Nat) (x : NodeTerminal) : Out NodeTerminal := do
  let base ← x.base.red n
  let v ← Fields.red n x.v
  let connectedComponent ← Fields.red n x.connectedComponent
  let synchronousComponent ← Fields.red n x.synchronousComponent
  let angle ← Fields.red n x.angle
  pure ⟨base, v, connectedComponent, synchronousComponent, angle⟩

/-- `deleteVariantArrayElement` (Terminal.cpp l.44-46, not overridden). -/
def NodeTerminal.del (i : Nat) (x : NodeTerminal) : Out NodeTerminal := do
  let base ← x.base.del i
  pure ⟨base, x.v, x.connectedComponent, x.synchronousComponent, x.angle⟩

/-! ### `BusTerminal` -/

/-- `BusTerminal` (BusTerminal.hpp). -/
structure BusTerminal where
  base : Terminal
  connected : List Bool
  busId : List String
  deriving DecidableEq

/-- `allocateVariantArrayElement` (BusTerminal.cpp l.30-37). -/
def BusTerminal.alloc (idxs : List Nat) (src : Nat) (x : BusTerminal) : Out BusTerminal := do
  let base ← x.base.alloc idxs src
  let connected ← Fields.alloc idxs src x.connected
  let busId ← Fields.alloc idxs src x.busId
  pure ⟨base, connected, busId⟩

/-- `extendVariantArraySize` (BusTerminal.cpp l.45-50). -/
def BusTerminal.ext (n src : Nat) (x : BusTerminal) : Out BusTerminal := do
  let base ← x.base.ext n src
  let connected ← Fields.ext n src x.connected
  let busId ← Fields.ext n src x.busId
  pure ⟨base, connected, busId⟩

/-- `reduceVariantArraySize` (BusTerminal.cpp l.96-101). -/
def BusTerminal.red (n : Nat) (x : BusTerminal) : Out BusTerminal := do
  let base ← x.base.red n
  let connected ← Fields.red n x.connected
  let busId ← Fields.red n x.busId
  pure ⟨base, connected, busId⟩

/-- `deleteVariantArrayElement` (BusTerminal.cpp l.39-43). -/
def BusTerminal.del (i : Nat) (x : BusTerminal) : Out BusTerminal := do
  let base ← x.base.del i
  let busId ← put "" i x.busId
  pure ⟨base, x.connected, busId⟩

/-! ### Terminals of a connectable -/

/-- A terminal, according to the topology of its voltage level. -/
inductive Term where
  | node (t : NodeTerminal)
  | bus (t : BusTerminal)
  deriving DecidableEq

/-- The virtual function called by the loop of `Connectable::allocateVariantArrayElement` (Connectable.cpp l.25-27). -/
def Term.alloc (idxs : List Nat) (src : Nat) : Term → Out Term
  | .node t => do let t ← t.alloc idxs src; pure (.node t)
  | .bus t => do let t ← t.alloc idxs src; pure (.bus t)

/-- Same for `extendVariantArraySize` (Connectable.cpp l.48-50). -/
def Term.ext (n src : Nat) : Term → Out Term
  | .node t => do let t ← t.ext n src; pure (.node t)
  | .bus t => do let t ← t.ext n src; pure (.bus t)

/-- Same for `reduceVariantArraySize` (Connectable.cpp l.90-92). -/
def Term.red (n : Nat) : Term → Out Term
  | .node t => do let t ← t.red n; pure (.node t)
  | .bus t => do let t ← t.red n; pure (.bus t)

/-- Same for `deleteVariantArrayElement` (Connectable.cpp l.40-42). -/
def Term.del (i : Nat) : Term → Out Term
  | .node t => do let t ← t.del i; pure (.node t)
  | .bus t => do let t ← t.del i; pure (.bus t)

/-! ### `Ident` -/

/-- `Identifiable` (Identifiable.hpp): its extensions.  This is also all what a `Substation` has. -/
structure Ident where
  exts : List Ext
  deriving DecidableEq

/-- `allocateVariantArrayElement` (Identifiable.cpp l.75-81). -/
def Ident.alloc (idxs : List Nat) (src : Nat) (x : Ident) : Out Ident := do
  let exts ← mapOut (Ext.alloc idxs src) x.exts
  pure ⟨exts⟩

/-- `extendVariantArraySize` (Identifiable.cpp l.91-97). -/
def Ident.ext (n src : Nat) (x : Ident) : Out Ident := do
  let exts ← mapOut (Ext.ext n src) x.exts
  pure ⟨exts⟩

/-- `reduceVariantArraySize` (Identifiable.cpp l.165-171). -/
def Ident.red (n : Nat) (x : Ident) : Out Ident := do
  let exts ← mapOut (Ext.red n) x.exts
  pure ⟨exts⟩

/-- `deleteVariantArrayElement` (Identifiable.cpp l.83-89). -/
def Ident.del (i : Nat) (x : Ident) : Out Ident := do
  let exts ← mapOut (Ext.del i) x.exts
  pure ⟨exts⟩

/-! ### `Conn` -/

/-- `Connectable` (Connectable.hpp): the extensions, then the terminals.  This is also all what an `Injection`, a `Branch`, a line, a
    busbar section or an LCC converter station have. -/
structure Conn where
  ident : Ident
  terms : List Term
  deriving DecidableEq

/-- `allocateVariantArrayElement` (Connectable.cpp l.22-28). -/
def Conn.alloc (idxs : List Nat) (src : Nat) (x : Conn) : Out Conn := do
  let ident ← x.ident.alloc idxs src
  let terms ← mapOut (Term.alloc idxs src) x.terms
  pure ⟨ident, terms⟩

/-- `extendVariantArraySize` (Connectable.cpp l.45-51). -/
def Conn.ext (n src : Nat) (x : Conn) : Out Conn := do
  let ident ← x.ident.ext n src
  let terms ← mapOut (Term.ext n src) x.terms
  pure ⟨ident, terms⟩

/-- `reduceVariantArraySize` (Connectable.cpp l.87-93). -/
def Conn.red (n : Nat) (x : Conn) : Out Conn := do
  let ident ← x.ident.red n
  let terms ← mapOut (Term.red n) x.terms
  pure ⟨ident, terms⟩

/-- `deleteVariantArrayElement` (Connectable.cpp l.37-43). -/
def Conn.del (i : Nat) (x : Conn) : Out Conn := do
  let ident ← x.ident.del i
  let terms ← mapOut (Term.del i) x.terms
  pure ⟨ident, terms⟩

/-! ### `Load` -/

/-- `Load` (Load.hpp). -/
structure Load where
  conn : Conn
  p0 : List Dbl
  q0 : List Dbl
  deriving DecidableEq

/-- `allocateVariantArrayElement` (Load.cpp l.26-33). -/
def Load.alloc (idxs : List Nat) (src : Nat) (x : Load) : Out Load := do
  let conn ← x.conn.alloc idxs src
  let p0 ← Fields.alloc idxs src x.p0
  let q0 ← Fields.alloc idxs src x.q0
  pure ⟨conn, p0, q0⟩

/-- `extendVariantArraySize` (Load.cpp l.35-40). -/
def Load.ext (n src : Nat) (x : Load) : Out Load := do
  let conn ← x.conn.ext n src
  let p0 ← Fields.ext n src x.p0
  let q0 ← Fields.ext n src x.q0
  pure ⟨conn, p0, q0⟩

/-- `reduceVariantArraySize` (Load.cpp l.60-65). -/
def Load.red (n : Nat) (x : Load) : Out Load := do
  let conn ← x.conn.red n
  let p0 ← Fields.red n x.p0
  let q0 ← Fields.red n x.q0
  pure ⟨conn, p0, q0⟩

/-- `deleteVariantArrayElement` (Connectable.cpp l.37-43, not overridden). -/
def Load.del (i : Nat) (x : Load) : Out Load := do
  let conn ← x.conn.del i
  pure ⟨conn, x.p0, x.q0⟩

/-! ### `Battery` -/

/-- `Battery` (Battery.hpp). -/
structure Battery where
  conn : Conn
  p0 : List Dbl
  q0 : List Dbl
  deriving DecidableEq

/-- `allocateVariantArrayElement` (Battery.cpp l.26-33). -/
def Battery.alloc (idxs : List Nat) (src : Nat) (x : Battery) : Out Battery := do
  let conn ← x.conn.alloc idxs src
  let p0 ← Fields.alloc idxs src x.p0
  let q0 ← Fields.alloc idxs src x.q0
  pure ⟨conn, p0, q0⟩

/-- `extendVariantArraySize` (Battery.cpp l.35-40). -/
def Battery.ext (n src : Nat) (x : Battery) : Out Battery := do
  let conn ← x.conn.ext n src
  let p0 ← Fields.ext n src x.p0
  let q0 ← Fields.ext n src x.q0
  pure ⟨conn, p0, q0⟩

/-- `reduceVariantArraySize` (Battery.cpp l.64-69). -/
def Battery.red (n : Nat) (x : Battery) : Out Battery := do
  let conn ← x.conn.red n
  let p0 ← Fields.red n x.p0
  let q0 ← Fields.red n x.q0
  pure ⟨conn, p0, q0⟩

/-- `deleteVariantArrayElement` (Connectable.cpp l.37-43, not overridden). -/
def Battery.del (i : Nat) (x : Battery) : Out Battery := do
  let conn ← x.conn.del i
  pure ⟨conn, x.p0, x.q0⟩

/-! ### `Generator` -/

/-- `Generator` (Generator.hpp). -/
structure Generator where
  conn : Conn
  regulatorOn : List Bool
  targetP : List Dbl
  targetQ : List Dbl
  targetV : List Dbl
  deriving DecidableEq

/-- `allocateVariantArrayElement` (Generator.cpp l.35-44). -/
def Generator.alloc (idxs : List Nat) (src : Nat) (x : Generator) : Out Generator := do
  let conn ← x.conn.alloc idxs src
  let regulatorOn ← Fields.alloc idxs src x.regulatorOn
  let targetP ← Fields.alloc idxs src x.targetP
  let targetQ ← Fields.alloc idxs src x.targetQ
  let targetV ← Fields.alloc idxs src x.targetV
  pure ⟨conn, regulatorOn, targetP, targetQ, targetV⟩

/-- `extendVariantArraySize` (Generator.cpp l.46-53). -/
def Generator.ext (n src : Nat) (x : Generator) : Out Generator := do
  let conn ← x.conn.ext n src
  let regulatorOn ← Fields.ext n src x.regulatorOn
  let targetP ← Fields.ext n src x.targetP
  let targetQ ← Fields.ext n src x.targetQ
  let targetV ← Fields.ext n src x.targetV
  pure ⟨conn, regulatorOn, targetP, targetQ, targetV⟩

/-- `reduceVariantArraySize` (Generator.cpp l.113-120). -/
def Generator.red (n : Nat) (x : Generator) : Out Generator := do
  let conn ← x.conn.red n
  let regulatorOn ← Fields.red n x.regulatorOn
  let targetP ← Fields.red n x.targetP
  let targetQ ← Fields.red n x.targetQ
  let targetV ← Fields.red n x.targetV
  pure ⟨conn, regulatorOn, targetP, targetQ, targetV⟩

/-- `deleteVariantArrayElement` (Connectable.cpp l.37-43, not overridden). -/
def Generator.del (i : Nat) (x : Generator) : Out Generator := do
  let conn ← x.conn.del i
  pure ⟨conn, x.regulatorOn, x.targetP, x.targetQ, x.targetV⟩

/-! ### `Shunt` -/

/-- `ShuntCompensator` (ShuntCompensator.hpp). -/
structure Shunt where
  conn : Conn
  sectionCount : List Nat
  regulatorOn : List Bool
  targetV : List Dbl
  targetDeadband : List Dbl
  deriving DecidableEq

/-- `allocateVariantArrayElement` (ShuntCompensator.cpp l.31-40). -/
def Shunt.alloc (idxs : List Nat) (src : Nat) (x : Shunt) : Out Shunt := do
  let conn ← x.conn.alloc idxs src
  let sectionCount ← Fields.alloc idxs src x.sectionCount
  let regulatorOn ← Fields.alloc idxs src x.regulatorOn
  let targetV ← Fields.alloc idxs src x.targetV
  let targetDeadband ← Fields.alloc idxs src x.targetDeadband
  pure ⟨conn, sectionCount, regulatorOn, targetV, targetDeadband⟩

/-- `extendVariantArraySize` (ShuntCompensator.cpp l.42-49). -/
def Shunt.ext (n src : Nat) (x : Shunt) : Out Shunt := do
  let conn ← x.conn.ext n src
  let sectionCount ← Fields.ext n src x.sectionCount
  let regulatorOn ← Fields.ext n src x.regulatorOn
  let targetV ← Fields.ext n src x.targetV
  let targetDeadband ← Fields.ext n src x.targetDeadband
  pure ⟨conn, sectionCount, regulatorOn, targetV, targetDeadband⟩

/-- `reduceVariantArraySize` (ShuntCompensator.cpp l.113-120). -/
def Shunt.red (n : Nat) (x : Shunt) : Out Shunt := do
  let conn ← x.conn.red n
  let sectionCount ← Fields.red n x.sectionCount
  let regulatorOn ← Fields.red n x.regulatorOn
  let targetV ← Fields.red n x.targetV
  let targetDeadband ← Fields.red n x.targetDeadband
  pure ⟨conn, sectionCount, regulatorOn, targetV, targetDeadband⟩

/-- `deleteVariantArrayElement` (Connectable.cpp l.37-43, not overridden). -/
def Shunt.del (i : Nat) (x : Shunt) : Out Shunt := do
  let conn ← x.conn.del i
  pure ⟨conn, x.sectionCount, x.regulatorOn, x.targetV, x.targetDeadband⟩

/-! ### `Svc` -/

/-- `StaticVarCompensator` (StaticVarCompensator.hpp). -/
structure Svc where
  conn : Conn
  targetV : List Dbl
  targetQ : List Dbl
  mode : List Nat
  deriving DecidableEq

/-- `allocateVariantArrayElement` (StaticVarCompensator.cpp l.31-39). -/
def Svc.alloc (idxs : List Nat) (src : Nat) (x : Svc) : Out Svc := do
  let conn ← x.conn.alloc idxs src
  let targetV ← Fields.alloc idxs src x.targetV
  let targetQ ← Fields.alloc idxs src x.targetQ
  let mode ← Fields.alloc idxs src x.mode
  pure ⟨conn, targetV, targetQ, mode⟩

/-- `extendVariantArraySize` (StaticVarCompensator.cpp l.41-47). -/
def Svc.ext (n src : Nat) (x : Svc) : Out Svc := do
  let conn ← x.conn.ext n src
  let targetV ← Fields.ext n src x.targetV
  let targetQ ← Fields.ext n src x.targetQ
  let mode ← Fields.ext n src x.mode
  pure ⟨conn, targetV, targetQ, mode⟩

/-- `reduceVariantArraySize` (StaticVarCompensator.cpp l.83-89). -/
def Svc.red (n : Nat) (x : Svc) : Out Svc := do
  let conn ← x.conn.red n
  let targetV ← Fields.red n x.targetV
  let targetQ ← Fields.red n x.targetQ
  let mode ← Fields.red n x.mode
  pure ⟨conn, targetV, targetQ, mode⟩

/-- `deleteVariantArrayElement` (Connectable.cpp l.37-43, not overridden). -/
def Svc.del (i : Nat) (x : Svc) : Out Svc := do
  let conn ← x.conn.del i
  pure ⟨conn, x.targetV, x.targetQ, x.mode⟩

/-! ### `Vsc` -/

/-- `VscConverterStation` (VscConverterStation.hpp). -/
structure Vsc where
  conn : Conn
  regulatorOn : List Bool
  targetQ : List Dbl
  targetV : List Dbl
  deriving DecidableEq

/-- `allocateVariantArrayElement` (VscConverterStation.cpp l.26-34). -/
def Vsc.alloc (idxs : List Nat) (src : Nat) (x : Vsc) : Out Vsc := do
  let conn ← x.conn.alloc idxs src
  let regulatorOn ← Fields.alloc idxs src x.regulatorOn
  let targetQ ← Fields.alloc idxs src x.targetQ
  let targetV ← Fields.alloc idxs src x.targetV
  pure ⟨conn, regulatorOn, targetQ, targetV⟩

/-- `extendVariantArraySize` (VscConverterStation.cpp l.36-42). -/
def Vsc.ext (n src : Nat) (x : Vsc) : Out Vsc := do
  let conn ← x.conn.ext n src
  let regulatorOn ← Fields.ext n src x.regulatorOn
  let targetQ ← Fields.ext n src x.targetQ
  let targetV ← Fields.ext n src x.targetV
  pure ⟨conn, regulatorOn, targetQ, targetV⟩

/-- `reduceVariantArraySize` (VscConverterStation.cpp l.66-72). -/
def Vsc.red (n : Nat) (x : Vsc) : Out Vsc := do
  let conn ← x.conn.red n
  let regulatorOn ← Fields.red n x.regulatorOn
  let targetQ ← Fields.red n x.targetQ
  let targetV ← Fields.red n x.targetV
  pure ⟨conn, regulatorOn, targetQ, targetV⟩

/-- `deleteVariantArrayElement` (Connectable.cpp l.37-43, not overridden). -/
def Vsc.del (i : Nat) (x : Vsc) : Out Vsc := do
  let conn ← x.conn.del i
  pure ⟨conn, x.regulatorOn, x.targetQ, x.targetV⟩

/-! ### `Generation` -/

/-- `DanglingLine::Generation` (DanglingLineGeneration.hpp). -/
structure Generation where
  targetP : List Dbl
  targetQ : List Dbl
  regulationOn : List Bool
  targetV : List Dbl
  deriving DecidableEq

/-- `allocateVariantArrayElement` (DanglingLineGeneration.cpp l.35-42). -/
def Generation.alloc (idxs : List Nat) (src : Nat) (x : Generation) : Out Generation := do
  let targetP ← Fields.alloc idxs src x.targetP
  let targetQ ← Fields.alloc idxs src x.targetQ
  let regulationOn ← Fields.alloc idxs src x.regulationOn
  let targetV ← Fields.alloc idxs src x.targetV
  pure ⟨targetP, targetQ, regulationOn, targetV⟩

/-- `extendVariantArraySize` (DanglingLineGeneration.cpp l.52-57). -/
def Generation.ext (n src : Nat) (x : Generation) : Out Generation := do
  let targetP ← Fields.ext n src x.targetP
  let targetQ ← Fields.ext n src x.targetQ
  let regulationOn ← Fields.ext n src x.regulationOn
  let targetV ← Fields.ext n src x.targetV
  pure ⟨targetP, targetQ, regulationOn, targetV⟩

/-- `reduceVariantArraySize` (DanglingLineGeneration.cpp l.87-92). -/
def Generation.red (n : Nat) (x : Generation) : Out Generation := do
  let targetP ← Fields.red n x.targetP
  let targetQ ← Fields.red n x.targetQ
  let regulationOn ← Fields.red n x.regulationOn
  let targetV ← Fields.red n x.targetV
  pure ⟨targetP, targetQ, regulationOn, targetV⟩

/-- `deleteVariantArrayElement` (there is none: nothing). -/
def Generation.del (i : Nat) (x : Generation) : Out Generation := do
  pure ⟨x.targetP, x.targetQ, x.regulationOn, x.targetV⟩

/-! ### `DanglingLine` -/

/-- `DanglingLine` (DanglingLine.hpp). -/
structure DanglingLine where
  conn : Conn
  p0 : List Dbl
  q0 : List Dbl
  generation : Option Generation
  deriving DecidableEq

/-- `allocateVariantArrayElement` (DanglingLine.cpp l.39-50). -/
def DanglingLine.alloc (idxs : List Nat) (src : Nat) (x : DanglingLine) : Out DanglingLine := do
  let conn ← x.conn.alloc idxs src
  let p0 ← Fields.alloc idxs src x.p0
  let q0 ← Fields.alloc idxs src x.q0
  let generation ← optOut (Generation.alloc idxs src) x.generation
  pure ⟨conn, p0, q0, generation⟩

/-- `extendVariantArraySize` (DanglingLine.cpp l.52-61). -/
def DanglingLine.ext (n src : Nat) (x : DanglingLine) : Out DanglingLine := do
  let conn ← x.conn.ext n src
  let p0 ← Fields.ext n src x.p0
  let q0 ← Fields.ext n src x.q0
  let generation ← optOut (Generation.ext n src) x.generation
  pure ⟨conn, p0, q0, generation⟩

/-- `reduceVariantArraySize` (DanglingLine.cpp l.113-122). -/
def DanglingLine.red (n : Nat) (x : DanglingLine) : Out DanglingLine := do
  let conn ← x.conn.red n
  let p0 ← Fields.red n x.p0
  let q0 ← Fields.red n x.q0
  let generation ← optOut (Generation.red n) x.generation
  pure ⟨conn, p0, q0, generation⟩

/-- `deleteVariantArrayElement` (Connectable.cpp l.37-43, not overridden). -/
def DanglingLine.del (i : Nat) (x : DanglingLine) : Out DanglingLine := do
  let conn ← x.conn.del i
  pure ⟨conn, x.p0, x.q0, x.generation⟩

/-! ### `TapChanger` -/

/-- `TapChanger` (TapChanger.hpp). -/
structure TapChanger where
  position : List Int
  regulating : List Bool
  targetDeadband : List Dbl
  deriving DecidableEq

/-- `allocateVariantArrayElement` (TapChanger.hxx l.39-45). -/
def TapChanger.alloc (idxs : List Nat) (src : Nat) (x : TapChanger) : Out TapChanger := do
  let position ← Fields.alloc idxs src x.position
  let regulating ← Fields.alloc idxs src x.regulating
  let targetDeadband ← Fields.alloc idxs src x.targetDeadband
  pure ⟨position, regulating, targetDeadband⟩

/-- `extendVariantArraySize` (TapChanger.hxx l.53-57). -/
def TapChanger.ext (n src : Nat) (x : TapChanger) : Out TapChanger := do
  let position ← Fields.ext n src x.position
  let regulating ← Fields.ext n src x.regulating
  let targetDeadband ← Fields.ext n src x.targetDeadband
  pure ⟨position, regulating, targetDeadband⟩

/-- `reduceVariantArraySize` (TapChanger.hxx l.160-164). -/
def TapChanger.red (n : Nat) (x : TapChanger) : Out TapChanger := do
  let position ← Fields.red n x.position
  let regulating ← Fields.red n x.regulating
  let targetDeadband ← Fields.red n x.targetDeadband
  pure ⟨position, regulating, targetDeadband⟩

/-- `deleteVariantArrayElement` (TapChanger.hxx l.48-50: nothing). -/
def TapChanger.del (i : Nat) (x : TapChanger) : Out TapChanger := do
  pure ⟨x.position, x.regulating, x.targetDeadband⟩

/-! ### `RatioTapChanger` -/

/-- `RatioTapChanger` (RatioTapChanger.hpp). -/
structure RatioTapChanger where
  base : TapChanger
  targetV : List Dbl
  deriving DecidableEq

/-- `allocateVariantArrayElement` (RatioTapChanger.cpp l.26-32). -/
def RatioTapChanger.alloc (idxs : List Nat) (src : Nat) (x : RatioTapChanger) : Out RatioTapChanger := do
  let base ← x.base.alloc idxs src
  let targetV ← Fields.alloc idxs src x.targetV
  pure ⟨base, targetV⟩

/-- `extendVariantArraySize` (RatioTapChanger.cpp l.34-38). -/
def RatioTapChanger.ext (n src : Nat) (x : RatioTapChanger) : Out RatioTapChanger := do
  let base ← x.base.ext n src
  let targetV ← Fields.ext n src x.targetV
  pure ⟨base, targetV⟩

/-- `reduceVariantArraySize` (RatioTapChanger.cpp l.48-52). -/
def RatioTapChanger.red (n : Nat) (x : RatioTapChanger) : Out RatioTapChanger := do
  let base ← x.base.red n
  let targetV ← Fields.red n x.targetV
  pure ⟨base, targetV⟩

/-- `deleteVariantArrayElement` (TapChanger.hxx l.48-50, not overridden). -/
def RatioTapChanger.del (i : Nat) (x : RatioTapChanger) : Out RatioTapChanger := do
  let base ← x.base.del i
  pure ⟨base, x.targetV⟩

/-! ### `PhaseTapChanger` -/

/-- `PhaseTapChanger` (PhaseTapChanger.hpp). -/
structure PhaseTapChanger where
  base : TapChanger
  regulationValue : List Dbl
  deriving DecidableEq

/-- `allocateVariantArrayElement` (PhaseTapChanger.cpp l.28-34). -/
def PhaseTapChanger.alloc (idxs : List Nat) (src : Nat) (x : PhaseTapChanger) : Out PhaseTapChanger := do
  let base ← x.base.alloc idxs src
  let regulationValue ← Fields.alloc idxs src x.regulationValue
  pure ⟨base, regulationValue⟩

/-- `extendVariantArraySize` (PhaseTapChanger.cpp l.36-40). -/
def PhaseTapChanger.ext (n src : Nat) (x : PhaseTapChanger) : Out PhaseTapChanger := do
  let base ← x.base.ext n src
  let regulationValue ← Fields.ext n src x.regulationValue
  pure ⟨base, regulationValue⟩

/-- `reduceVariantArraySize` (PhaseTapChanger.cpp l.50-54). -/
def PhaseTapChanger.red (n : Nat) (x : PhaseTapChanger) : Out PhaseTapChanger := do
  let base ← x.base.red n
  let regulationValue ← Fields.red n x.regulationValue
  pure ⟨base, regulationValue⟩

/-- `deleteVariantArrayElement` (TapChanger.hxx l.48-50, not overridden). -/
def PhaseTapChanger.del (i : Nat) (x : PhaseTapChanger) : Out PhaseTapChanger := do
  let base ← x.base.del i
  pure ⟨base, x.regulationValue⟩

/-! ### `TwoWindings` -/

/-- `TwoWindingsTransformer` (TwoWindingsTransformer.hpp). -/
structure TwoWindings where
  conn : Conn
  ratio : Option RatioTapChanger
  phase : Option PhaseTapChanger
  deriving DecidableEq

/-- `allocateVariantArrayElement` (TwoWindingsTransformer.cpp l.33-42). -/
def TwoWindings.alloc (idxs : List Nat) (src : Nat) (x : TwoWindings) : Out TwoWindings := do
  let conn ← x.conn.alloc idxs src
  let ratio ← optOut (RatioTapChanger.alloc idxs src) x.ratio
  let phase ← optOut (PhaseTapChanger.alloc idxs src) x.phase
  pure ⟨conn, ratio, phase⟩

/-- `extendVariantArraySize` (TwoWindingsTransformer.cpp l.55-64). -/
def TwoWindings.ext (n src : Nat) (x : TwoWindings) : Out TwoWindings := do
  let conn ← x.conn.ext n src
  let ratio ← optOut (RatioTapChanger.ext n src) x.ratio
  let phase ← optOut (PhaseTapChanger.ext n src) x.phase
  pure ⟨conn, ratio, phase⟩

/-- `reduceVariantArraySize` (TwoWindingsTransformer.cpp l.160-169). -/
def TwoWindings.red (n : Nat) (x : TwoWindings) : Out TwoWindings := do
  let conn ← x.conn.red n
  let ratio ← optOut (RatioTapChanger.red n) x.ratio
  let phase ← optOut (PhaseTapChanger.red n) x.phase
  pure ⟨conn, ratio, phase⟩

/-- `deleteVariantArrayElement` (TwoWindingsTransformer.cpp l.44-53). -/
def TwoWindings.del (i : Nat) (x : TwoWindings) : Out TwoWindings := do
  let conn ← x.conn.del i
  let ratio ← optOut (RatioTapChanger.del i) x.ratio
  let phase ← optOut (PhaseTapChanger.del i) x.phase
  pure ⟨conn, ratio, phase⟩

/-! ### `Leg` -/

/-- A leg of a three windings transformer: its tap changers. -/
structure Leg where
  ratio : Option RatioTapChanger
  phase : Option PhaseTapChanger
  deriving DecidableEq

/-- `allocateVariantArrayElement` (ThreeWindingsTransformer.cpp l.30-37). -/
def Leg.alloc (idxs : List Nat) (src : Nat) (x : Leg) : Out Leg := do
  let ratio ← optOut (RatioTapChanger.alloc idxs src) x.ratio
  let phase ← optOut (PhaseTapChanger.alloc idxs src) x.phase
  pure ⟨ratio, phase⟩

/-- `extendVariantArraySize` (ThreeWindingsTransformer.cpp l.56-63). -/
def Leg.ext (n src : Nat) (x : Leg) : Out Leg := do
  let ratio ← optOut (RatioTapChanger.ext n src) x.ratio
  let phase ← optOut (PhaseTapChanger.ext n src) x.phase
  pure ⟨ratio, phase⟩

/-- `reduceVariantArraySize` (ThreeWindingsTransformer.cpp l.151-158). -/
def Leg.red (n : Nat) (x : Leg) : Out Leg := do
  let ratio ← optOut (RatioTapChanger.red n) x.ratio
  let phase ← optOut (PhaseTapChanger.red n) x.phase
  pure ⟨ratio, phase⟩

/-- `deleteVariantArrayElement` (ThreeWindingsTransformer.cpp l.43-50). -/
def Leg.del (i : Nat) (x : Leg) : Out Leg := do
  let ratio ← optOut (RatioTapChanger.del i) x.ratio
  let phase ← optOut (PhaseTapChanger.del i) x.phase
  pure ⟨ratio, phase⟩

/-! ### `ThreeWindings` -/

/-- `ThreeWindingsTransformer` (ThreeWindingsTransformer.hpp). -/
structure ThreeWindings where
  conn : Conn
  legs : List Leg
  deriving DecidableEq

/-- `allocateVariantArrayElement` (ThreeWindingsTransformer.cpp l.27-38). -/
def ThreeWindings.alloc (idxs : List Nat) (src : Nat) (x : ThreeWindings) : Out ThreeWindings := do
  let conn ← x.conn.alloc idxs src
  let legs ← mapOut (Leg.alloc idxs src) x.legs
  pure ⟨conn, legs⟩

/-- `extendVariantArraySize` (ThreeWindingsTransformer.cpp l.53-64). -/
def ThreeWindings.ext (n src : Nat) (x : ThreeWindings) : Out ThreeWindings := do
  let conn ← x.conn.ext n src
  let legs ← mapOut (Leg.ext n src) x.legs
  pure ⟨conn, legs⟩

/-- `reduceVariantArraySize` (ThreeWindingsTransformer.cpp l.148-159). -/
def ThreeWindings.red (n : Nat) (x : ThreeWindings) : Out ThreeWindings := do
  let conn ← x.conn.red n
  let legs ← mapOut (Leg.red n) x.legs
  pure ⟨conn, legs⟩

/-- `deleteVariantArrayElement` (ThreeWindingsTransformer.cpp l.40-51). -/
def ThreeWindings.del (i : Nat) (x : ThreeWindings) : Out ThreeWindings := do
  let conn ← x.conn.del i
  let legs ← mapOut (Leg.del i) x.legs
  pure ⟨conn, legs⟩

/-! ### `HvdcLine` -/

/-- `HvdcLine` (HvdcLine.hpp). -/
structure HvdcLine where
  ident : Ident
  convertersMode : List Nat
  targetP : List Dbl
  deriving DecidableEq

/-- `allocateVariantArrayElement` (HvdcLine.cpp l.30-37). -/
def HvdcLine.alloc (idxs : List Nat) (src : Nat) (x : HvdcLine) : Out HvdcLine := do
  let ident ← x.ident.alloc idxs src
  let convertersMode ← Fields.alloc idxs src x.convertersMode
  let targetP ← Fields.alloc idxs src x.targetP
  pure ⟨ident, convertersMode, targetP⟩

/-- `extendVariantArraySize` (HvdcLine.cpp l.44-49). -/
def HvdcLine.ext (n src : Nat) (x : HvdcLine) : Out HvdcLine := do
  let ident ← x.ident.ext n src
  let convertersMode ← Fields.ext n src x.convertersMode
  let targetP ← Fields.ext n src x.targetP
  pure ⟨ident, convertersMode, targetP⟩

/-- `reduceVariantArraySize` (HvdcLine.cpp l.116-121). -/
def HvdcLine.red (n : Nat) (x : HvdcLine) : Out HvdcLine := do
  let ident ← x.ident.red n
  let convertersMode ← Fields.red n x.convertersMode
  let targetP ← Fields.red n x.targetP
  pure ⟨ident, convertersMode, targetP⟩

/-- `deleteVariantArrayElement` (Identifiable.cpp l.83-89, not overridden). -/
def HvdcLine.del (i : Nat) (x : HvdcLine) : Out HvdcLine := do
  let ident ← x.ident.del i
  pure ⟨ident, x.convertersMode, x.targetP⟩

/-! ### `Switch` -/

/-- `Switch` (Switch.hpp). -/
structure Switch where
  ident : Ident
  isOpen : List Bool
  retained : List Bool
  deriving DecidableEq

/-- `allocateVariantArrayElement` (Switch.cpp l.25-32). -/
def Switch.alloc (idxs : List Nat) (src : Nat) (x : Switch) : Out Switch := do
  let ident ← x.ident.alloc idxs src
  let isOpen ← Fields.alloc idxs src x.isOpen
  let retained ← Fields.alloc idxs src x.retained
  pure ⟨ident, isOpen, retained⟩

/-- `extendVariantArraySize` (Switch.cpp l.34-39). -/
def Switch.ext (n src : Nat) (x : Switch) : Out Switch := do
  let ident ← x.ident.ext n src
  let isOpen ← Fields.ext n src x.isOpen
  let retained ← Fields.ext n src x.retained
  pure ⟨ident, isOpen, retained⟩

/-- `reduceVariantArraySize` (Switch.cpp l.75-80). -/
def Switch.red (n : Nat) (x : Switch) : Out Switch := do
  let ident ← x.ident.red n
  let isOpen ← Fields.red n x.isOpen
  let retained ← Fields.red n x.retained
  pure ⟨ident, isOpen, retained⟩

/-- `deleteVariantArrayElement` (Identifiable.cpp l.83-89, not overridden). -/
def Switch.del (i : Nat) (x : Switch) : Out Switch := do
  let ident ← x.ident.del i
  pure ⟨ident, x.isOpen, x.retained⟩

/-! ### `ConfiguredBus` -/

/-- `ConfiguredBus` (ConfiguredBus.hpp); `terminals` are the terminals connected to the bus. -/
structure ConfiguredBus where
  ident : Ident
  terminals : List (List Nat)
  v : List Dbl
  angle : List Dbl
  connectedComponent : List (Option Nat)
  synchronousComponent : List (Option Nat)
  deriving DecidableEq

/-- `allocateVariantArrayElement` (ConfiguredBus.cpp l.46-56). -/
def ConfiguredBus.alloc (idxs : List Nat) (src : Nat) (x : ConfiguredBus) : Out ConfiguredBus := do
  let ident ← x.ident.alloc idxs src
  let terminals ← Fields.alloc idxs src x.terminals
  let v ← Fields.alloc idxs src x.v
  let angle ← Fields.alloc idxs src x.angle
  let connectedComponent ← Fields.alloc idxs src x.connectedComponent
  let synchronousComponent ← Fields.alloc idxs src x.synchronousComponent
  pure ⟨ident, terminals, v, angle, connectedComponent, synchronousComponent⟩

/-- `extendVariantArraySize` (ConfiguredBus.cpp l.64-72). -/
def ConfiguredBus.ext (n src : Nat) (x : ConfiguredBus) : Out ConfiguredBus := do
  let ident ← x.ident.ext n src
  let terminals ← Fields.ext n src x.terminals
  let v ← Fields.ext n src x.v
  let angle ← Fields.ext n src x.angle
  let connectedComponent ← Fields.ext n src x.connectedComponent
  let synchronousComponent ← Fields.ext n src x.synchronousComponent
  pure ⟨ident, terminals, v, angle, connectedComponent, synchronousComponent⟩

/-- `reduceVariantArraySize` (ConfiguredBus.cpp l.167-175). -/
def ConfiguredBus.red (n : Nat) (x : ConfiguredBus) : Out ConfiguredBus := do
  let ident ← x.ident.red n
  let terminals ← Fields.red n x.terminals
  let v ← Fields.red n x.v
  let angle ← Fields.red n x.angle
  let connectedComponent ← Fields.red n x.connectedComponent
  let synchronousComponent ← Fields.red n x.synchronousComponent
  pure ⟨ident, terminals, v, angle, connectedComponent, synchronousComponent⟩

/-- `deleteVariantArrayElement` (ConfiguredBus.cpp l.58-62). -/
def ConfiguredBus.del (i : Nat) (x : ConfiguredBus) : Out ConfiguredBus := do
  let ident ← x.ident.del i
  let terminals ← put [] i x.terminals
  pure ⟨ident, terminals, x.v, x.angle, x.connectedComponent, x.synchronousComponent⟩

/-! ### `Cached` -/

/-- The owners of a `VariantArray`: `NodeBreakerVoltageLevel`, `BusBreakerVoltageLevel` and `Network`, whose functions are the same. -/
structure Cached where
  ident : Ident
  cache : Cache
  deriving DecidableEq

/-- `allocateVariantArrayElement` (NodeBreakerVoltageLevel.cpp l.50-53, BusBreakerVoltageLevel.cpp l.55-58, Network.cpp l.95-99). -/
def Cached.alloc (idxs : List Nat) (src : Nat) (x : Cached) : Out Cached := do
  let ident ← x.ident.alloc idxs src
  let cache ← cacheAlloc idxs src x.cache
  pure ⟨ident, cache⟩

/-- `extendVariantArraySize` (NodeBreakerVoltageLevel.cpp l.191-194, BusBreakerVoltageLevel.cpp l.136-139, Network.cpp l.107-111). -/
def Cached.ext (n src : Nat) (x : Cached) : Out Cached := do
  let ident ← x.ident.ext n src
  let cache ← cacheExt n src x.cache
  pure ⟨ident, cache⟩

/-- `reduceVariantArraySize` (NodeBreakerVoltageLevel.cpp l.351-354, BusBreakerVoltageLevel.cpp l.291-294, Network.cpp l.662-666). -/
def Cached.red (n : Nat) (x : Cached) : Out Cached := do
  let ident ← x.ident.red n
  let cache ← cacheRed n x.cache
  pure ⟨ident, cache⟩

/-- `deleteVariantArrayElement` (NodeBreakerVoltageLevel.cpp l.124-127, BusBreakerVoltageLevel.cpp l.103-106, Network.cpp l.101-105). -/
def Cached.del (i : Nat) (x : Cached) : Out Cached := do
  let ident ← x.ident.del i
  let cache ← cacheDel i x.cache
  pure ⟨ident, cache⟩

/-! ### The objects of a network -/

/-- The objects reached by `Network::getStatefulObjects` (Network.cpp l.476-478), that is the identifiables.
    `connectable` stands for the classes that add nothing to `Connectable` (lines, tie lines, busbar sections, LCC
    converter stations). -/
inductive Obj where
  | connectable (x : Conn)
  | load (x : Load)
  | battery (x : Battery)
  | generator (x : Generator)
  | shunt (x : Shunt)
  | svc (x : Svc)
  | vsc (x : Vsc)
  | danglingLine (x : DanglingLine)
  | twoWindings (x : TwoWindings)
  | threeWindings (x : ThreeWindings)
  | hvdcLine (x : HvdcLine)
  | switch (x : Switch)
  | bus (x : ConfiguredBus)
  | cached (x : Cached)
  | substation (x : Ident)
  deriving DecidableEq

/-- The virtual function `allocateVariantArrayElement` (MultiVariantObject.hpp l.20-40). -/
def Obj.alloc (idxs : List Nat) (src : Nat) : Obj → Out Obj
  | .connectable x => do let x ← x.alloc idxs src; pure (.connectable x)
  | .load x => do let x ← x.alloc idxs src; pure (.load x)
  | .battery x => do let x ← x.alloc idxs src; pure (.battery x)
  | .generator x => do let x ← x.alloc idxs src; pure (.generator x)
  | .shunt x => do let x ← x.alloc idxs src; pure (.shunt x)
  | .svc x => do let x ← x.alloc idxs src; pure (.svc x)
  | .vsc x => do let x ← x.alloc idxs src; pure (.vsc x)
  | .danglingLine x => do let x ← x.alloc idxs src; pure (.danglingLine x)
  | .twoWindings x => do let x ← x.alloc idxs src; pure (.twoWindings x)
  | .threeWindings x => do let x ← x.alloc idxs src; pure (.threeWindings x)
  | .hvdcLine x => do let x ← x.alloc idxs src; pure (.hvdcLine x)
  | .switch x => do let x ← x.alloc idxs src; pure (.switch x)
  | .bus x => do let x ← x.alloc idxs src; pure (.bus x)
  | .cached x => do let x ← x.alloc idxs src; pure (.cached x)
  | .substation x => do let x ← x.alloc idxs src; pure (.substation x)

/-- The virtual function `extendVariantArraySize` (MultiVariantObject.hpp l.20-40). -/
def Obj.ext (n src : Nat) : Obj → Out Obj
  | .connectable x => do let x ← x.ext n src; pure (.connectable x)
  | .load x => do let x ← x.ext n src; pure (.load x)
  | .battery x => do let x ← x.ext n src; pure (.battery x)
  | .generator x => do let x ← x.ext n src; pure (.generator x)
  | .shunt x => do let x ← x.ext n src; pure (.shunt x)
  | .svc x => do let x ← x.ext n src; pure (.svc x)
  | .vsc x => do let x ← x.ext n src; pure (.vsc x)
  | .danglingLine x => do let x ← x.ext n src; pure (.danglingLine x)
  | .twoWindings x => do let x ← x.ext n src; pure (.twoWindings x)
  | .threeWindings x => do let x ← x.ext n src; pure (.threeWindings x)
  | .hvdcLine x => do let x ← x.ext n src; pure (.hvdcLine x)
  | .switch x => do let x ← x.ext n src; pure (.switch x)
  | .bus x => do let x ← x.ext n src; pure (.bus x)
  | .cached x => do let x ← x.ext n src; pure (.cached x)
  | .substation x => do let x ← x.ext n src; pure (.substation x)

/-- The virtual function `reduceVariantArraySize` (MultiVariantObject.hpp l.20-40). -/
def Obj.red (n : Nat) : Obj → Out Obj
  | .connectable x => do let x ← x.red n; pure (.connectable x)
  | .load x => do let x ← x.red n; pure (.load x)
  | .battery x => do let x ← x.red n; pure (.battery x)
  | .generator x => do let x ← x.red n; pure (.generator x)
  | .shunt x => do let x ← x.red n; pure (.shunt x)
  | .svc x => do let x ← x.red n; pure (.svc x)
  | .vsc x => do let x ← x.red n; pure (.vsc x)
  | .danglingLine x => do let x ← x.red n; pure (.danglingLine x)
  | .twoWindings x => do let x ← x.red n; pure (.twoWindings x)
  | .threeWindings x => do let x ← x.red n; pure (.threeWindings x)
  | .hvdcLine x => do let x ← x.red n; pure (.hvdcLine x)
  | .switch x => do let x ← x.red n; pure (.switch x)
  | .bus x => do let x ← x.red n; pure (.bus x)
  | .cached x => do let x ← x.red n; pure (.cached x)
  | .substation x => do let x ← x.red n; pure (.substation x)

/-- The virtual function `deleteVariantArrayElement` (MultiVariantObject.hpp l.20-40). -/
def Obj.del (i : Nat) : Obj → Out Obj
  | .connectable x => do let x ← x.del i; pure (.connectable x)
  | .load x => do let x ← x.del i; pure (.load x)
  | .battery x => do let x ← x.del i; pure (.battery x)
  | .generator x => do let x ← x.del i; pure (.generator x)
  | .shunt x => do let x ← x.del i; pure (.shunt x)
  | .svc x => do let x ← x.del i; pure (.svc x)
  | .vsc x => do let x ← x.del i; pure (.vsc x)
  | .danglingLine x => do let x ← x.del i; pure (.danglingLine x)
  | .twoWindings x => do let x ← x.del i; pure (.twoWindings x)
  | .threeWindings x => do let x ← x.del i; pure (.threeWindings x)
  | .hvdcLine x => do let x ← x.del i; pure (.hvdcLine x)
  | .switch x => do let x ← x.del i; pure (.switch x)
  | .bus x => do let x ← x.del i; pure (.bus x)
  | .cached x => do let x ← x.del i; pure (.cached x)
  | .substation x => do let x ← x.del i; pure (.substation x)

/-! ### The variant manager over the objects -/

/-- A network as far as variants are concerned: the manager (as in `Variants.State`) and the objects. -/
structure St where
  bk : Variants.Bk
  mode : Variants.Mode
  tls : Variants.Thread → Option Nat
  objs : List Obj

/-- The manager alone. -/
def St.man (s : St) : Variants.State Unit := ⟨s.bk, s.mode, s.tls, []⟩

/-- The objects with another state of the manager. -/
def St.withMan (s : St) (m : Variants.State Unit) : St := ⟨m.bk, m.mode, m.tls, s.objs⟩

/-- `VariantManager::cloneVariant` (VariantManager.cpp l.82-129) with `allocateVariantArrayElement` (l.42-56). -/
def clone (s : St) (source : String) (targets : List String) (mayOverwrite : Bool) : Out St :=
  if targets = [] then .thrown
  else
    match s.bk.byId.get? source with
    | none => .thrown
    | some src =>
      match Variants.cloneLoop mayOverwrite targets ⟨s.bk, 0, [], []⟩ with
      | (.ok (), l) =>
        (if l.recycled = [] then .ok s.objs else mapOut (Obj.alloc l.recycled src) s.objs).bind fun o1 =>
        (if l.overwritten = [] then .ok o1 else mapOut (Obj.alloc l.overwritten src) o1).bind fun o2 =>
        (if l.ext = 0 then .ok o2 else mapOut (Obj.ext l.ext src) o2).bind fun o3 =>
        .ok { s with bk := l.bk, objs := o3 }
      | (.thrown, _) => .thrown
      | (.ub, _) => .ub

/-- `VariantManager::removeVariant` (VariantManager.cpp l.202-246) called by the thread `t`. -/
def remove (s : St) (t : Variants.Thread) (id : String) : Out St :=
  if id = Variants.initialId then .thrown
  else
    match s.bk.byId.get? id with
    | none => .thrown
    | some index =>
      let byId := s.bk.byId.erase id
      if index = s.bk.size - 1 then do
        let r := Variants.trim index s.bk.unused
        let objs ← mapOut (Obj.red (1 + r.1)) s.objs
        let s' : St := { s with bk := ⟨byId, r.2, s.bk.size - (1 + r.1)⟩, objs := objs }
        pure (s'.withMan (Variants.resetIf s'.man t index))
      else do
        let objs ← mapOut (Obj.del index) s.objs
        let s' : St := { s with bk := { s.bk with byId := byId, unused := Variants.insertSorted index s.bk.unused }, objs := objs }
        pure (s'.withMan (Variants.resetIf s'.man t index))

/-- `VariantManager::setWorkingVariant` (VariantManager.cpp l.248-253). -/
def setWorking (s : St) (t : Variants.Thread) (id : String) : Out St :=
  match Variants.setWorking s.man t id with
  | (.ok (), m) => .ok (s.withMan m)
  | (.thrown, _) => .thrown
  | (.ub, _) => .ub

/-- `VariantManager::allowVariantMultiThreadAccess` (VariantManager.cpp l.58-76). -/
def allowMT (s : St) (t : Variants.Thread) (allow : Bool) : St := s.withMan (Variants.allowMT s.man t allow)

/-- A new network (VariantManager.cpp l.27-32), without objects. -/
def init (tls : Variants.Thread → Option Nat) : St :=
  ⟨⟨[(Variants.initialId, 0)], [], 1⟩, .single (some 0), tls, []⟩

end Verif.Fields
