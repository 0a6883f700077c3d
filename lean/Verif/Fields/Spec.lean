import Verif.Fields.Model

/-!
Specification of C93: the inventory of the values that the objects have per variant, independent of the functions that
make them follow the variants.
-/

namespace Verif.Fields

open Verif

/-- A value that an object has per variant. -/
inductive Val where
  | num (x : Dbl)
  | flag (b : Bool)
  | count (n : Nat)
  | pos (i : Int)
  | text (s : String)
  | refs (l : List Nat)
  | comp (c : Option Nat)
  | ref (t : Option Nat)
  /-- a cache is there (what is in it is not a value of the variant: it can be computed again) -/
  | present
  deriving DecidableEq

open Verif.Variants (Arr)

/-- A plain array. -/
def col {α : Type} (inj : α → Val) (l : List α) : Arr Val := ⟨Variants.plain Val, l.map (fun v => some (inj v))⟩

/-- An array of which the element of a variant removed is overwritten. -/
def clearing {α : Type} (inj : α → Val) (v : Val) (l : List α) : Arr Val :=
  ⟨{ Variants.plain Val with del := .clear v }, l.map (fun v => some (inj v))⟩

/-- The array of the caches. -/
def caches (l : Cache) : Arr Val := ⟨Variants.variantArray Val, l.map (fun c => c.map (fun _ => .present))⟩

/-- The array of the terminals of a slack terminal extension. -/
def slacks (l : List (Option Nat)) : Arr Val :=
  ⟨Variants.slackTerminal Val (.ref none), l.map (fun v => some (.ref v))⟩

/-- The values per variant of a `LoadDetail`. -/
def LoadDetail.cols (x : LoadDetail) : List (Arr Val) :=
  [col .num x.fixedP, col .num x.fixedQ, col .num x.variableP, col .num x.variableQ]

/-- The values of a slack terminal extension. -/
def Slack.cols (x : Slack) : List (Arr Val) := [slacks x.terminals]

/-- The values of an extension. -/
def Ext.cols : Ext → List (Arr Val)
  | .loadDetail d => d.cols
  | .slack s => s.cols
  | .other => []

/-- The values per variant of a `Terminal`. -/
def Terminal.cols (x : Terminal) : List (Arr Val) :=
  [col .num x.p, col .num x.q]

/-- The values per variant of a `NodeTerminal`. -/
def NodeTerminal.cols (x : NodeTerminal) : List (Arr Val) :=
  x.base.cols ++ [col .num x.v, col .comp x.connectedComponent, col .comp x.synchronousComponent, col .num x.angle]

/-- The values per variant of a `BusTerminal`. -/
def BusTerminal.cols (x : BusTerminal) : List (Arr Val) :=
  x.base.cols ++ [col .flag x.connected, clearing .text (.text "") x.busId]

/-- The values of a terminal. -/
def Term.cols : Term → List (Arr Val)
  | .node t => t.cols
  | .bus t => t.cols

/-- The values per variant of a `Ident`. -/
def Ident.cols (x : Ident) : List (Arr Val) :=
  x.exts.flatMap Ext.cols

/-- The values per variant of a `Conn`. -/
def Conn.cols (x : Conn) : List (Arr Val) :=
  x.ident.cols ++ x.terms.flatMap Term.cols

/-- The values per variant of a `Load`. -/
def Load.cols (x : Load) : List (Arr Val) :=
  x.conn.cols ++ [col .num x.p0, col .num x.q0]

/-- The values per variant of a `Battery`. -/
def Battery.cols (x : Battery) : List (Arr Val) :=
  x.conn.cols ++ [col .num x.p0, col .num x.q0]

/-- The values per variant of a `Generator`. -/
def Generator.cols (x : Generator) : List (Arr Val) :=
  x.conn.cols ++ [col .flag x.regulatorOn, col .num x.targetP, col .num x.targetQ, col .num x.targetV]

/-- The values per variant of a `Shunt`. -/
def Shunt.cols (x : Shunt) : List (Arr Val) :=
  x.conn.cols ++ [col .count x.sectionCount, col .flag x.regulatorOn, col .num x.targetV, col .num x.targetDeadband]

/-- The values per variant of a `Svc`. -/
def Svc.cols (x : Svc) : List (Arr Val) :=
  x.conn.cols ++ [col .num x.targetV, col .num x.targetQ, col .count x.mode]

/-- The values per variant of a `Vsc`. -/
def Vsc.cols (x : Vsc) : List (Arr Val) :=
  x.conn.cols ++ [col .flag x.regulatorOn, col .num x.targetQ, col .num x.targetV]

/-- The values per variant of a `Generation`. -/
def Generation.cols (x : Generation) : List (Arr Val) :=
  [col .num x.targetP, col .num x.targetQ, col .flag x.regulationOn, col .num x.targetV]

/-- The values per variant of a `DanglingLine`. -/
def DanglingLine.cols (x : DanglingLine) : List (Arr Val) :=
  x.conn.cols ++ [col .num x.p0, col .num x.q0] ++ (x.generation.toList.flatMap Generation.cols)

/-- The values per variant of a `TapChanger`. -/
def TapChanger.cols (x : TapChanger) : List (Arr Val) :=
  [col .pos x.position, col .flag x.regulating, col .num x.targetDeadband]

/-- The values per variant of a `RatioTapChanger`. -/
def RatioTapChanger.cols (x : RatioTapChanger) : List (Arr Val) :=
  x.base.cols ++ [col .num x.targetV]

/-- The values per variant of a `PhaseTapChanger`. -/
def PhaseTapChanger.cols (x : PhaseTapChanger) : List (Arr Val) :=
  x.base.cols ++ [col .num x.regulationValue]

/-- The values per variant of a `TwoWindings`. -/
def TwoWindings.cols (x : TwoWindings) : List (Arr Val) :=
  x.conn.cols ++ (x.ratio.toList.flatMap RatioTapChanger.cols) ++ (x.phase.toList.flatMap PhaseTapChanger.cols)

/-- The values per variant of a `Leg`. -/
def Leg.cols (x : Leg) : List (Arr Val) :=
  (x.ratio.toList.flatMap RatioTapChanger.cols) ++ (x.phase.toList.flatMap PhaseTapChanger.cols)

/-- The values per variant of a `ThreeWindings`. -/
def ThreeWindings.cols (x : ThreeWindings) : List (Arr Val) :=
  x.conn.cols ++ x.legs.flatMap Leg.cols

/-- The values per variant of a `HvdcLine`. -/
def HvdcLine.cols (x : HvdcLine) : List (Arr Val) :=
  x.ident.cols ++ [col .count x.convertersMode, col .num x.targetP]

/-- The values per variant of a `Switch`. -/
def Switch.cols (x : Switch) : List (Arr Val) :=
  x.ident.cols ++ [col .flag x.isOpen, col .flag x.retained]

/-- The values per variant of a `ConfiguredBus`. -/
def ConfiguredBus.cols (x : ConfiguredBus) : List (Arr Val) :=
  x.ident.cols ++ [clearing .refs (.refs []) x.terminals, col .num x.v, col .num x.angle, col .comp x.connectedComponent, col .comp x.synchronousComponent]

/-- The values per variant of a `Cached`. -/
def Cached.cols (x : Cached) : List (Arr Val) :=
  x.ident.cols ++ [caches x.cache]

/-- The values of an object. -/
def Obj.cols : Obj → List (Arr Val)
  | .connectable x => x.cols
  | .load x => x.cols
  | .battery x => x.cols
  | .generator x => x.cols
  | .shunt x => x.cols
  | .svc x => x.cols
  | .vsc x => x.cols
  | .danglingLine x => x.cols
  | .twoWindings x => x.cols
  | .threeWindings x => x.cols
  | .hvdcLine x => x.cols
  | .switch x => x.cols
  | .bus x => x.cols
  | .cached x => x.cols
  | .substation x => x.cols

/-- The network as the list of all the values of all its objects: a state of `Verif/Variants`. -/
def St.abs (s : St) : Variants.State Val := ⟨s.bk, s.mode, s.tls, s.objs.flatMap Obj.cols⟩

/-- The value number `c` of the object number `k` in the variant `id`: `none` if there is no such variant, object or
    value, or if the slot is null. -/
def value (s : St) (id : String) (k c : Nat) : Option Val :=
  (s.bk.byId.get? id).bind fun i => (s.objs[k]?).bind fun o => (o.cols[c]?).bind fun a => (a.slots[i]?).join

/-- An object as the constructors and the setters leave it: every array has one element per index, those of the
    variants are there, and it carries no slack terminal extension (SlackTerminal.cpp l.84-86 breaks it). -/
def Fits (bk : Variants.Bk) (o : Obj) : Prop :=
  ∀ a ∈ o.cols, a.slots.length = bk.size ∧ (∀ x i, bk.byId.get? x = some i → ∃ v, a.slots[i]? = some (some v)) ∧
    a.kind.badReduce = none

/-- A clone that does not fail half way (`Variants.CleanClone`): distinct targets, new ones unless overwriting is
    allowed. -/
def CleanTargets (bk : Variants.Bk) (ts : List String) (m : Bool) : Prop :=
  ts ≠ [] ∧ ts.Nodup ∧ (m = true ∨ ∀ t ∈ ts, bk.byId.get? t = none)

/-- The networks reached by calls that succeed: creations of objects, modifications of objects, removals of objects and
    calls of the variant manager. -/
inductive Reached : St → Prop
  | init (tls) : Reached (init tls)
  | add {s o} : Reached s → Fits s.bk o → Reached { s with objs := s.objs ++ [o] }
  | change {s} (k o) : Reached s → Fits s.bk o → Reached { s with objs := s.objs.set k o }
  | drop {s} (k) : Reached s → Reached { s with objs := s.objs.eraseIdx k }
  | clone {s s' src ts m} : Reached s → CleanTargets s.bk ts m → clone s src ts m = .ok s' → Reached s'
  | remove {s s' t id} : Reached s → remove s t id = .ok s' → Reached s'
  | setWorking {s s' t id} : Reached s → setWorking s t id = .ok s' → Reached s'
  | allowMT {s} (t b) : Reached s → Reached (allowMT s t b)

/-- The caches of an object. -/
def Obj.caches : Obj → List Cache
  | .cached x => [x.cache]
  | _ => []

/-! ### What is not a value -/

/-- A `LoadDetail` without values. -/
def LoadDetail.bare (_ : LoadDetail) : LoadDetail := ⟨[], [], [], []⟩

/-- A slack terminal extension without values. -/
def Slack.bare (_ : Slack) : Slack := ⟨[]⟩

/-- A `Ext` without values. -/
def Ext.bare : Ext → Ext
  | .loadDetail x => .loadDetail x.bare
  | .slack x => .slack x.bare
  | .other => .other

/-- A `Terminal` without values. -/
def Terminal.bare (_ : Terminal) : Terminal := ⟨[], []⟩

/-- A `NodeTerminal` without values. -/
def NodeTerminal.bare (x : NodeTerminal) : NodeTerminal := ⟨x.base.bare, [], [], [], []⟩

/-- A `BusTerminal` without values. -/
def BusTerminal.bare (x : BusTerminal) : BusTerminal := ⟨x.base.bare, [], []⟩

/-- A `Term` without values. -/
def Term.bare : Term → Term
  | .node x => .node x.bare
  | .bus x => .bus x.bare

/-- A `Ident` without values. -/
def Ident.bare (x : Ident) : Ident := ⟨x.exts.map Ext.bare⟩

/-- A `Conn` without values. -/
def Conn.bare (x : Conn) : Conn := ⟨x.ident.bare, x.terms.map Term.bare⟩

/-- A `Load` without values. -/
def Load.bare (x : Load) : Load := ⟨x.conn.bare, [], []⟩

/-- A `Battery` without values. -/
def Battery.bare (x : Battery) : Battery := ⟨x.conn.bare, [], []⟩

/-- A `Generator` without values. -/
def Generator.bare (x : Generator) : Generator := ⟨x.conn.bare, [], [], [], []⟩

/-- A `Shunt` without values. -/
def Shunt.bare (x : Shunt) : Shunt := ⟨x.conn.bare, [], [], [], []⟩

/-- A `Svc` without values. -/
def Svc.bare (x : Svc) : Svc := ⟨x.conn.bare, [], [], []⟩

/-- A `Vsc` without values. -/
def Vsc.bare (x : Vsc) : Vsc := ⟨x.conn.bare, [], [], []⟩

/-- A `Generation` without values. -/
def Generation.bare (_ : Generation) : Generation := ⟨[], [], [], []⟩

/-- A `DanglingLine` without values. -/
def DanglingLine.bare (x : DanglingLine) : DanglingLine := ⟨x.conn.bare, [], [], x.generation.map Generation.bare⟩

/-- A `TapChanger` without values. -/
def TapChanger.bare (_ : TapChanger) : TapChanger := ⟨[], [], []⟩

/-- A `RatioTapChanger` without values. -/
def RatioTapChanger.bare (x : RatioTapChanger) : RatioTapChanger := ⟨x.base.bare, []⟩

/-- A `PhaseTapChanger` without values. -/
def PhaseTapChanger.bare (x : PhaseTapChanger) : PhaseTapChanger := ⟨x.base.bare, []⟩

/-- A `TwoWindings` without values. -/
def TwoWindings.bare (x : TwoWindings) : TwoWindings := ⟨x.conn.bare, x.ratio.map RatioTapChanger.bare, x.phase.map PhaseTapChanger.bare⟩

/-- A `Leg` without values. -/
def Leg.bare (x : Leg) : Leg := ⟨x.ratio.map RatioTapChanger.bare, x.phase.map PhaseTapChanger.bare⟩

/-- A `ThreeWindings` without values. -/
def ThreeWindings.bare (x : ThreeWindings) : ThreeWindings := ⟨x.conn.bare, x.legs.map Leg.bare⟩

/-- A `HvdcLine` without values. -/
def HvdcLine.bare (x : HvdcLine) : HvdcLine := ⟨x.ident.bare, [], []⟩

/-- A `Switch` without values. -/
def Switch.bare (x : Switch) : Switch := ⟨x.ident.bare, [], []⟩

/-- A `ConfiguredBus` without values. -/
def ConfiguredBus.bare (x : ConfiguredBus) : ConfiguredBus := ⟨x.ident.bare, [], [], [], [], []⟩

/-- A `Cached` without values. -/
def Cached.bare (x : Cached) : Cached := ⟨x.ident.bare, []⟩

/-- A `Obj` without values. -/
def Obj.bare : Obj → Obj
  | .connectable x => .connectable x.bare
  | .load x => .load x.bare
  | .battery x => .battery x.bare
  | .generator x => .generator x.bare
  | .shunt x => .shunt x.bare
  | .svc x => .svc x.bare
  | .vsc x => .vsc x.bare
  | .danglingLine x => .danglingLine x.bare
  | .twoWindings x => .twoWindings x.bare
  | .threeWindings x => .threeWindings x.bare
  | .hvdcLine x => .hvdcLine x.bare
  | .switch x => .switch x.bare
  | .bus x => .bus x.bare
  | .cached x => .cached x.bare
  | .substation x => .substation x.bare

end Verif.Fields
