import Verif.Xml.Elements
import Verif.Adders.Model

/-!
What the XML readers and writers of all the kinds of equipment share, in version 1.5 (`CURRENT_IIDM_XML_VERSION`) and at the full level of
topology (`TopologyLevel::NODE_BREAKER`, the default of `ExportOptions`).

Modelled code:
* `include/powsybl/iidm/converter/xml/AbstractIdentifiableXml.hxx` l. 34-92, `AliasesXml.cpp` l. 28-49, `PropertiesXml.cpp` l. 25-39
* `include/powsybl/iidm/converter/xml/AbstractConnectableXml.hxx` l. 65-147, 188-219
* `src/xml/XmlStreamReader.cpp` l. 77-87, 162-172, `src/xml/XmlStreamWriter.cpp` l. 53-55, 64-66
* `src/iidm/converter/xml/TerminalRefXml.cpp` l. 61-100 (see `Verif.Xml.TerminalRef` for the choice of the side)

An equipment is a record of what can be asked about it in one variant.  A container is the list of its elements in the order of iteration.
Reading an element returns the record of the equipment that the adder makes; the checks that need the rest of the network (names already used,
occupied nodes, unknown buses, terminals designated by a reference) are made later, in `Verif.XmlNet.Accept`: every failure makes the whole
reading fail, so the order of the checks does not matter.
-/

namespace Verif.XmlNet

open Verif Verif.Xml

/-- Codec of values with the integers: `std::to_string(long)` (and `int`), `std::stol`, `std::stoi`. -/
structure XCodec extends Codec where
  showI : Int → String
  readI : String → Out Int
  readInt : String → Out Int

/-- Numbers of 64 bits are read back; `std::stoi` reads those of 31 bits and refuses larger ones. -/
structure XCodec.Integers (K : XCodec) : Prop where
  naturals : K.toCodec.Naturals
  long : ∀ i : Int, -2 ^ 63 ≤ i → i < 2 ^ 63 → K.readI (K.showI i) = .ok i
  int : ∀ i : Int, -2 ^ 31 ≤ i → i < 2 ^ 31 → K.readInt (K.showI i) = .ok i
  intOfNat : ∀ n : Nat, n < 2 ^ 31 → K.readInt (K.showN n) = .ok n

/-- The double is read back, if it is written at all. -/
def XCodec.Keeps (K : XCodec) (d : Dbl) : Prop := d.isNan = false → K.toCodec.Exact d

/-- `writeAttribute(long)`, `XmlStreamWriter.cpp` l. 64-66. -/
def attrI (K : XCodec) (k : String) (i : Int) : List (String × String) := [(k, K.showI i)]

/-- `getAttributeValue` of a long, `XmlStreamReader.cpp` l. 83-87. -/
def getI (K : XCodec) (k : String) (ts : List Tok) : Out Int := (getS k ts).bind K.readI

/-- `getAttributeValue` of an int, l. 77-81. -/
def getInt (K : XCodec) (k : String) (ts : List Tok) : Out Int := (getS k ts).bind K.readInt

/-- `getOptionalAttributeValue` of an int, l. 162-172. -/
def optInt (K : XCodec) (k : String) (ts : List Tok) : Out (Option Int) :=
  (rawAttr k ts).bind fun
    | some v => (K.readInt v).map some
    | none => .ok none

/-! ### Identifiables -/

/-- What every identifiable has: identifier, name, fictitious flag, aliases with their types, properties. -/
structure Ident where
  head : Head
  aliases : List (String × String)
  props : PropMap.Props
  deriving DecidableEq, Repr

/-- One alias with its type, `AliasesXml.cpp` l. 38-48. -/
def aliasElem (A : Anon) (a : String × String) : List Cmd := elemCmds "alias" (if a.2 ≠ "" then [("type", a.2)] else []) [.chars (A.anon a.1)]

/-- Loop of `AliasesXml::write`, l. 36-49. -/
def aliasesElems (A : Anon) : List (String × String) → List Cmd
  | [] => []
  | a :: as => aliasElem A a ++ aliasesElems A as

/-- Aliases then properties, `AbstractIdentifiableXml.hxx` l. 81-85. -/
def identCmds (A : Anon) (x : Ident) : List Cmd := aliasesElems A x.aliases ++ propsCmds x.props

/-- `AbstractIdentifiableXml::write`, l. 66-89: `as` and `sub` are what `writeRootElementAttributes` and `writeSubElements` of the class write. -/
def writeElem (A : Anon) (root : String) (x : Ident) (as : List (String × String)) (sub : List Cmd) : List Cmd :=
  elemCmds root (headAttrs A .v15 x.head ++ as) (identCmds A x ++ sub)

/-- `Identifiable::addAlias` (Identifiable.cpp l. 52-69) as far as the identifiable itself is concerned: a type that is already there is refused, a
name that it already has is ignored.  A name of another identifiable is refused by `Verif.XmlNet.Accept`. -/
def Ident.addAlias (x : Ident) (a t : String) : Out Ident :=
  if t ≠ "" ∧ t ∈ x.aliases.map Prod.snd then .thrown
  else if a = x.head.id ∨ a ∈ x.aliases.map Prod.fst then .ok x
  else .ok { x with aliases := x.aliases ++ [(a, t)] }

/-- `AbstractIdentifiableXml::readSubElements`, l. 54-63, `AliasesXml.cpp` l. 28-34, `PropertiesXml.cpp` l. 25-30. -/
def identCb (A : Anon) : Callback Ident := fun x toks => do
  let n ← localName toks
  if n = "property" then
    let k ← getS "name" toks
    let v ← getS "value" toks
    .ok ({ x with props := (PropMap.set k v x.props).2 }, toks)
  else if n = "alias" then
    let t ← optSOr "type" "" toks
    let r ← readCharacters toks
    let a ← A.dean r.1
    let x' ← x.addAlias a t
    .ok (x', r.2)
  else .thrown

/-- What a class does with each sub element of its own, by name; `none` sends to `AbstractIdentifiableXml::readSubElements`. -/
abbrev Handler (σ : Type) := String → Option (Callback σ)

/-- The callback of a class, which keeps `σ` besides what all identifiables have. -/
def elemCb {σ : Type} (A : Anon) (h : Handler σ) : Callback (Ident × σ) := fun x toks => do
  let n ← localName toks
  match h n with
  | some cb => do
    let r ← cb x.2 toks
    .ok ((x.1, r.1), r.2)
  | none => do
    let r ← identCb A x.1 toks
    .ok ((r.1, x.2), r.2)

/-- `AbstractIdentifiableXml::read`, l. 35-51: `rd` reads the attributes of the root element and makes the checks of the adder, `h` says what is
done with the sub elements, `mk` makes the equipment.  The identifier, the name and the flag are read first (l. 37-43). -/
def readElem {α σ β : Type} (A : Anon) (root : String) (rd : List Tok → Out α) (h : Handler σ) (s0 : σ) (mk : Ident → α → σ → Out β) (toks : List Tok) : Out (β × List Tok) := do
  let hd ← readHead A .v15 toks
  let a ← rd toks
  let r ← readUntilEnd (elemCb A h) root (⟨hd, [], []⟩, s0) toks
  let b ← mk r.1.1 a r.1.2
  .ok (b, r.2)

/-- No sub element of its own. -/
def noSub : Handler Unit := fun _ => none

/-- An element without anything to keep, then lists of elements: writing a list. -/
def writeList {α : Type} (w : α → Out (List Cmd)) : List α → Out (List Cmd)
  | [] => .ok []
  | x :: xs => do
    let c ← w x
    let cs ← writeList w xs
    .ok (c ++ cs)

/-! ### Terminals -/

/-- A terminal at the full level of topology: its node, or its connectable bus and whether it is connected to it; its flows. -/
structure Term where
  place : Adders.Place
  p : Dbl
  q : Dbl
  deriving DecidableEq, Repr

/-- `writeNodeOrBus`, `AbstractConnectableXml.hxx` l. 193-208, for the suffix `s` of the side; `writeBus` l. 139-147, `writeNode` l. 188-191.  The bus of
the bus/breaker view is the connectable bus when the terminal is connected, nothing otherwise (BusTerminalViews.cpp). -/
def placeAttrs (K : XCodec) (A : Anon) (s : String) : Adders.Place → List (String × String)
  | .node n => attrN K.toCodec ("node" ++ s) n
  | .bus b connected => (if connected then [("bus" ++ s, A.anon b)] else []) ++ [("connectableBus" ++ s, A.anon b)]

/-- `writePQ`, l. 215-219. -/
def pqAttrs (K : XCodec) (s : String) (t : Term) : List (String × String) := attrD K.toCodec ("p" ++ s) t.p ++ attrD K.toCodec ("q" ++ s) t.q

/-- The deanonymized value of an optional attribute, the empty string when it is missing (the default of the adders). -/
def optName (A : Anon) (k : String) (toks : List Tok) : Out String := do
  let o ← optS k toks
  match o with
  | some v => A.dean v
  | none => .ok ""

/-- `readNodeOrBus` of an injection, l. 98-112, and the terminal that the adder makes (TerminalBuilder.cpp). -/
def readPlace (K : XCodec) (A : Anon) (toks : List Tok) : Out Adders.Place := do
  let bus ← optName A "bus" toks
  let connectable ← optName A "connectableBus" toks
  let node ← optN K.toCodec "node" toks
  Adders.build ⟨node, bus, connectable⟩

/-- `readPQ`, l. 133-137. -/
def readTerm (K : XCodec) (s : String) (toks : List Tok) (place : Adders.Place) : Out Term := do
  let p ← optDOr K.toCodec ("p" ++ s) .nan toks
  let q ← optDOr K.toCodec ("q" ++ s) .nan toks
  .ok ⟨place, p, q⟩

/-- A terminal of a branch or of a leg, with the identifier of its voltage level. -/
structure Side where
  vl : String
  term : Term
  deriving DecidableEq, Repr

/-- `writeNodeOrBus` with an index, l. 193-212. -/
def sideAttrs (K : XCodec) (A : Anon) (s : String) (x : Side) : List (String × String) :=
  placeAttrs K A s x.term.place ++ [("voltageLevelId" ++ s, A.anon x.vl)]

/-- One side of `readNodeOrBus` of a branch, l. 66-95: the node is an `int`, converted to `unsigned long`. -/
def readBranchPlace (K : XCodec) (A : Anon) (s : String) (toks : List Tok) : Out (String × Adders.Place) := do
  let bus ← optName A ("bus" ++ s) toks
  let connectable ← optName A ("connectableBus" ++ s) toks
  let node ← optInt K ("node" ++ s) toks
  let v ← getS ("voltageLevelId" ++ s) toks
  let vl ← A.dean v
  let place ← Adders.build ⟨node.map fun i => (i % 2 ^ 64).toNat, bus, connectable⟩
  .ok (vl, place)

/-- `readNodeOrBus` of a leg, l. 115-130. -/
def readLegPlace (K : XCodec) (A : Anon) (s : String) (toks : List Tok) : Out (String × Adders.Place) := do
  let bus ← optName A ("bus" ++ s) toks
  let connectable ← optName A ("connectableBus" ++ s) toks
  let node ← optN K.toCodec ("node" ++ s) toks
  let v ← getS ("voltageLevelId" ++ s) toks
  let vl ← A.dean v
  let place ← Adders.build ⟨node, bus, connectable⟩
  .ok (vl, place)

/-! ### References to terminals -/

/-- A terminal of the network: the identifier of its equipment, and the name of the side (empty for an injection). -/
structure Ref where
  id : String
  side : String
  deriving DecidableEq, Repr

/-- `writeTerminalRef`, `TerminalRefXml.cpp` l. 61-100. -/
def refElem (A : Anon) (el : String) (r : Ref) : List Cmd := elemCmds el (("id", A.anon r.id) :: (if r.side ≠ "" then [("side", r.side)] else [])) []

/-- An optional reference. -/
def refElems (A : Anon) (el : String) : Option Ref → List Cmd
  | none => []
  | some r => refElem A el r

/-- What the readers keep for the end task; `required` says whether a missing identifier is refused at once. -/
def readRef (A : Anon) (required : Bool) (toks : List Tok) : Out (Ref × List Tok) := do
  let i ← if required then getS "id" toks else optSOr "id" "" toks
  let id ← A.dean i
  let side ← optSOr "side" "" toks
  .ok (⟨id, side⟩, toks)

/-! ### Checks of the adders -/

/-- A check that only throws. -/
def check (bad : Bool) : Out Unit := if bad then .thrown else .ok ()

end Verif.XmlNet
