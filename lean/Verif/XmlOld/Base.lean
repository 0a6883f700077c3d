import Verif.XmlNet.Branches

/-!
What the XML readers and writers of all the kinds of equipment share, in any version of IIDM-XML from 1.0 to 1.5 and with any behaviour when
something does not exist in the version (`ExportOptions::getIidmVersionIncompatibilityBehavior`).

Modelled code:
* `include/powsybl/iidm/converter/xml/AbstractIdentifiableXml.hxx` l. 34-92, `AliasesXml.cpp` l. 28-49
* `src/iidm/converter/xml/IidmXmlUtil.cpp` l. 36-162, through the functions of `Verif.Xml.Version`

The writers here return what they write and the errors that they log; what is written by two calls in a row is joined by `andThen`.  The equipment,
the attributes that do not depend on the version and the checks of the adders are those of `Verif.XmlNet`.
-/

namespace Verif.XmlOld

open Verif Verif.Xml Verif.XmlNet

variable {δ σ : Type}

/-- What a call of the writer gives: calls or attributes, and the errors logged (last one first). -/
abbrev Piece (δ : Type) := Out (Written (List δ))

/-- Nothing is written, nothing is logged yet. -/
def start : Written (List δ) := ⟨[], []⟩

/-- Written in every version. -/
def plain (d : List δ) : Piece δ := .ok ⟨d, []⟩

/-- Two calls in a row. -/
def andThen (a b : Piece δ) : Piece δ := a.bind fun x => b.map fun y => ⟨x.doc ++ y.doc, y.log ++ x.log⟩

@[inherit_doc] infixr:65 " >+> " => andThen

/-- Something that is reported before version `min` and only written from it on: `assertMinimumVersion` then `runFromMinimumVersion`. -/
def since (name : String) (min : Ver) (c : Ctx) (d : List δ) : Piece δ :=
  (assertMinimumVersion name min c start).bind fun w => runFromMinimumVersion min c.version (fun w => .ok { w with doc := w.doc ++ d }) w

/-- Something that is reported before version `min` and written anyway: `assertMinimumVersionAndRunIfNotDefault`. -/
def anyway (notDefault : Bool) (name : String) (min : Ver) (c : Ctx) (d : Out (List δ)) : Piece δ :=
  assertMinimumVersionAndRunIfNotDefault notDefault name min (fun x => d.map fun y => x ++ y) c start

/-- An attribute that is written from version `min` on and reported before it unless it has its default value: `writeDoubleAttributeFromMinimumVersion`. -/
def attrSince (K : XCodec) (name : String) (d dflt : Dbl) (min : Ver) (c : Ctx) : Piece (String × String) :=
  writeAttributeFromMinimumVersion name (!isEqual d dflt) min (fun x => .ok (x ++ attrD K.toCodec name d)) c start

/-! ### Identifiables -/

/-- One alias, `AliasesXml.cpp` l. 38-48: its type from version 1.4 on. -/
def aliasElem (A : Anon) (v : Ver) (a : String × String) : List Cmd :=
  elemCmds "alias" (if v.ge .v14 then (if a.2 ≠ "" then [("type", a.2)] else []) else []) [.chars (A.anon a.1)]

def aliasesElems (A : Anon) (v : Ver) : List (String × String) → List Cmd
  | [] => []
  | a :: as => aliasElem A v a ++ aliasesElems A v as

/-- `AbstractIdentifiableXml.hxx` l. 81-83, `AliasesXml::write`, l. 36-49. -/
def writeAliases (A : Anon) (c : Ctx) (x : Ident) : Piece Cmd :=
  runFromMinimumVersion .v13 c.version (fun w => (assertMinimumVersionIfNotDefault (!x.aliases.isEmpty) "alias" .v13 c w).map fun w => { w with doc := w.doc ++ aliasesElems A c.version x.aliases }) start

/-- `AbstractIdentifiableXml::write`, l. 66-89. -/
def writeElem (A : Anon) (c : Ctx) (root : String) (x : Ident) (as : Piece (String × String)) (sub : Piece Cmd) : Piece Cmd :=
  as.bind fun a => (writeAliases A c x >+> plain (propsCmds x.props) >+> sub).map fun b =>
    ⟨elemCmds root (headAttrs A c.version x.head ++ a.doc) b.doc, b.log ++ a.log⟩

/-- `AbstractIdentifiableXml::readSubElements`, l. 54-63, `AliasesXml.cpp` l. 28-34, `PropertiesXml.cpp` l. 25-30. -/
def identCb (A : Anon) (v : Ver) : Callback Ident := fun x toks => do
  let n ← localName toks
  if n = "property" then
    let k ← getS "name" toks
    let val ← getS "value" toks
    .ok ({ x with props := (PropMap.set k val x.props).2 }, toks)
  else if n = "alias" then
    readAssertMinimumVersion .v13 v
    let t ← runFromMinimumVersion .v14 v (fun _ => optSOr "type" "" toks) ""
    let r ← readCharacters toks
    let a ← A.dean r.1
    let x' ← x.addAlias a t
    .ok (x', r.2)
  else .thrown

/-- The callback of a class, which keeps `σ` besides what all identifiables have. -/
def elemCb (A : Anon) (v : Ver) (h : Handler σ) : Callback (Ident × σ) := fun x toks => do
  let n ← localName toks
  match h n with
  | some cb => do
    let r ← cb x.2 toks
    .ok ((x.1, r.1), r.2)
  | none => do
    let r ← identCb A v x.1 toks
    .ok ((r.1, x.2), r.2)

/-- `AbstractIdentifiableXml::read`, l. 35-51. -/
def readElem {α β : Type} (A : Anon) (v : Ver) (root : String) (rd : List Tok → Out α) (h : Handler σ) (s0 : σ) (mk : Ident → α → σ → Out β) (toks : List Tok) : Out (β × List Tok) := do
  let hd ← readHead A v toks
  let a ← rd toks
  let r ← readUntilEnd (elemCb A v h) root (⟨hd, [], []⟩, s0) toks
  let b ← mk r.1.1 a r.1.2
  .ok (b, r.2)

/-- A sub element that is refused before version `min`: `assertMinimumVersion` on reading. -/
def onlySince (min v : Ver) (cb : Callback σ) : Callback σ := fun s toks => do
  readAssertMinimumVersion min v
  cb s toks

/-! ### Loading limits -/

/-- Active or apparent power limits, which only exist from version 1.5 on: `DanglingLineXml.cpp` l. 143-150, `LineXml.cpp` l. 95-115 and the same in the
other branches. -/
def limitsSince (K : XCodec) (c : Ctx) (el : String) : Option Limits.LL → Piece Cmd
  | none => plain []
  | some l => since el .v15 c (writeLimits K.toCodec el l)

/-- The limits of one side. -/
def limsElems (K : XCodec) (ctx : Ctx) (a p c : String) (l : Lims) : Piece Cmd :=
  limitsSince K ctx a l.active >+> limitsSince K ctx p l.apparent >+> plain (limitsElems K c l.current)

/-- `writeSubElements` of the branches. -/
def branchElems (K : XCodec) (c : Ctx) (l : BranchLims) : Piece Cmd :=
  limsElems K c "activePowerLimits1" "apparentPowerLimits1" "currentLimits1" l.one >+> limsElems K c "activePowerLimits2" "apparentPowerLimits2" "currentLimits2" l.two

/-- `DanglingLineXml.cpp` l. 79-88, `LineXml.cpp` l. 57-67: refused before version 1.5. -/
def limitsSub15 (K : XCodec) (v : Ver) (el : String) (set : σ → Limits.LL → σ) : Callback σ := onlySince .v15 v (limitsSub K el set)

/-- `readSubElements` of lines, tie lines and transformers: `LineXml.cpp` l. 55-79, `TieLineXml.cpp` l. 92-122. -/
def branchSub (K : XCodec) (v : Ver) : Handler BranchLims := fun n =>
  if n = "activePowerLimits1" then some (limitsSub15 K v "activePowerLimits1" fun s l => { s with one := { s.one with active := some l } })
  else if n = "apparentPowerLimits1" then some (limitsSub15 K v "apparentPowerLimits1" fun s l => { s with one := { s.one with apparent := some l } })
  else if n = "currentLimits1" then some (limitsSub K "currentLimits1" fun s l => { s with one := { s.one with current := some l } })
  else if n = "activePowerLimits2" then some (limitsSub15 K v "activePowerLimits2" fun s l => { s with two := { s.two with active := some l } })
  else if n = "apparentPowerLimits2" then some (limitsSub15 K v "apparentPowerLimits2" fun s l => { s with two := { s.two with apparent := some l } })
  else if n = "currentLimits2" then some (limitsSub K "currentLimits2" fun s l => { s with two := { s.two with current := some l } })
  else none

end Verif.XmlOld
