import Verif.XmlNet.Levels
import Verif.XmlNet.Branches

/-!
The whole document: `NetworkXml::read` and `NetworkXml::write`, in version 1.5, without extensions and with the bus filter that keeps every bus (the
default of `ExportOptions`).

Modelled code:
* `src/iidm/converter/xml/NetworkXml.cpp` l. 202-282, 284-351
* `src/iidm/Network.cpp` l. 72-80, 677-680, `src/iidm/ValidationUtils.cpp` (`checkForecastDistance`)

What needs the rest of the network (names, nodes, buses, references) is checked in `Verif.XmlNet.Admit`.  Dates are a parameter.
-/

namespace Verif.XmlNet

open Verif Verif.Xml

/-- `stdcxx::DateTime` and its `toString` and `parse`: not modelled, given. -/
structure Dates (T : Type) where
  print : T → String
  parse : String → Out T

/-- A date is read back. -/
def Dates.Exact {T : Type} (D : Dates T) (d : T) : Prop := D.parse (D.print d) = .ok d

/-- Tie lines are lines (`Network::getLines`). -/
inductive AnyLine
  | line (x : Line)
  | tie (x : TieLine)
  deriving DecidableEq, Repr

/-- A network: `ident.head` holds the identifier, the name (the identifier, Network.cpp l. 73) and the fictitious flag. -/
structure Net (T : Type) where
  ident : Ident
  sourceFormat : String
  forecast : Int
  date : T
  subs : List Substation
  lines : List AnyLine
  hvdcs : List HvdcLine
  deriving DecidableEq, Repr

/-- l. 322-331. -/
def writeAnyLine (K : XCodec) (A : Anon) : AnyLine → Out (List Cmd)
  | .line x => writeLine K A x
  | .tie x => writeTie K A x

/-- l. 308-311: the identifier is not anonymized. -/
def netAttrs {T : Type} (K : XCodec) (D : Dates T) (x : Net T) : List (String × String) :=
  [("id", x.ident.head.id), ("caseDate", D.print x.date)] ++ attrI K "forecastDistance" x.forecast ++ [("sourceFormat", x.sourceFormat)]

/-- `NetworkXml::write`, l. 303-343.  An error of any writer makes the export fail. -/
def writeNet {T : Type} (K : XCodec) (A : Anon) (D : Dates T) (x : Net T) : Out (List Cmd) := do
  let s ← writeList (writeSubstation K A) x.subs
  let l ← writeList (writeAnyLine K A) x.lines
  let h ← writeList (writeHvdc K A) x.hvdcs
  .ok (elemCmds "network" (netAttrs K D x) (identCmds A x.ident ++ (s ++ (l ++ h))))

/-- The nodes of the document that these calls make; the reader is on the first element: the white space before it is not a node. -/
def document (i : Bool) (cs : List Cmd) : Out (List Tok) := (wrun i ⟨[], [], none⟩ cs).map fun w => w.out.drop (sp i).length

structure NetSub where
  subs : List Substation
  lines : List AnyLine
  hvdcs : List HvdcLine
  deriving DecidableEq, Repr

/-- The callback of l. 248-269, but for aliases and properties (which `elemCb` reads) and extensions. -/
def netSub (K : XCodec) (A : Anon) : Handler NetSub := fun n =>
  if n = "substation" then some (pushCb (readSubstation K A) fun s x => { s with subs := s.subs ++ [x] })
  else if n = "line" then some (pushCb (readLine K A) fun s x => { s with lines := s.lines ++ [.line x] })
  else if n = "tieLine" then some (pushCb (readTie K A) fun s x => { s with lines := s.lines ++ [.tie x] })
  else if n = "hvdcLine" then some (pushCb (readHvdc K A) fun s x => { s with hvdcs := s.hvdcs ++ [x] })
  else none

/-- `NetworkXml::read`, l. 213-217, 248-269: the network is made first (Network.cpp l. 72-80: the source format is not empty), with its identifier as
name and a forecast distance that is not negative (l. 677-680).  An error of `DateTime::parse` becomes another exception. -/
def readNet {T : Type} (K : XCodec) (A : Anon) (D : Dates T) (toks : List Tok) : Out (Net T) := do
  let id ← getS "id" toks
  let f ← getS "sourceFormat" toks
  let d ← optInt K "forecastDistance" toks
  let c ← getS "caseDate" toks
  let _ ← check (id == "" || f == "" || decide (d.getD 0 < 0))
  let t ← D.parse c
  let r ← readUntilEnd (elemCb A (netSub K A)) "network" (⟨⟨id, id, false⟩, [], []⟩, ⟨[], [], []⟩) toks
  .ok ⟨r.1.1, f, d.getD 0, t, r.1.2.subs, r.1.2.lines, r.1.2.hvdcs⟩

end Verif.XmlNet
