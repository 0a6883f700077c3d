import Verif.ExtXml.Model
import Verif.XmlNet.Net

/-!
The extensions of a network in its document: which of them are written, under which namespaces, and which of them are read.

Modelled code:
* `src/iidm/converter/xml/NetworkXml.cpp` l. 48-59, 61-69, 71-90, 92-115, 117-135, 137-167, 169-184, 186-200, 246-271, 300-337
* `src/iidm/converter/xml/ExtensionXmlSerializer.cpp` l. 26-51, `AbstractExtensionXmlSerializer.cpp` l. 18-29, `AbstractVersionableExtensionXmlSerializer.cpp` l. 30-81
* `src/iidm/ExtensionProviders.cpp` (`findProvider`, `findProviderOrThrowException`), `ExportOptions.cpp` l. 83-102, 116-126, 193-195, `ImportOptions.cpp` l. 49-51
* the names, the prefixes and the namespaces of the serializers of the repository, and their functions `isSerializable`: MeasurementsXmlSerializer.cpp l. 31-37,
  DiscreteMeasurementsXmlSerializer.cpp l. 31-37, SlackTerminalXmlSerializer.cpp l. 30-50

The serializers are parameters: `Ser` is what NetworkXml knows of one; the program that writes and the one that reads may have different ones (they are loaded from
libraries).  What the network that is read looks like from an object (`Network::get`) is a parameter as well.  The declarations of namespaces are not nodes of the
document (`Verif.Xml.Stream`).  `std::set` is a list without duplicates.
-/

namespace Verif.ExtNet

open Verif Verif.Xml Verif.XmlNet Verif.ExtXml

/-- The namespaces of a serializer: one (`AbstractExtensionXmlSerializer`), or one per version of the extension (`AbstractVersionableExtensionXmlSerializer`:
`m_extensionVersions`, by version of the network, and `m_namespaceUris`). -/
inductive Uris
  | one (uri : String)
  | many (compat : AMap String (List String)) (uris : AMap String String)
  deriving DecidableEq, Repr

/-- `ExtensionXmlSerializer`. -/
structure Ser (ε X : Type) where
  pre : String
  uris : Uris
  serializable : X → Bool
  write : X → Out Payload
  read : ε → List Tok → Out (X × List Tok)

/-- `ExtensionProviders::m_providers`. -/
abbrev Providers (ε X : Type) := AMap String (Ser ε X)

/-- `ExportOptions`, as far as extensions are concerned: `m_extensions`, `m_extensionsVersions`, `m_throwExceptionIfExtensionNotFound`, and the version of the
document. -/
structure WOpts where
  list : List String
  versions : AMap String String
  strict : Bool
  net : String
  deriving DecidableEq, Repr

/-- `ImportOptions`. -/
structure ROpts where
  list : List String
  strict : Bool
  deriving DecidableEq, Repr

/-- `withExtension`, ExportOptions.cpp l. 193-195, ImportOptions.cpp l. 49-51. -/
def withExt (list : List String) (n : String) : Bool := list.isEmpty || list.contains n

/-- `getExtensionVersion`, ExportOptions.cpp l. 96-102: empty if there is none. -/
def WOpts.version (o : WOpts) (n : String) : String := (o.versions.get? n).getD ""

/-- `hasAtLeastOneExtension`, ExportOptions.cpp l. 116-126. -/
def WOpts.atLeastOne (o : WOpts) (names : List String) : Bool := o.list.isEmpty || names.any fun n => o.list.contains n

/-- `addExtensionVersion`, ExportOptions.cpp l. 83-94. -/
def WOpts.addVersion (o : WOpts) (n v : String) : Out WOpts :=
  if !o.list.isEmpty && !o.list.contains n then .thrown
  else if (o.versions.get? n).isSome then .thrown
  else .ok { o with versions := o.versions.emplace n v }

/-- An identifiable of the network: whether it is written (`isExportedEquipment`), and its extensions. -/
structure Holder (X : Type) where
  id : String
  exported : Bool
  exts : List X
  deriving DecidableEq, Repr

/-! ### Namespaces -/

/-- `checkExtensionVersionSupported`, ExtensionXmlSerializer.cpp l. 26-30, AbstractVersionableExtensionXmlSerializer.cpp l. 30-34. -/
def Uris.supported (v : String) : Uris → Out Unit
  | .one _ => if v = "1.0" then .ok () else .thrown
  | .many _ us => if (us.get? v).isSome then .ok () else .thrown

/-- `getNamespaceUri(extensionVersion)`, AbstractVersionableExtensionXmlSerializer.cpp l. 65-72. -/
def uriOf (us : AMap String String) (v : String) : Out String :=
  match us.get? v with
  | some u => .ok u
  | none => .thrown

/-- `getNamespaceUri`, NetworkXml.cpp l. 92-115; `checkWritingCompatibility`, AbstractVersionableExtensionXmlSerializer.cpp l. 50-60; `getVersion`, l. 78-80: `at` throws,
`back` of an empty vector is undefined. -/
def Uris.choose (v net : String) : Uris → Out String
  | .one u => .ok u
  | .many compat us =>
    if v ≠ "" then do
      Uris.supported v (.many compat us)
      match compat.get? net with
      | none => .thrown
      | some vs => if vs.contains v then uriOf us v else .thrown
    else
      match compat.get? net with
      | none => .thrown
      | some vs =>
        match vs.getLast? with
        | none => .ub
        | some w => uriOf us w

variable {ε X : Type}

/-- A list as a set. -/
def uniq : List String → List String
  | [] => []
  | a :: l => if (uniq l).contains a then uniq l else a :: uniq l

/-- `getExtensionNames`, l. 61-69. -/
def extNames (nm : X → String) (hs : List (Holder X)) : List String := uniq (hs.flatMap fun h => h.exts.map nm)

/-- The loop of `writeExtensionNamespaces`, l. 144-166; `us` and `ps` are the namespaces and the prefixes that were met.  The prefixes and the namespaces that are
declared. -/
def nsLoop (P : Providers ε X) (o : WOpts) (us ps : List String) : List String → Out (List (String × String))
  | [] => .ok []
  | n :: ns =>
    if withExt o.list n then
      match P.get? n with
      | none => nsLoop P o us ps ns
      | some s => do
        let u ← s.uris.choose (o.version n) o.net
        if us.contains u then .thrown
        else if ps.contains s.pre then .thrown
        else do
          let r ← nsLoop P o (u :: us) (s.pre :: ps) ns
          .ok ((s.pre, u) :: r)
    else nsLoop P o us ps ns

/-- `writeExtensionNamespaces`, l. 137-167. -/
def namespaces (nm : X → String) (P : Providers ε X) (o : WOpts) (hs : List (Holder X)) : Out (List (String × String)) := nsLoop P o [] [] (extNames nm hs)

/-! ### Writing -/

/-- `getExtensionSerializer`, l. 71-90. -/
def pick (nm : X → String) (P : Providers ε X) (o : WOpts) (x : X) : Out (Option (Ser ε X)) :=
  if o.strict then
    match P.get? (nm x) with
    | none => .thrown
    | some s => .ok (some s)
  else
    match P.get? (nm x) with
    | none => .ok none
    | some s => .ok (if s.serializable x then some s else none)

/-- `writeExtension`, l. 169-184. -/
def writeOne (nm : X → String) (P : Providers ε X) (o : WOpts) (x : X) : Out (List Cmd) := do
  let s ← pick nm P o x
  match s with
  | none => .thrown
  | some s => do
    let _ ← if o.version (nm x) ≠ "" then s.uris.supported (o.version (nm x)) else .ok ()
    let p ← s.write x
    .ok (elemCmds (nm x) p.1 p.2)

/-- One turn of the loop of `writeExtensions`, l. 187-199. -/
def writeHolder (A : Anon) (nm : X → String) (P : Providers ε X) (o : WOpts) (h : Holder X) : Out (List Cmd) :=
  if !h.exported || h.exts.isEmpty || !o.atLeastOne (h.exts.map nm) then .ok []
  else (writeList (writeOne nm P o) (h.exts.filter fun x => withExt o.list (nm x))).map fun c => elemCmds "extension" [("id", A.anon h.id)] c

/-- `writeExtensions`, l. 186-200. -/
def writeSection (A : Anon) (nm : X → String) (P : Providers ε X) (o : WOpts) (hs : List (Holder X)) : Out (List Cmd) := writeList (writeHolder A nm P o) hs

/-- `NetworkXml::write`, l. 300-337, with the extensions. -/
def writeNetX {T : Type} (K : XCodec) (A : Anon) (D : Dates T) (nm : X → String) (P : Providers ε X) (o : WOpts) (x : Net T) (hs : List (Holder X)) : Out (List Cmd) := do
  let _ ← namespaces nm P o hs
  let s ← writeList (writeSubstation K A) x.subs
  let l ← writeList (writeAnyLine K A) x.lines
  let h ← writeList (writeHvdc K A) x.hvdcs
  let e ← writeSection A nm P o hs
  .ok (elemCmds "network" (netAttrs K D x) (identCmds A x.ident ++ (s ++ (l ++ (h ++ e)))))

/-! ### Reading -/

/-- What the reader of the extensions has done: the extensions given to the objects, in order (`addExtension`, see `Verif.Extend`), and the names of those that have no
serializer (`extensionsNotFound`). -/
structure Sect (X : Type) where
  got : List (String × X)
  missing : List String
  deriving DecidableEq, Repr

def Sect.empty : Sect X := ⟨[], []⟩

/-- `extensionsNotFound.insert`. -/
def insertName (n : String) (l : List String) : List String := if l.contains n then l else l ++ [n]

/-- `readUntilEndElement(extensionName, []() {})`. -/
def skip (n : String) (toks : List Tok) : Out (List Tok) := (readUntilEnd (fun (u : Unit) ts => .ok (u, ts)) n () toks).map (·.2)

/-- The callback of `readExtensions`, l. 120-134, for the object `id`. -/
def extCb (Q : Providers ε X) (o : ROpts) (id : String) (e : ε) : Callback (Sect X) := fun s toks => do
  let n ← localName toks
  if !withExt o.list n then do
    let r ← skip n toks
    .ok (s, r)
  else
    match Q.get? n with
    | some q => do
      let r ← q.read e toks
      .ok ({ s with got := s.got ++ [(id, r.1)] }, r.2)
    | none => do
      let r ← skip n toks
      .ok ({ s with missing := insertName n s.missing }, r)

/-- The element `extension` of a network, l. 262-265: `get` is `Network::get`. -/
def sectCb (A : Anon) (Q : Providers ε X) (o : ROpts) (get : String → Out ε) : Callback (Sect X) := fun s toks => do
  let i ← getS "id" toks
  let id ← A.dean i
  let e ← get id
  readUntilEnd (extCb Q o id e) "extension" s toks

/-- The callback of l. 248-269 but for aliases and properties, with extensions; `look` is the network that the elements read so far make. -/
def netSubX (K : XCodec) (A : Anon) (Q : Providers ε X) (o : ROpts) (look : NetSub → String → Out ε) : Handler (NetSub × Sect X) := fun n =>
  if n = "substation" then some (pushCb (readSubstation K A) fun s x => ({ s.1 with subs := s.1.subs ++ [x] }, s.2))
  else if n = "line" then some (pushCb (readLine K A) fun s x => ({ s.1 with lines := s.1.lines ++ [.line x] }, s.2))
  else if n = "tieLine" then some (pushCb (readTie K A) fun s x => ({ s.1 with lines := s.1.lines ++ [.tie x] }, s.2))
  else if n = "hvdcLine" then some (pushCb (readHvdc K A) fun s x => ({ s.1 with hvdcs := s.1.hvdcs ++ [x] }, s.2))
  else if n = "extension" then some fun s toks => do
    let r ← sectCb A Q o (look s.1) s.2 toks
    .ok ((s.1, r.1), r.2)
  else none

/-- `checkExtensionsNotFound`, l. 48-59. -/
def checkMissing (o : ROpts) (s : Sect X) : Out Unit := if !s.missing.isEmpty && o.strict then .thrown else .ok ()

/-- `NetworkXml::read`, l. 213-225, 246-271, with the extensions. -/
def readNetX {T : Type} (K : XCodec) (A : Anon) (D : Dates T) (Q : Providers ε X) (o : ROpts) (look : NetSub → String → Out ε) (toks : List Tok) : Out (Net T × Sect X) := do
  let id ← getS "id" toks
  let f ← getS "sourceFormat" toks
  let d ← optInt K "forecastDistance" toks
  let c ← getS "caseDate" toks
  let _ ← check (id == "" || f == "" || decide (d.getD 0 < 0))
  let t ← D.parse c
  let r ← readUntilEnd (elemCb A (netSubX K A Q o look)) "network" (⟨⟨id, id, false⟩, [], []⟩, (⟨[], [], []⟩, Sect.empty)) toks
  let _ ← checkMissing o r.1.2.2
  .ok (⟨r.1.1, f, d.getD 0, t, r.1.2.1.subs, r.1.2.1.lines, r.1.2.1.hvdcs⟩, r.1.2.2)

/-! ### The serializers of the repository -/

/-- The prefix and the namespaces that the constructors of the serializers give (l. 27-34 of each `.cpp`).  RemoteReactivePowerControl has no serializer. -/
def nsOf : Title → Option (String × Uris)
  | .data .activePower => some ("apc", .one "http://www.itesla_project.eu/schema/iidm/ext/active_power_control/1_0")
  | .data .reactive => some ("crc", .one "http://www.powsybl.org/schema/iidm/ext/coordinated_reactive_control/1_0")
  | .data .angleDroop => some ("hapc", .one "http://www.itesla_project.eu/schema/iidm/ext/hvdc_angle_droop_active_power_control/1_0")
  | .data .range => some ("hopr", .one "http://www.itesla_project.eu/schema/iidm/ext/hvdc_operator_active_power_range/1_0")
  | .data .clock2 => some ("twowtpac", .one "http://www.powsybl.org/schema/iidm/ext/two_windings_transformer_phase_angle_clock/1_0")
  | .data .clock3 => some ("threewtpac", .one "http://www.powsybl.org/schema/iidm/ext/three_windings_transformer_phase_angle_clock/1_0")
  | .data .slope => some ("vprpc", .one "http://www.powsybl.org/schema/iidm/ext/voltage_per_reactive_power_control/1_0")
  | .data .remote => none
  | .data .status => some ("bs", .one "http://www.powsybl.org/schema/iidm/ext/branch_status/1_0")
  | .data .busbar => some ("bbsp", .one "http://www.itesla_project.eu/schema/iidm/ext/busbarsectionposition/1_0")
  | .data .position => some ("cp", .one "http://www.itesla_project.eu/schema/iidm/ext/connectable_position/1_0")
  | .data .area => some ("ea", .one "http://www.itesla_project.eu/schema/iidm/ext/entsoe_area/1_0")
  | .data .merged => some ("mxn", .one "http://www.itesla_project.eu/schema/iidm/ext/merged_xnode/1_0")
  | .data .xnode => some ("xn", .one "http://www.itesla_project.eu/schema/iidm/ext/xnode/1_0")
  | .data .detail => some ("ld", .one "http://www.itesla_project.eu/schema/iidm/ext/load_detail/1_0")
  | .data .slack => some ("slt", .many [("1.3", ["1.0"]), ("1.4", ["1.1"]), ("1.5", ["1.2"])]
      [("1.0", "http://www.powsybl.org/schema/iidm/ext/slack_terminal/1_0"), ("1.1", "http://www.powsybl.org/schema/iidm/ext/slack_terminal/1_1"),
        ("1.2", "http://www.powsybl.org/schema/iidm/ext/slack_terminal/1_2")])
  | .meas => some ("m", .one "http://www.powsybl.org/schema/iidm/ext/measurements/1_0")
  | .disc => some ("dm", .one "http://www.powsybl.org/schema/iidm/ext/discrete_measurements/1_0")

/-- `isSerializable`: true by default (ExtensionXmlSerializer.cpp l. 49-51); measurements when there are some (MeasurementsXmlSerializer.cpp l. 34-37,
DiscreteMeasurementsXmlSerializer.cpp l. 34-37); a slack terminal when it is somewhere in the working variant, of index `i` (SlackTerminalXmlSerializer.cpp l. 44-50;
an index out of the vector is undefined: C78 shows that there is none). -/
def canWrite (i : Nat) : Ext → Bool
  | .meas ms => !ms.isEmpty
  | .disc ds => !ds.isEmpty
  | .data (.slack ts) => (ts[i]?).join.isSome
  | .data _ => true

/-- The serializer of an extension of the repository. -/
def serOf (K : XCodec) (A : Anon) (i : Nat) (t : Title) : Option (Ser REnv Ext) :=
  (nsOf t).map fun n => ⟨n.1, n.2, canWrite i, writeExt K A i, fun E => readExt K A E t⟩

/-- All the extensions. -/
def titles : List Title :=
  [.data .activePower, .data .reactive, .data .angleDroop, .data .range, .data .clock2, .data .clock3, .data .slope, .data .remote, .data .status, .data .busbar, .data .position,
    .data .area, .data .merged, .data .xnode, .data .detail, .data .slack, .meas, .disc]

/-- The serializers of some of the extensions: LoadDetail and SlackTerminal are always there (ExtensionProviders.cpp l. 29-33), the others come with the libraries that
are loaded (`createSerializers`). -/
def serializers (K : XCodec) (A : Anon) (i : Nat) (ts : List Title) : Providers REnv Ext := ts.filterMap fun t => (serOf K A i t).map fun s => (t.name, s)

/-- `getName`. -/
def extName (x : Ext) : String := x.title.name

end Verif.ExtNet
