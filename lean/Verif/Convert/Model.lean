import Verif.Common.Out
import Verif.Common.AMap

/-! Model of the conversion parameters and options (ConversionParameters.cpp, Parameter.cpp, ExportOptions.cpp, ImportOptions.cpp).

A `std::string` is a `List Char` (one `Char` per byte). -/

namespace Verif.Convert

open Verif

abbrev Str := List Char

/-- Properties given by the user. -/
abbrev Properties := AMap Str Str

/-- `Parameter` (Parameter.hpp): the names of which the first is the main one, and the default value. -/
structure Parameter where
  name : Str
  additional : List Str
  default : Str
  deriving DecidableEq, Repr

/-- `getNames` (Parameter.cpp l.48-50). -/
def Parameter.names (p : Parameter) : List Str := p.name :: p.additional

/-- ASCII lower case, as `boost::iequals` compares in the classic locale. -/
def lower (c : Char) : Char := if 'A' ≤ c ∧ c ≤ 'Z' then Char.ofNat (c.toNat + 32) else c

/-- `boost::iequals`. -/
def iequals (a b : Str) : Bool := a.map lower == b.map lower

/-- `boost::split(values, s, is_any_of(",:"))`. -/
def split : Str → Str → List Str
  | cur, [] => [cur]
  | cur, c :: cs => if c = ',' ∨ c = ':' then cur :: split [] cs else split (cur ++ [c]) cs

/-- Loop over the names common to the four functions. -/
def readFirst : List Str → Properties → Option Str
  | [], _ => none
  | n :: ns, ps => match ps.get? n with
    | some v => some v
    | none => readFirst ns ps

/-- `readBooleanParameter` (ConversionParameters.cpp l.24-31); `getBooleanDefaultValue` is Parameter.cpp l.32-34. -/
def readBoolean (ps : Properties) (p : Parameter) : Bool :=
  match readFirst p.names ps with
  | some v => iequals v "true".toList
  | none => iequals p.default "true".toList

/-- `readDoubleParameter` (ConversionParameters.cpp l.33-40); `stod` is `std::stod`. -/
def readDouble (stod : Str → Out δ) (ps : Properties) (p : Parameter) : Out δ :=
  match readFirst p.names ps with
  | some v => stod v
  | none => stod p.default

/-- `readStringListParameter` (ConversionParameters.cpp l.42-50); `getStringListDefaultValue` is Parameter.cpp l.56-62. -/
def readStringList (ps : Properties) (p : Parameter) : List Str :=
  match readFirst p.names ps with
  | some v => split [] v
  | none => if p.default = [] then [] else split [] p.default

/-- `readStringParameter` (ConversionParameters.cpp l.52-59). -/
def readString (ps : Properties) (p : Parameter) : Str :=
  match readFirst p.names ps with
  | some v => v
  | none => p.default

/-- The part of `ExportOptions` about extensions: `m_extensions` (a set, as a list) and `m_extensionsVersions`. -/
structure Options where
  extensions : List Str
  versions : AMap Str Str
  deriving DecidableEq, Repr

/-- `EXTENSIONS_LIST_PARAMETER` (ExportOptions.cpp l.40, ImportOptions.cpp l.21), with its name as parameter. -/
def extensionsParameter (name : Str) : Parameter := ⟨name, [], []⟩

/-- Constructor from properties (ExportOptions.cpp l.66-76, ImportOptions.cpp l.25-28), for the extensions. -/
def Options.ofProperties (ps : Properties) (name : Str) : Options := ⟨readStringList ps (extensionsParameter name), []⟩

/-- `addExtension` (ExportOptions.cpp l.78-81, ImportOptions.cpp l.30-33). -/
def Options.addExtension (e : Str) (o : Options) : Options := { o with extensions := if e ∈ o.extensions then o.extensions else e :: o.extensions }

/-- `withExtension` (ExportOptions.cpp l.193-195, ImportOptions.cpp l.49-51). -/
def Options.withExtension (e : Str) (o : Options) : Bool := o.extensions.isEmpty || decide (e ∈ o.extensions)

/-- `hasAtLeastOneExtension` (ExportOptions.cpp l.116-126), for the names of the extensions of an object. -/
def Options.hasAtLeastOne (es : List Str) (o : Options) : Bool :=
  if o.extensions.isEmpty then true else es.any fun e => decide (e ∈ o.extensions)

/-- `addExtensionVersion` (ExportOptions.cpp l.83-94). -/
def Options.addVersion (e v : Str) (o : Options) : Out Unit × Options :=
  if !o.extensions.isEmpty && !decide (e ∈ o.extensions) then (.thrown, o)
  else match o.versions.get? e with
    | some _ => (.thrown, o)
    | none => (.ok (), { o with versions := o.versions.emplace e v })

/-- `getExtensionVersion` (ExportOptions.cpp l.96-102): the empty string when none was set. -/
def Options.getVersion (e : Str) (o : Options) : Str :=
  match o.versions.get? e with
  | some v => v
  | none => []

end Verif.Convert
