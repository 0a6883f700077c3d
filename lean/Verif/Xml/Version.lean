import Verif.Common.Out

/-!
IIDM XML versions and the version dependent decisions of the readers and writers.

Modelled code:
* `src/iidm/converter/xml/IidmXmlVersion.cpp` l. 24-152
* `src/iidm/converter/xml/IidmXmlUtil.cpp` l. 36-162

Versions are objects compared by identity (`operator==` compares addresses); the six static objects are the six
constructors of `Ver`.  Strings are lists of characters.  A writer's document is a type `δ` together with the list
of errors that were logged; reading functions have no effect but an exception.
-/

namespace Verif.Xml

/-- The six static version objects, `IidmXmlVersion.cpp` l. 124-152. -/
inductive Ver
  | v10 | v11 | v12 | v13 | v14 | v15
  deriving DecidableEq, Repr

namespace Ver

/-- `m_domain`, l. 125-150. -/
def domain : Ver → List Char
  | v10 => "itesla_project.eu".toList
  | _ => "powsybl.org".toList

/-- `m_versionArray`, l. 125-150. -/
def numbers : Ver → List Nat
  | v10 => [1, 0]
  | v11 => [1, 1]
  | v12 => [1, 2]
  | v13 => [1, 3]
  | v14 => [1, 4]
  | v15 => [1, 5]

/-- `all`, l. 62-73. -/
def all : List Ver := [v10, v11, v12, v13, v14, v15]

/-- Offset of the iterator returned by `std::find` on `all()`; the length when nothing is found. -/
def position (v : Ver) : List Ver → Nat
  | [] => 0
  | w :: ws => if w = v then 0 else position v ws + 1

/-- `operator<`, l. 36-43. -/
def lt (v w : Ver) : Bool := decide (position v all < position w all)

/-- `operator<=`, l. 45-52. -/
def le (v w : Ver) : Bool := decide (position v all ≤ position w all)

/-- `operator>`, l. 54-56. -/
def gt (v w : Ver) : Bool := !le v w

/-- `operator>=`, l. 58-60. -/
def ge (v w : Ver) : Bool := !lt v w

/-- `boost::algorithm::join`. -/
def join (sep : List Char) : List (List Char) → List Char
  | [] => []
  | [a] => a
  | a :: b :: rest => a ++ sep ++ join sep (b :: rest)

/-- `toString`, l. 118-122. -/
def toStr (v : Ver) (sep : List Char) : List Char := join sep (v.numbers.map fun n => (Nat.repr n).toList)

/-- `getNamespaceUri`, l. 96-98. -/
def uri (v : Ver) : List Char := "http://www.".toList ++ v.domain ++ "/schema/iidm/".toList ++ v.toStr ['_']

/-- Loop of `of`, l. 109-113. -/
def ofLoop (s sep : List Char) : List Ver → Out Ver
  | [] => .thrown
  | v :: vs => if v.toStr sep = s then .ok v else ofLoop s sep vs

/-- `of`, l. 108-116. -/
def of (s sep : List Char) : Out Ver := ofLoop s sep all

/-- `s.substr(s.find_last_of('/') + 1)`: what follows the last slash, the whole string when there is none
(`npos + 1` is 0). -/
def afterSlash (s : List Char) : List Char := (s.reverse.takeWhile fun c => c != '/').reverse

/-- `fromNamespaceURI`, l. 79-89. -/
def fromNamespaceURI (s : List Char) : Out Ver :=
  match of (afterSlash s) ['_'] with
  | .ok v => if s ≠ v.uri then .thrown else .ok v
  | .thrown => .thrown
  | .ub => .ub

/-- `CURRENT_IIDM_XML_VERSION`, l. 75-77. -/
def current : Ver := v15

end Ver

/-- `IidmVersionIncompatibilityBehavior`; `other` is any value outside the enumeration. -/
inductive Behaviour
  | throwException | logError | other
  deriving DecidableEq, Repr

/-- What the helpers need of `NetworkXmlWriterContext`: the version and the option. -/
structure Ctx where
  version : Ver
  behaviour : Behaviour
  deriving DecidableEq, Repr

/-- What a writer has produced: a document and the errors logged so far (the names of the elements concerned,
last one first). -/
structure Written (δ : Type) where
  doc : δ
  log : List String
  deriving DecidableEq, Repr

variable {δ : Type}

/-- `createExceptionOrLogError`, `IidmXmlUtil.cpp` l. 44-58.  The message is reduced to the name of the element. -/
def createExceptionOrLogError (name : String) (c : Ctx) (w : Written δ) : Out (Written δ) :=
  match c.behaviour with
  | .throwException => .thrown
  | .logError => .ok { w with log := name :: w.log }
  | .other => .thrown

/-- `assertMaximumVersion` on writing, l. 66-70. -/
def assertMaximumVersion (name : String) (max : Ver) (c : Ctx) (w : Written δ) : Out (Written δ) :=
  if c.version.gt max then createExceptionOrLogError name c w else .ok w

/-- `assertMinimumVersion` on writing, l. 78-82. -/
def assertMinimumVersion (name : String) (min : Ver) (c : Ctx) (w : Written δ) : Out (Written δ) :=
  if c.version.lt min then createExceptionOrLogError name c w else .ok w

/-- `assertMinimumVersionIfNotDefault` on writing, l. 97-101. -/
def assertMinimumVersionIfNotDefault (notDefault : Bool) (name : String) (min : Ver) (c : Ctx) (w : Written δ) : Out (Written δ) :=
  if notDefault then assertMinimumVersion name min c w else .ok w

/-- `assertMinimumVersionAndRunIfNotDefault` on writing, l. 103-108. -/
def assertMinimumVersionAndRunIfNotDefault (notDefault : Bool) (name : String) (min : Ver) (run : δ → Out δ) (c : Ctx) (w : Written δ) : Out (Written δ) :=
  if notDefault then (assertMinimumVersion name min c w).bind fun w' => (run w'.doc).map fun d => { w' with doc := d } else .ok w

/-- `assertStrictMaximumVersion` on writing, l. 116-120. -/
def assertStrictMaximumVersion (name : String) (max : Ver) (c : Ctx) (w : Written δ) : Out (Written δ) :=
  if c.version.ge max then createExceptionOrLogError name c w else .ok w

/-- `runFromMinimumVersion`, l. 122-126. -/
def runFromMinimumVersion (min : Ver) (v : Ver) (run : σ → Out σ) (s : σ) : Out σ := if v.ge min then run s else .ok s

/-- `runUntilMaximumVersion`, l. 128-132. -/
def runUntilMaximumVersion (max : Ver) (v : Ver) (run : σ → Out σ) (s : σ) : Out σ := if v.le max then run s else .ok s

/-- `writeAttributeFromMinimumVersion`, l. 150-156 (and, with the test of the value, the boolean and double forms
l. 134-148). -/
def writeAttributeFromMinimumVersion (name : String) (notDefault : Bool) (min : Ver) (write : δ → Out δ) (c : Ctx) (w : Written δ) : Out (Written δ) :=
  if c.version.ge min then (write w.doc).map fun d => { w with doc := d }
  else assertMinimumVersionIfNotDefault notDefault name min c w

/-- `writeULongAttributeUntilMaximumVersion`, l. 158-162. -/
def writeAttributeUntilMaximumVersion (max : Ver) (write : δ → Out δ) (c : Ctx) (w : Written δ) : Out (Written δ) :=
  if c.version.le max then (write w.doc).map fun d => { w with doc := d } else .ok w

/-- `assertMaximumVersion` on reading, l. 60-64. -/
def readAssertMaximumVersion (max v : Ver) : Out Unit := if v.gt max then .thrown else .ok ()

/-- `assertMinimumVersion` on reading, l. 72-76. -/
def readAssertMinimumVersion (min v : Ver) : Out Unit := if v.lt min then .thrown else .ok ()

/-- `assertStrictMaximumVersion` on reading, l. 110-114. -/
def readAssertStrictMaximumVersion (max v : Ver) : Out Unit := if v.ge max then .thrown else .ok ()

/-- `assertMinimumVersionIfNotDefault` on reading, l. 91-95. -/
def readAssertMinimumVersionIfNotDefault (notDefault : Bool) (min v : Ver) : Out Unit :=
  if notDefault then readAssertMinimumVersion min v else .ok ()

/-- `assertMinimumVersionAndRunIfNotDefault` on reading, l. 84-89. -/
def readAssertMinimumVersionAndRunIfNotDefault (notDefault : Bool) (min v : Ver) (run : Out Unit) : Out Unit :=
  if notDefault then (readAssertMinimumVersion min v).bind fun _ => run else .ok ()

end Verif.Xml
