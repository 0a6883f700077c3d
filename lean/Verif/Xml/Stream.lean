import Verif.Common.Out
import Verif.Common.Dbl

/-!
XML documents as streams: what `XmlStreamWriter` produces and what `XmlStreamReader` sees.

Modelled code:
* `src/xml/XmlStreamWriter.cpp` l. 39-136, 188-194
* `src/xml/XmlStreamReader.cpp` l. 60-109, 120-127, 150-238, 251-314

The characters of the document are not modelled: libxml2 (writer then reader) is trusted to turn the calls into the
nodes described by `wstep`: an element without content is an empty element, blank nodes come from indentation only,
a text that is empty or blank is not a text node.  Names are local names (the prefix is the same everywhere).
A reader is the list of the nodes from the current one on.
-/

namespace Verif.Xml

open Verif

/-- A node, as `xmlTextReaderRead` reports it. -/
inductive Tok
  | start (name : String) (attrs : List (String × String)) (empty : Bool)
  | text (s : String)
  | blank
  | stop (name : String)
  deriving DecidableEq, Repr

/-- A call to the writer. -/
inductive Cmd
  | start (name : String)
  | attr (k v : String)
  | chars (s : String)
  | stop
  deriving DecidableEq, Repr

/-- State of the libxml2 writer: nodes written, open elements (innermost first), and the attributes of the start tag
that is still open, if any. -/
structure W where
  out : List Tok
  stack : List String
  tag : Option (List (String × String))
  deriving DecidableEq, Repr

/-- The nodes once the open start tag, if any, is closed with `>`. -/
def W.closed (w : W) : List Tok :=
  match w.tag, w.stack with
  | some a, n :: _ => w.out ++ [.start n a false]
  | _, _ => w.out

/-- Indentation. -/
def sp (indent : Bool) : List Tok := if indent then [.blank] else []

/-- XML white space only. -/
def Blank (s : String) : Prop := ∀ c ∈ s.toList, c = ' ' ∨ c = '\t' ∨ c = '\n' ∨ c = '\r'

instance (s : String) : Decidable (Blank s) := inferInstanceAs (Decidable (∀ c ∈ s.toList, _))

/-- Nodes of a text content. -/
def textToks (s : String) : List Tok := if s = "" then [] else if Blank s then [.blank] else [.text s]

/-- Indentation before an end tag: none just after a start tag or a text. -/
def endIndent (indent : Bool) (out : List Tok) : List Tok :=
  match out.getLast? with
  | some (.stop _) => sp indent
  | some (.start _ _ true) => sp indent
  | _ => []

/-- One call: `writeStartElement` l. 188-194, `writeAttribute` l. 57-62, `writeCharacters` l. 72-77, `writeEndElement` l. 90-95.
An attribute outside of a start tag, a text or an end tag without open element are errors of libxml2 (the code throws). -/
def wstep (indent : Bool) (w : W) : Cmd → Out W
  | .start n => .ok ⟨w.closed ++ sp indent, n :: w.stack, some []⟩
  | .attr k v =>
    match w.tag with
    | some a => .ok { w with tag := some (a ++ [(k, v)]) }
    | none => .thrown
  | .chars s =>
    match w.stack with
    | [] => .thrown
    | _ :: _ => .ok ⟨w.closed ++ textToks s, w.stack, none⟩
  | .stop =>
    match w.stack, w.tag with
    | [], _ => .thrown
    | n :: st, some a => .ok ⟨w.out ++ [.start n a true], st, none⟩
    | n :: st, none => .ok ⟨w.out ++ endIndent indent w.out ++ [.stop n], st, none⟩

/-- A sequence of calls. -/
def wrun (indent : Bool) (w : W) : List Cmd → Out W
  | [] => .ok w
  | c :: cs => (wstep indent w c).bind fun w' => wrun indent w' cs

/-! ### Values -/

/-- `stdcxx::to_string(double)` and `std::stod`, `std::to_string(unsigned long)` and `std::stoul`: not modelled, given. -/
structure Codec where
  showD : Dbl → String
  readD : String → Out Dbl
  showN : Nat → String
  readN : String → Out Nat

/-- The double is read back as it was written.  (True of every double but the subnormal ones, for which `std::stod` throws.) -/
def Codec.Exact (K : Codec) (d : Dbl) : Prop := K.readD (K.showD d) = .ok d

/-- Numbers of 64 bits are read back. -/
def Codec.Naturals (K : Codec) : Prop := ∀ n, n < 2 ^ 64 → K.readN (K.showN n) = .ok n

/-- Calls writing attributes. -/
def attrCmds (as : List (String × String)) : List Cmd := as.map fun p => .attr p.1 p.2

/-- Calls writing an element: start, attributes, content, end. -/
def elemCmds (n : String) (as : List (String × String)) (body : List Cmd) : List Cmd := .start n :: (attrCmds as ++ (body ++ [.stop]))

/-- `writeAttribute(double)`, l. 47-51. -/
def attrD (K : Codec) (k : String) (d : Dbl) : List (String × String) := if d.isNan then [] else [(k, K.showD d)]

/-- `stdcxx::isEqual` (math.hpp l. 42-48). -/
def isEqual (a b : Dbl) : Bool := if xor a.isNan b.isNan then false else !(Dbl.lt a b || Dbl.lt b a)

/-- `writeOptionalAttribute(double, absentValue)`, l. 113-117. -/
def attrOptD (K : Codec) (k : String) (d absent : Dbl) : List (String × String) :=
  if !d.isNan && !isEqual d absent then [(k, K.showD d)] else []

/-- `writeAttribute(bool)`, l. 39-41. -/
def attrB (k : String) (b : Bool) : List (String × String) := [(k, if b then "true" else "false")]

/-- `writeOptionalAttribute(bool, absentValue)`, l. 97-101. -/
def attrOptB (k : String) (b absent : Bool) : List (String × String) := if b ≠ absent then attrB k b else []

/-- `writeAttribute(unsigned long)`, l. 68-70. -/
def attrN (K : Codec) (k : String) (n : Nat) : List (String × String) := [(k, K.showN n)]

/-- `writeOptionalAttribute(unsigned long, absentValue)`, l. 125-129. -/
def attrOptN (K : Codec) (k : String) (n absent : Nat) : List (String × String) := if n ≠ absent then attrN K k n else []

/-! ### Reader -/

/-- `xmlTextReaderGetAttribute`. -/
def lookup (k : String) : List (String × String) → Option String
  | [] => none
  | (k', v) :: rest => if k' = k then some v else lookup k rest

/-- `getAttributeValue(name, throwException)`, l. 100-109: the current node has to be an element. -/
def rawAttr (k : String) : List Tok → Out (Option String)
  | .start _ attrs _ :: _ => .ok (lookup k attrs)
  | _ => .thrown

/-- `getAttributeValue` of a string, l. 95-98. -/
def getS (k : String) (ts : List Tok) : Out String :=
  (rawAttr k ts).bind fun
    | some v => .ok v
    | none => .thrown

/-- `getAttributeValue` of a double, l. 71-75. -/
def getD (K : Codec) (k : String) (ts : List Tok) : Out Dbl := (getS k ts).bind K.readD

/-- `getAttributeValue` of an unsigned long, l. 89-93: a missing attribute makes a `std::string` from a null pointer. -/
def getN (K : Codec) (k : String) (ts : List Tok) : Out Nat :=
  (rawAttr k ts).bind fun
    | some v => K.readN v
    | none => .ub

/-- `boost::iequals(s, "true")`. -/
def isTrue (s : String) : Bool := s.toList.map Char.toLower == ['t', 'r', 'u', 'e']

/-- `getAttributeValue` of a boolean, l. 65-69: as above for a missing attribute. -/
def getB (k : String) (ts : List Tok) : Out Bool :=
  (rawAttr k ts).bind fun
    | some v => .ok (isTrue v)
    | none => .ub

/-- `getOptionalAttributeValue` of a string, l. 198-208. -/
def optS (k : String) (ts : List Tok) : Out (Option String) := rawAttr k ts

/-- `getOptionalAttributeValue(name, default)` of a string, l. 215-218, 235-238. -/
def optSOr (k : String) (d : String) (ts : List Tok) : Out String :=
  (rawAttr k ts).bind fun
    | some v => .ok v
    | none => .ok d

/-- `getOptionalAttributeValue` of an unsigned long, l. 186-196. -/
def optN (K : Codec) (k : String) (ts : List Tok) : Out (Option Nat) :=
  (rawAttr k ts).bind fun
    | some v => (K.readN v).map some
    | none => .ok none

/-- `getOptionalAttributeValue(name, default)` of an unsigned long, l. 230-233. -/
def optNOr (K : Codec) (k : String) (d : Nat) (ts : List Tok) : Out Nat := (optN K k ts).map fun o => o.getD d

/-- `getOptionalAttributeValue(name, default)` of a double, l. 174-184, 225-228. -/
def optDOr (K : Codec) (k : String) (d : Dbl) (ts : List Tok) : Out Dbl :=
  (rawAttr k ts).bind fun
    | some v => K.readD v
    | none => .ok d

/-- `getOptionalAttributeValue(name, default)` of a boolean, l. 150-160, 210-213. -/
def optBOr (k : String) (d : Bool) (ts : List Tok) : Out Bool :=
  (rawAttr k ts).bind fun
    | some v => .ok (isTrue v)
    | none => .ok d

/-- `readCharacters`, l. 251-260, 267-270: moves to the next node, which has to be a text. -/
def readCharacters : List Tok → Out (String × List Tok)
  | _ :: .text s :: rest => .ok (s, .text s :: rest)
  | _ => .thrown

/-- `getLocalName`, l. 120-127. -/
def localName : List Tok → Out String
  | .start n _ _ :: _ => .ok n
  | .stop n :: _ => .ok n
  | .text _ :: _ => .ok "#text"
  | .blank :: _ => .ok "#text"
  | [] => .thrown

/-- A callback reads from the current node and leaves the reader on some node. -/
abbrev Callback (σ : Type) := σ → List Tok → Out (σ × List Tok)

/-- Loop of `readUntilEndElement`, l. 296-307.  `fuel` bounds the number of nodes looked at; running out of it is `ub`, which
never happens with as much fuel as there are nodes provided the callback only moves forward. -/
def loop {σ : Type} (cb : Callback σ) (name : String) : Nat → σ → List Tok → Out (σ × List Tok)
  | 0, _, _ => .ub
  | _ + 1, _, [] => .thrown
  | fuel + 1, s, .stop n :: rest => if n = name then .ok (s, .stop n :: rest) else loop cb name fuel s rest
  | fuel + 1, s, .start n a e :: rest =>
    match cb s (.start n a e :: rest) with
    | .ok (s', ts') => loop cb name fuel s' ts'.tail
    | .thrown => .thrown
    | .ub => .ub
  | fuel + 1, s, .text _ :: rest => loop cb name fuel s rest
  | fuel + 1, s, .blank :: rest => loop cb name fuel s rest

/-- `readUntilEndElement`, l. 276-314. -/
def readUntilEnd {σ : Type} (cb : Callback σ) (name : String) (s : σ) : List Tok → Out (σ × List Tok)
  | .start n a true :: rest => .ok (s, .start n a true :: rest)
  | _ :: rest => loop cb name (rest.length + 1) s rest
  | [] => .thrown

end Verif.Xml
