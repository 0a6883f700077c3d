import Verif.Build.Props

/-!
A network that is built from nothing, for the theorems of C98: a node/breaker voltage level and a bus/breaker one, with an injection of every kind, transformers, lines and
an HVDC line.  Some calls are refused on the way.
-/

namespace Verif.Build

open Verif Verif.Xml Verif.XmlNet Verif.Setters Verif.ReadBack

def named (n : String) : Base := ⟨n, "", false, false⟩
def atNode (n : Nat) : Adders.Args := ⟨some n, "", ""⟩
def atBus (b : String) : Adders.Args := ⟨none, b, ""⟩
def noIdent : Ident := ⟨⟨"", "", false⟩, [], []⟩
def noTerm : Term := newTerm (.node 0)
def noSide : Side := ⟨"", noTerm⟩

def aGen (r : Option Ref) : Gen := ⟨noIdent, 0, 0, 100, .nan, false, 50, 225, .nan, noTerm, r, defaultReactive⟩
def aBat : Bat := ⟨noIdent, 1, 2, 0, 10, noTerm, defaultReactive⟩
def aLoad : Load := ⟨noIdent, 1, 30, 10, noTerm⟩
def aSh : Sh := ⟨noIdent, .linear 0 0 0, ⟨0, false, .nan, .nan⟩, noTerm, none⟩
def aDl : Dl := ⟨noIdent, 1, 2, 3, 4, 5, 6, some ⟨.nan, 10, false, 5, .nan, 1, defaultReactive⟩, "", noTerm, none, none, none⟩
def aSvc : Svc := ⟨noIdent, 0, 10, .nan, .nan, 0, noTerm, none⟩
def aVsc : Vsc := ⟨noIdent, false, 1, .nan, 3, noTerm, defaultReactive⟩
def aLcc : Lcc := ⟨noIdent, 1, 1, noTerm⟩
def aTw2 : Tw2 := ⟨noIdent, 1, 2, 3, 4, 225, 400, .nan, noSide, noSide, none, none, ⟨noLims, noLims⟩⟩
def aLeg (v : String) (a : Adders.Args) : LegArgs := ⟨⟨1, 2, 3, 4, 225, .nan⟩, v, a⟩
def aCharac : Charac := ⟨1, 2, 3, 4, 5, 6⟩
def aHvdc : HvdcLine := ⟨noIdent, 1, 400, 0, 10, 100, "C1", "C2"⟩

def inV1 (o : VLAdd) : Call String := .add (.sub 0 (.vl 0 o))
def inV2 (o : VLAdd) : Call String := .add (.sub 0 (.vl 1 o))

/-- The structure: a substation, its voltage levels, and what is in them.  The second bus of the same name is refused, as is the bus of the node/breaker voltage level. -/
def skeleton : List (Call String) :=
  [.add (.substation (named "P") (some 0) "tso" ["b", "a", "b"]), .add (.sub 0 (.level (named "V1") 225 .nan 250 (some 0))), .add (.sub 0 (.level (named "V2") 400 380 420 (some 1))),
    inV1 (.busbar (named "BBS") (some 0)), inV1 (.nodeSwitch (named "SW") (some 0) (some 1) (some 0) false true), inV1 (.connection (some 1) (some 2)), inV1 (.bus (named "X")),
    inV2 (.bus (named "B")), inV2 (.bus (named "B")), inV2 (.bus ⟨"B", "other", false, true⟩), inV2 (.busSwitch (named "BS") "B" "B#0" true)]

/-- The equipment; the load that has no active power is refused. -/
def equipment : List (Call String) :=
  [inV2 (.load (named "L") (atBus "B") aLoad), inV2 (.load (named "L2") (atBus "B") { aLoad with p0 := .nan }), inV2 (.bat (named "BAT") (atBus "B") aBat),
    inV2 (.sh (named "SH") (atBus "B") (some 1) (some (.linear 1 2 (some 3))) true aSh), inV2 (.dl (named "DL") (atBus "B#0") aDl), inV2 (.svc (named "SVC") (atBus "B") (some 2) true aSvc),
    inV2 (.vsc (named "C1") (atBus "B") (some false) aVsc), inV1 (.lcc (named "C2") (atNode 3) aLcc),
    .add (.sub 0 (.tw2 (named "T") ("V1", atNode 4) ("V2", atBus "B") aTw2)),
    .add (.sub 0 (.tw3 (named "T3") (some (aLeg "V1" (atNode 5))) (some (aLeg "V2" (atBus "B"))) (some (aLeg "V2" (atBus "B#0"))) .nan)),
    .add (.line (named "LN") ("V1", atNode 6) ("V2", atBus "B") aCharac),
    .add (.tie (named "TL") ("V1", atNode 7) ("V2", atBus "B") "ucte" (some ⟨"H1", "", false, aCharac⟩) (some ⟨"H2", "half", true, aCharac⟩)),
    .add (.hvdc (named "H") (some 0) aHvdc)]

/-- Then a generator that regulates the voltage of the second side of the transformer, and a setter. -/
def regulation : List (Call String) :=
  [inV1 (.gen (named "G") (atNode 1) (some true) true (aGen (some ⟨"T", "TWO"⟩))), .set (.sub 0 (.vl 1 (.load 0 (.setP0 40))))]

def emptyNet : Net String := ⟨⟨⟨"N", "N", false⟩, [], []⟩, "test", 0, "2026-11-18", [], [], []⟩

def skeletonV1 : VL := ⟨⟨⟨"V1", "", false⟩, [], []⟩, 225, .nan, 250, .node [⟨(named "BBS").ident "BBS", 0⟩] [⟨(named "SW").ident "SW", 0, true, false, 0, 1⟩] [(1, 2)] [], noEquip⟩
def skeletonV2 : VL := ⟨⟨⟨"V2", "", false⟩, [], []⟩, 400, 380, 420,
  .bus [⟨(named "B").ident "B", .nan, .nan⟩, ⟨⟨⟨"B#0", "other", false⟩, [], []⟩, .nan, .nan⟩] [⟨(named "BS").ident "BS", true, "B", "B#0"⟩], noEquip⟩

def skeletonNet : Net String := { emptyNet with subs := [⟨⟨⟨"P", "", false⟩, [], []⟩, some 0, "tso", ["a", "b"], [skeletonV1, skeletonV2], [], []⟩] }

def busTerm (b : String) : Term := ⟨.bus b true, .nan, .nan⟩
def nodeTerm (n : Nat) : Term := ⟨.node n, .nan, .nan⟩
def ident (n : String) : Ident := ⟨⟨n, "", false⟩, [], []⟩

def equippedV1 : VL := { skeletonV1 with equip := { noEquip with lccs := [{ aLcc with ident := ident "C2", term := nodeTerm 3 }] } }
def equippedV2 (p0 : Dbl) : VL := { skeletonV2 with equip := { noEquip with
  loads := [{ aLoad with ident := ident "L", term := busTerm "B", p0 := p0 }], bats := [{ aBat with ident := ident "BAT", term := busTerm "B" }],
  shs := [⟨ident "SH", .linear 1 2 3, ⟨1, false, .nan, .nan⟩, busTerm "B", none⟩],
  dls := [{ aDl with ident := ident "DL", term := busTerm "B#0", gen := some ⟨.fin (-Dbl.maxRat), 10, false, 5, .nan, 1, defaultReactive⟩ }],
  svcs := [{ aSvc with ident := ident "SVC", term := busTerm "B", mode := 2 }], vscs := [{ aVsc with ident := ident "C1", term := busTerm "B" }] } }

def equippedNet (v1 : VL) (p0 : Dbl) : Net String := { emptyNet with
  subs := [⟨⟨⟨"P", "", false⟩, [], []⟩, some 0, "tso", ["a", "b"], [v1, equippedV2 p0],
    [{ aTw2 with ident := ident "T", side1 := ⟨"V1", nodeTerm 4⟩, side2 := ⟨"V2", busTerm "B"⟩ }],
    [⟨ident "T3", newLeg (aLeg "" (atNode 0)).z ⟨"V1", nodeTerm 5⟩, newLeg (aLeg "" (atNode 0)).z ⟨"V2", busTerm "B"⟩, newLeg (aLeg "" (atNode 0)).z ⟨"V2", busTerm "B#0"⟩, 225⟩]⟩]
  lines := [.line ⟨ident "LN", aCharac, ⟨"V1", nodeTerm 6⟩, ⟨"V2", busTerm "B"⟩, ⟨noLims, noLims⟩⟩,
    .tie ⟨ident "TL", "ucte", ⟨"H1", "H1", false, aCharac⟩, ⟨"H2", "half", true, aCharac⟩, ⟨"V1", nodeTerm 7⟩, ⟨"V2", busTerm "B"⟩, ⟨noLims, noLims⟩⟩]
  hvdcs := [{ aHvdc with ident := ident "H", mode := 0 }] }

def builtV1 : VL := { equippedV1 with equip := { equippedV1.equip with gens := [{ aGen (some ⟨"T", "TWO"⟩) with ident := ident "G", term := nodeTerm 1, on := true }] } }

def builtNet : Net String := equippedNet builtV1 40

theorem emptyNet_new : newNet "N" "test" "2026-11-18" = .ok emptyNet := by decide +kernel

theorem skeleton_run : runCalls emptyNet skeleton = .ok skeletonNet := by decide +kernel

theorem equipment_run : runCalls skeletonNet equipment = .ok (equippedNet equippedV1 30) := by decide +kernel

theorem regulation_run : runCalls (equippedNet equippedV1 30) regulation = .ok builtNet := by decide +kernel

end Verif.Build
