import Verif.XmlNet.PlainLemmas
import Verif.XmlNet.InjectionsProps

/-!
C68: every equipment with several terminals, written in version 1.5, is read back as it was: lines, tie lines, HVDC lines, transformers with their
tap changers and the limits of each side.
-/

namespace Verif.XmlNet

open Verif Verif.Xml

/-- A value that the adder requires, which is read back. -/
def Num (K : XCodec) (d : Dbl) : Prop := d.isNan = false ∧ K.Keeps d

theorem toyX_num {d : Dbl} (h : d.isNan = false) : Num toyX d := ⟨h, toyX_keeps d⟩

/-! ### Lines -/

/-- What holds of the values of every line and half line (`LineAdder.cpp` l. 33-38, `HalfLineAdder.cpp` l. 29-46). -/
structure CharacOk (K : XCodec) (z : Charac) : Prop where
  r : Num K z.r
  x : Num K z.x
  g1 : Num K z.g1
  b1 : Num K z.b1
  g2 : Num K z.g2
  b2 : Num K z.b2

structure LineOk (K : XCodec) (A : Anon) (y : Line) : Prop where
  ident : IdentOk A y.ident
  z : CharacOk K y.z
  side1 : BranchSideOk K A y.side1
  side2 : BranchSideOk K A y.side2
  one : LimsOk K y.lims.one
  two : LimsOk K y.lims.two

macro "lks " t:ident : tactic =>
  `(tactic| simp [$t:ident, lookup_append, lookup_cons, lookup_nil, lookup_attrD, lookup_attrB, lookup_attrOptB, lookup_attrN, lookup_attrI, lookup_headAttrs, lookup_place, lookup_ite, pqAttrs, sideAttrs, sidesAttrs, characAttrs, halfAttrs, legAttrs])

theorem readCharac_at {K : XCodec} {s n : String} {as : List (String × String)} {z : Charac} (hz : CharacOk K z)
    (h1 : lookup ("r" ++ s) as = if z.r.isNan then none else some (K.showD z.r)) (h2 : lookup ("x" ++ s) as = if z.x.isNan then none else some (K.showD z.x))
    (h3 : lookup ("g1" ++ s) as = if z.g1.isNan then none else some (K.showD z.g1)) (h4 : lookup ("b1" ++ s) as = if z.b1.isNan then none else some (K.showD z.b1))
    (h5 : lookup ("g2" ++ s) as = if z.g2.isNan then none else some (K.showD z.g2)) (h6 : lookup ("b2" ++ s) as = if z.b2.isNan then none else some (K.showD z.b2))
    (e : Bool) (rest : List Tok) : readCharac K s (.start n as e :: rest) = .ok z := by
  unfold readCharac
  rw [getD_at h1 hz.r.1 hz.r.2, getD_at h2 hz.x.1 hz.x.2, getD_at h3 hz.g1.1 hz.g1.2, getD_at h4 hz.b1.1 hz.b1.2, getD_at h5 hz.g2.1 hz.g2.2, getD_at h6 hz.b2.1 hz.b2.2]
  simp only [Out.monad_bind_ok, hz.r.1, hz.x.1, hz.g1.1, hz.b1.1, hz.g2.1, hz.b2.1, Bool.or_false, check_false]

theorem branch_body {K : XCodec} (hK : K.Integers) {A : Anon} {root : String} {l : BranchLims} (h1 : LimsOk K l.one) (h2 : LimsOk K l.two) :
    Body A (branchSub K) root (branchElems K l) ⟨noLims, noLims⟩ l := by
  unfold branchElems
  refine Body.append (s' := ⟨l.one, noLims⟩) ?_ ?_
  · exact lims_body hK.naturals (h := branchSub K) (get := BranchLims.one) (put := fun s m => { s with one := m }) rfl rfl rfl
      (fun s toks l r hr => by simp only [limitsSub, hr, Out.monad_bind_ok]) (fun s toks l r hr => by simp only [limitsSub, hr, Out.monad_bind_ok])
      (fun s toks l r hr => by simp only [limitsSub, hr, Out.monad_bind_ok]) (fun _ _ => rfl) (fun _ _ _ => rfl) (fun _ => rfl) h1 ⟨noLims, noLims⟩ rfl
  · exact lims_body hK.naturals (h := branchSub K) (get := BranchLims.two) (put := fun s m => { s with two := m }) rfl rfl rfl
      (fun s toks l r hr => by simp only [limitsSub, hr, Out.monad_bind_ok]) (fun s toks l r hr => by simp only [limitsSub, hr, Out.monad_bind_ok])
      (fun s toks l r hr => by simp only [limitsSub, hr, Out.monad_bind_ok]) (fun _ _ => rfl) (fun _ _ _ => rfl) (fun _ => rfl) h2 ⟨l.one, noLims⟩ rfl

/-- **C68** A line is read back as it was written. -/
theorem line_round_trip {K : XCodec} (hK : K.Integers) {A : Anon} {y : Line} (h : LineOk K A y) : ElemRT "line" (writeLine K A y) (readLine K A) y := by
  refine readElem_ert (a := (y.z, y.side1, y.side2)) (s1 := y.lims) h.ident ⟨by lks lineAttrs, by lks lineAttrs⟩ (by decide) rfl rfl (fun e tl => ?_) (branch_body hK h.one h.two) rfl
  unfold readLineRoot
  rw [readCharac_at h.z (by lks lineAttrs) (by lks lineAttrs) (by lks lineAttrs) (by lks lineAttrs) (by lks lineAttrs) (by lks lineAttrs),
    readSides_at hK (x := y.side1) (y := y.side2) ⟨⟨by lks lineAttrs, by lks lineAttrs, by lks lineAttrs⟩, by lks lineAttrs, by lks lineAttrs, by lks lineAttrs⟩
      ⟨⟨by lks lineAttrs, by lks lineAttrs, by lks lineAttrs⟩, by lks lineAttrs, by lks lineAttrs, by lks lineAttrs⟩ h.side1 h.side2]
  rfl

/-- A line between a node and a bus from which it is disconnected. -/
def someLine : Line :=
  ⟨⟨⟨"L", "line", false⟩, [], []⟩, ⟨1, 2, 3, 4, 5, 6⟩, ⟨"VL1", ⟨.node 7, 1, .nan⟩⟩, ⟨"VL2", ⟨.bus "B" false, .nan, 2⟩⟩, ⟨noLims, ⟨none, none, some someLimits⟩⟩⟩

theorem branch_node {A : Anon} {n : Nat} (h : n < 2 ^ 31) : BranchPlaceOk A (.node n) := h

theorem toy_node_side {vl : String} {n : Nat} {p q : Dbl} (h : n < 2 ^ 31) : BranchSideOk toyX Anon.none ⟨vl, ⟨.node n, p, q⟩⟩ := ⟨rfl, branch_node h, toyX_keeps _, toyX_keeps _⟩

theorem toy_bus_side {vl b : String} {c : Bool} {p q : Dbl} (h : b ≠ "") : BranchSideOk toyX Anon.none ⟨vl, ⟨.bus b c, p, q⟩⟩ := ⟨rfl, ⟨h, rfl⟩, toyX_keeps _, toyX_keeps _⟩

theorem toy_charac {z : Charac} (h : z.r.isNan = false ∧ z.x.isNan = false ∧ z.g1.isNan = false ∧ z.b1.isNan = false ∧ z.g2.isNan = false ∧ z.b2.isNan = false) : CharacOk toyX z :=
  ⟨toyX_num h.1, toyX_num h.2.1, toyX_num h.2.2.1, toyX_num h.2.2.2.1, toyX_num h.2.2.2.2.1, toyX_num h.2.2.2.2.2⟩

theorem someLine_ok : LineOk toyX Anon.none someLine :=
  ⟨plain_ident, toy_charac (by decide), toy_node_side (by decide), toy_bus_side (by decide), noLims_ok, ⟨limitsOk_none, limitsOk_none, someLimits_ok⟩⟩

theorem someLine_read : ElemRT "line" (writeLine toyX Anon.none someLine) (readLine toyX Anon.none) someLine :=
  line_round_trip toyX_integers someLine_ok

/-! ### Tie lines -/

/-- What holds of every half line (`HalfLineAdder.cpp` l. 25-46); its displayed name is never empty. -/
structure HalfOk (K : XCodec) (A : Anon) (y : Half) : Prop where
  id : A.Inverts y.id ∧ y.id ≠ ""
  name : A.Inverts y.name ∧ y.name ≠ ""
  z : CharacOk K y.z

structure TieOk (K : XCodec) (A : Anon) (y : TieLine) : Prop where
  ident : IdentOk A y.ident
  empty : A.KeepsEmpty
  ucte : y.ucte ≠ ""
  half1 : HalfOk K A y.half1
  half2 : HalfOk K A y.half2
  side1 : BranchSideOk K A y.side1
  side2 : BranchSideOk K A y.side2
  one : LimsOk K y.lims.one
  two : LimsOk K y.lims.two

theorem readHalf_at {K : XCodec} {A : Anon} {s n : String} {as : List (String × String)} {y : Half} (hA : A.KeepsEmpty) (hy : HalfOk K A y)
    (hid : lookup ("id" ++ s) as = some (A.anon y.id)) (hname : lookup ("name" ++ s) as = if y.id = y.name then none else some (A.anon y.name))
    (hf : lookup ("fictitious" ++ s) as = if y.fictitious = false then none else some (if y.fictitious then "true" else "false"))
    (hz : ∀ e rest, readCharac K s (.start n as e :: rest) = .ok y.z) (e : Bool) (rest : List Tok) : readHalf K A s (.start n as e :: rest) = .ok y := by
  have h1 : A.dean (A.anon y.id) = .ok y.id := hy.id.1
  have h2 : A.dean (A.anon y.name) = .ok y.name := hy.name.1
  have h3 : A.dean "" = .ok "" := hA
  have h4 : optBOr ("fictitious" ++ s) false (.start n as e :: rest) = .ok y.fictitious := by
    cases hy : y.fictitious <;> simp [optBOr, rawAttr, hf, hy]
    rfl
  unfold readHalf
  rw [getS_attr hid, hz, h4]
  simp only [Out.monad_bind_ok, h1, show (y.id == "") = false by simp [hy.id.2], check_false]
  by_cases hn : y.id = y.name
  · have : optSOr ("name" ++ s) "" (.start n as e :: rest) = .ok "" := by simp [optSOr, rawAttr, hname, hn]
    simp only [this, Out.monad_bind_ok, h3, if_true]
    obtain ⟨i, m, f, z⟩ := y
    simp only at hn
    subst hn
    rfl
  · have : optSOr ("name" ++ s) "" (.start n as e :: rest) = .ok (A.anon y.name) := by simp [optSOr, rawAttr, hname, hn]
    simp only [this, Out.monad_bind_ok, h2, if_neg hy.name.2]

/-- **C68** A tie line is read back as it was written, with its two halves. -/
theorem tie_line_round_trip {K : XCodec} (hK : K.Integers) {A : Anon} {y : TieLine} (h : TieOk K A y) : ElemRT "tieLine" (writeTie K A y) (readTie K A) y := by
  refine readElem_ert (a := (y.ucte, y.half1, y.half2, y.side1, y.side2)) (s1 := y.lims) h.ident ⟨by lks tieAttrs, by lks tieAttrs⟩ (by decide) rfl rfl (fun e tl => ?_)
    (branch_body hK h.one h.two) rfl
  unfold readTieRoot
  have hu : optSOr "ucteXnodeCode" "" (.start "tieLine" (headAttrs A .v15 y.ident.head ++ tieAttrs K A y) e :: tl) = .ok y.ucte := by
    have : lookup "ucteXnodeCode" (headAttrs A .v15 y.ident.head ++ tieAttrs K A y) = some y.ucte := by lks tieAttrs
    simp [optSOr, rawAttr, this]
  rw [readHalf_at h.empty h.half1 (by lks tieAttrs) (by lks tieAttrs) (by lks tieAttrs) (readCharac_at h.half1.z (by lks tieAttrs) (by lks tieAttrs) (by lks tieAttrs) (by lks tieAttrs) (by lks tieAttrs) (by lks tieAttrs)),
    readHalf_at h.empty h.half2 (by lks tieAttrs) (by lks tieAttrs) (by lks tieAttrs) (readCharac_at h.half2.z (by lks tieAttrs) (by lks tieAttrs) (by lks tieAttrs) (by lks tieAttrs) (by lks tieAttrs) (by lks tieAttrs)),
    readSides_at hK (x := y.side1) (y := y.side2) ⟨⟨by lks tieAttrs, by lks tieAttrs, by lks tieAttrs⟩, by lks tieAttrs, by lks tieAttrs, by lks tieAttrs⟩
      ⟨⟨by lks tieAttrs, by lks tieAttrs, by lks tieAttrs⟩, by lks tieAttrs, by lks tieAttrs, by lks tieAttrs⟩ h.side1 h.side2, hu]
  simp only [Out.monad_bind_ok, show (y.ucte == "") = false by simp [h.ucte], check_false]

/-- The second half has no name of its own. -/
def someTie : TieLine :=
  ⟨⟨⟨"TL", "", false⟩, [], []⟩, "XNODE", ⟨"H1", "half", true, ⟨1, 2, 3, 4, 5, 6⟩⟩, ⟨"H2", "H2", false, ⟨6, 5, 4, 3, 2, 1⟩⟩, ⟨"VL1", ⟨.node 7, 1, .nan⟩⟩, ⟨"VL2", ⟨.bus "B" true, .nan, 2⟩⟩,
    ⟨noLims, ⟨some someLimits, none, none⟩⟩⟩

theorem someTie_ok : TieOk toyX Anon.none someTie :=
  ⟨plain_ident, rfl, by decide, ⟨⟨rfl, by decide⟩, ⟨rfl, by decide⟩, toy_charac (by decide)⟩, ⟨⟨rfl, by decide⟩, ⟨rfl, by decide⟩, toy_charac (by decide)⟩,
      toy_node_side (by decide), toy_bus_side (by decide), noLims_ok, ⟨someLimits_ok, limitsOk_none, limitsOk_none⟩⟩

theorem someTie_read : ElemRT "tieLine" (writeTie toyX Anon.none someTie) (readTie toyX Anon.none) someTie :=
  tie_line_round_trip toyX_integers someTie_ok

/-! ### HVDC lines -/

/-- What holds of every HVDC line (`HvdcLineAdder.cpp` l. 26-31). -/
structure HvdcOk (K : XCodec) (A : Anon) (y : HvdcLine) : Prop where
  ident : IdentOk A y.ident
  r : Num K y.r
  nominalV : Dbl.lt 0 y.nominalV = true ∧ K.Keeps y.nominalV
  mode : y.mode < Enums.hvdcLineConvertersMode.names.length
  setpoint : Dbl.le 0 y.setpoint = true ∧ K.Keeps y.setpoint
  maxP : Dbl.le 0 y.maxP = true ∧ K.Keeps y.maxP
  station1 : y.station1 ≠ ""
  station2 : y.station2 ≠ ""

theorem checkNominal_ok {v : Dbl} (h : Dbl.lt 0 v = true) : checkNominal v = .ok () := by
  simp [checkNominal, Dbl.not_le_of_lt h, (Dbl.not_nan_of_lt h).2, check]

theorem checkPositive_ok {v : Dbl} (h : Dbl.le 0 v = true) : checkPositive v = .ok () := by
  simp [checkPositive, not_lt_of_le' h, (Dbl.not_nan_of_le h).2, check]

/-- **C68** An HVDC line is read back as it was written. -/
theorem hvdc_line_round_trip {K : XCodec} {A : Anon} {y : HvdcLine} (h : HvdcOk K A y) : ElemRT "hvdcLine" (writeHvdc K A y) (readHvdc K A) y := by
  obtain ⟨k, hk1, hk2⟩ := Enums.value_round_trip (names := Enums.hvdcLineConvertersMode.names) (by decide) h.mode
  have hw : writeHvdc K A y = .ok (writeElem A "hvdcLine" y.ident (hvdcAttrs K k y) []) := by
    simp only [writeHvdc, hk1, Out.monad_bind_ok]
  rw [hw]
  refine readElem_ert (a := (y.r, y.nominalV, y.mode, y.setpoint, y.maxP, y.station1, y.station2)) h.ident ⟨by lks hvdcAttrs, by lks hvdcAttrs⟩ (by decide) rfl rfl (fun e tl => ?_)
    (body_nil _ _ _ _) rfl
  unfold readHvdcRoot
  rw [getD_at (d := y.r) (by lks hvdcAttrs) h.r.1 h.r.2, getD_at (d := y.nominalV) (by lks hvdcAttrs) (Dbl.not_nan_of_lt h.nominalV.1).2 h.nominalV.2, getS_attr (v := k) (by lks hvdcAttrs),
    getD_at (d := y.setpoint) (by lks hvdcAttrs) (Dbl.not_nan_of_le h.setpoint.1).2 h.setpoint.2, getD_at (d := y.maxP) (by lks hvdcAttrs) (Dbl.not_nan_of_le h.maxP.1).2 h.maxP.2,
    getS_attr (v := y.station1) (by lks hvdcAttrs), getS_attr (v := y.station2) (by lks hvdcAttrs)]
  simp only [Out.monad_bind_ok, hk2, h.r.1, check_false, checkNominal_ok h.nominalV.1, checkPositive_ok h.setpoint.1, checkPositive_ok h.maxP.1,
    show (y.station1 == "" || y.station2 == "") = false by simp [h.station1, h.station2]]

def someHvdc : HvdcLine := ⟨⟨⟨"H", "hvdc", false⟩, [], []⟩, 1, 400, 1, 0, 300, "C1", "C2"⟩

theorem someHvdc_ok : HvdcOk toyX Anon.none someHvdc :=
  ⟨plain_ident, toyX_num (by decide), ⟨by decide, toyX_keeps _⟩, by decide, ⟨by decide, toyX_keeps _⟩, ⟨by decide, toyX_keeps _⟩, by decide, by decide⟩

theorem someHvdc_read : ElemRT "hvdcLine" (writeHvdc toyX Anon.none someHvdc) (readHvdc toyX Anon.none) someHvdc :=
  hvdc_line_round_trip someHvdc_ok

/-! ### Tap changers -/

/-- What holds of the steps of every tap changer (`RatioTapChangerAdder.cpp` l. 28-32). -/
structure StepOk (K : XCodec) (y : Step) : Prop where
  r : Num K y.r
  x : Num K y.x
  g : Num K y.g
  b : Num K y.b
  rho : Num K y.rho

/-- What holds of the positions of every tap changer, as long as they are numbers of 64 bits. -/
structure TapsOk (K : XCodec) (low tap : Int) (n : Nat) (on : Bool) (d : Dbl) : Prop where
  first : -2 ^ 63 ≤ low
  last : low + n - 1 < 2 ^ 63
  inside : low ≤ tap ∧ tap ≤ low + n - 1
  deadband : Dbl.lt d 0 = false ∧ K.Keeps d
  regulating : on = true → d.isNan = false

theorem checkTaps_ok {K : XCodec} {low tap : Int} {n : Nat} {on : Bool} {d : Dbl} (h : TapsOk K low tap n on d) : checkTaps low tap n on d = .ok () := by
  obtain ⟨h1, h2, ⟨h3, h4⟩, ⟨h5, _⟩, h6⟩ := h
  have hn : (n == 0) = false := by simp; omega
  have hh : highTap low n = low + n - 1 := by unfold highTap; omega
  have h7 : (on && d.isNan) = false := by cases on with
    | false => rfl
    | true => simp [h6 rfl]
  unfold checkTaps
  rw [hh, hn, h7, h5]
  simp [check, Int.not_lt.2 h3, Int.not_lt.2 h4]

theorem TapsOk.longs {K : XCodec} {low tap : Int} {n : Nat} {on : Bool} {d : Dbl} (h : TapsOk K low tap n on d) :
    (-2 ^ 63 ≤ low ∧ low < 2 ^ 63) ∧ (-2 ^ 63 ≤ tap ∧ tap < 2 ^ 63) := by
  obtain ⟨h1, h2, ⟨h3, h4⟩, _, _⟩ := h
  omega

theorem getI_at {K : XCodec} (hK : K.Integers) {k n : String} {as : List (String × String)} {e : Bool} {rest : List Tok} {i : Int} (h : lookup k as = some (K.showI i))
    (hi : -2 ^ 63 ≤ i ∧ i < 2 ^ 63) : getI K k (.start n as e :: rest) = .ok i := by
  unfold getI
  rw [getS_attr h]
  exact hK.long i hi.1 hi.2

macro "lkt " t:ident : tactic => `(tactic| simp [$t:ident, stepAttrs, lookup_append, lookup_cons, lookup_nil, lookup_attrD, lookup_attrB, lookup_attrI, lookup_ite])

theorem readStep_at {K : XCodec} {n : String} {as : List (String × String)} {y : Step} (hy : StepOk K y)
    (h1 : lookup "r" as = if y.r.isNan then none else some (K.showD y.r)) (h2 : lookup "x" as = if y.x.isNan then none else some (K.showD y.x))
    (h3 : lookup "g" as = if y.g.isNan then none else some (K.showD y.g)) (h4 : lookup "b" as = if y.b.isNan then none else some (K.showD y.b))
    (h5 : lookup "rho" as = if y.rho.isNan then none else some (K.showD y.rho)) (e : Bool) (rest : List Tok) : readStep K (.start n as e :: rest) = .ok y := by
  unfold readStep
  rw [getD_at h1 hy.r.1 hy.r.2, getD_at h2 hy.x.1 hy.x.2, getD_at h3 hy.g.1 hy.g.2, getD_at h4 hy.b.1 hy.b.2, getD_at h5 hy.rho.1 hy.rho.2]
  simp only [Out.monad_bind_ok, hy.r.1, hy.x.1, hy.g.1, hy.b.1, hy.rho.1, Bool.or_false, check_false]

/-- What holds of every ratio tap changer (`RatioTapChangerAdder.cpp` l. 66-79). -/
structure RtcOk (K : XCodec) (A : Anon) (t : Rtc) : Prop where
  taps : TapsOk K t.low t.tap t.steps.length t.on t.deadband
  targetV : K.Keeps t.targetV
  target : t.on = true → t.ltc = true → Dbl.lt 0 t.targetV = true
  terminal : t.on = true → t.reg ≠ none
  reg : RefOk A t.reg
  steps : ∀ y ∈ t.steps, StepOk K y

theorem checkRtc_ok {K : XCodec} {A : Anon} {t : Rtc} (h : RtcOk K A t) : checkRtc t.on t.ltc t.targetV t.reg = .ok () := by
  unfold checkRtc
  cases hon : t.on with
  | false => rfl
  | true =>
    have h1 := h.terminal hon
    have h2 : t.reg.isNone = false := by
      cases hr : t.reg with
      | none => exact absurd hr h1
      | some r => rfl
    cases hl : t.ltc with
    | false => simp [h2, check]
    | true =>
      have h3 := h.target hon hl
      simp [h2, Dbl.not_le_of_lt h3, (Dbl.not_nan_of_lt h3).2, check]

theorem pref_body {σ : Type} {A : Anon} {h : Handler σ} {root el : String} {required : Bool} {set : σ → Ref → σ} (hh : h el = some (refCb A required set)) {o : Option Ref} (ho : RefOk A o) (s : σ) :
    PBody h root (refElems A el o) s (setOpt set s o) := by
  cases o with
  | none => exact pbody_nil _ _ _
  | some r =>
    refine pbody_item (ref_rt (ho r rfl).2 required) hh fun toks rest hr => ?_
    simp only [refCb, hr, Out.monad_bind_ok, setOpt]

theorem rtcSteps_body {K : XCodec} {A : Anon} {root : String} : ∀ (ys : List Step) (s : Option Ref × List Step), (∀ y ∈ ys, StepOk K y) →
    PBody (rtcSub K A) root (rtcSteps K ys) s (s.1, s.2 ++ ys) := by
  intro ys
  induction ys with
  | nil => intro s _; simpa [rtcSteps] using pbody_nil (rtcSub K A) root s
  | cons y ys ih =>
    intro s hy
    have h1 : RoundTrip (elemCmds "step" (stepAttrs K y) []) (fun toks => do let z ← readStep K toks; .ok (z, toks)) y :=
      attrs_rt fun e tl => readStep_at (hy y (List.mem_cons_self ..)) (by lkt stepAttrs) (by lkt stepAttrs) (by lkt stepAttrs) (by lkt stepAttrs) (by lkt stepAttrs) e tl
    have h2 : PBody (rtcSub K A) root (elemCmds "step" (stepAttrs K y) []) s (s.1, s.2 ++ [y]) := by
      refine pbody_item h1 rfl fun toks r hr => ?_
      obtain ⟨z, e1, e2⟩ := Out.bind_eq_ok.1 hr
      simp only [Out.ok.injEq, Prod.mk.injEq] at e2
      obtain ⟨rfl, rfl⟩ := e2
      simp only [e1, Out.monad_bind_ok]
    have h3 := ih (s.1, s.2 ++ [y]) (fun z hz => hy z (List.mem_cons_of_mem _ hz))
    simp only [List.append_assoc, List.singleton_append] at h3
    exact h2.append h3

theorem rtc_rt {K : XCodec} (hK : K.Integers) {A : Anon} {el : String} {t : Rtc} (h : RtcOk K A t) : RoundTrip (writeRtc K A el t) (readRtc K A el) t := by
  unfold writeRtc readRtc
  refine readPlain_rt (a := (t.low, t.tap, t.deadband, t.ltc, t.on, t.targetV)) (s1 := (t.reg, t.steps)) (fun e tl => ?_) ?_ ?_
  · unfold readRtcRoot
    have hon : optBOr "regulating" false (.start el (rtcAttrs K t) e :: tl) = .ok t.on := by
      cases ho : t.on with
      | true => exact optBOr_attr (by lkt rtcAttrs; simp [ho])
      | false =>
        cases hl : t.ltc with
        | true => exact optBOr_attr (by lkt rtcAttrs; simp [ho, hl])
        | false =>
          have : lookup "regulating" (rtcAttrs K t) = none := by lkt rtcAttrs; simp [ho, hl]
          simp [optBOr, rawAttr, this]
    rw [getI_at hK (i := t.low) (by lkt rtcAttrs) h.taps.longs.1, getI_at hK (i := t.tap) (by lkt rtcAttrs) h.taps.longs.2, hon, optDOr_attr (d := t.deadband) (by lkt rtcAttrs) h.taps.deadband.2,
      getB_attr (b := t.ltc) (by lkt rtcAttrs), optDOr_attr (d := t.targetV) (by lkt rtcAttrs) h.targetV]
    rfl
  · refine PBody.append (s' := (t.reg, [])) ?_ ?_
    · have := pref_body (h := rtcSub K A) (root := el) (el := "terminalRef") (set := fun s r => (some r, s.2)) rfl h.reg (none, [])
      cases hr : t.reg with
      | none => rw [hr] at this; exact this
      | some r => rw [hr] at this; exact this
    · exact rtcSteps_body t.steps (t.reg, []) h.steps
  · unfold buildRtc
    simp only [checkTaps_ok h.taps, checkRtc_ok h, Out.monad_bind_ok]

/-- What holds of every phase tap changer (`PhaseTapChangerAdder.cpp` l. 71-84). -/
structure PtcOk (K : XCodec) (A : Anon) (t : Ptc) : Prop where
  mode : t.mode < Enums.phaseTapChangerRegulationMode.names.length
  taps : TapsOk K t.low t.tap t.steps.length t.on t.deadband
  value : K.Keeps t.value
  control : t.on = true → t.mode ≠ 2 ∧ t.value.isNan = false ∧ t.reg ≠ none
  reg : RefOk A t.reg
  steps : ∀ y ∈ t.steps, StepOk K y.1 ∧ Num K y.2

theorem checkPtc_ok {K : XCodec} {A : Anon} {t : Ptc} (h : PtcOk K A t) : checkPtc t.mode t.value t.on t.reg = .ok () := by
  unfold checkPtc
  cases hon : t.on with
  | false => rfl
  | true =>
    obtain ⟨h1, h2, h3⟩ := h.control hon
    have h4 : t.reg.isNone = false := by
      cases hr : t.reg with
      | none => exact absurd hr h3
      | some r => rfl
    simp [h1, h2, h4, check, fixedTap]

theorem ptcSteps_body {K : XCodec} {A : Anon} {root : String} : ∀ (ys : List (Step × Dbl)) (s : Option Ref × List (Step × Dbl)), (∀ y ∈ ys, StepOk K y.1 ∧ Num K y.2) →
    PBody (ptcSub K A) root (ptcSteps K ys) s (s.1, s.2 ++ ys) := by
  intro ys
  induction ys with
  | nil => intro s _; simpa [ptcSteps] using pbody_nil (ptcSub K A) root s
  | cons y ys ih =>
    intro s hy
    obtain ⟨k1, k2⟩ := hy y (List.mem_cons_self ..)
    have h1 : RoundTrip (elemCmds "step" (stepAttrs K y.1 ++ attrD K.toCodec "alpha" y.2) [])
        (fun toks => do let z ← (do let y ← readStep K toks; let a ← getD K.toCodec "alpha" toks; Out.ok (y, a)); .ok (z, toks)) y :=
      attrs_rt fun e tl => by
        rw [readStep_at k1 (by lkt stepAttrs) (by lkt stepAttrs) (by lkt stepAttrs) (by lkt stepAttrs) (by lkt stepAttrs), getD_at (d := y.2) (by lkt stepAttrs) k2.1 k2.2]
        rfl
    have h2 : PBody (ptcSub K A) root (elemCmds "step" (stepAttrs K y.1 ++ attrD K.toCodec "alpha" y.2) []) s (s.1, s.2 ++ [y]) := by
      refine pbody_item h1 rfl fun toks r hr => ?_
      obtain ⟨z, e1, e2⟩ := Out.bind_eq_ok.1 hr
      obtain ⟨z1, e3, e4⟩ := Out.bind_eq_ok.1 e1
      obtain ⟨z2, e5, e6⟩ := Out.bind_eq_ok.1 e4
      simp only [Out.ok.injEq, Prod.mk.injEq] at e2 e6
      obtain ⟨rfl, rfl⟩ := e2
      subst e6
      simp only [e3, e5, Out.monad_bind_ok, k2.1, check_false]
    have h3 := ih (s.1, s.2 ++ [y]) (fun z hz => hy z (List.mem_cons_of_mem _ hz))
    simp only [List.append_assoc, List.singleton_append] at h3
    exact h2.append h3

theorem ptc_ert {K : XCodec} (hK : K.Integers) {A : Anon} {el : String} {t : Ptc} (h : PtcOk K A t) : ElemRT el (writePtc K A el t) (readPtc K A el) t := by
  obtain ⟨k, hk1, hk2⟩ := Enums.value_round_trip (names := Enums.phaseTapChangerRegulationMode.names) (by decide) h.mode
  refine ⟨ptcAttrs K k t, refElems A "terminalRef" t.reg ++ ptcSteps K t.steps, by simp only [writePtc, hk1, Out.monad_bind_ok], ?_⟩
  unfold readPtc
  refine readPlain_rt (a := (t.low, t.tap, t.deadband, t.mode, t.value, t.on)) (s1 := (t.reg, t.steps)) (fun e tl => ?_) ?_ ?_
  · unfold readPtcRoot
    have hon : optBOr "regulating" false (.start el (ptcAttrs K k t) e :: tl) = .ok t.on := by
      cases ho : t.on with
      | true => exact optBOr_attr (by lkt ptcAttrs; simp [ho])
      | false =>
        by_cases hl : t.mode = fixedTap
        · have : lookup "regulating" (ptcAttrs K k t) = none := by lkt ptcAttrs; simp [ho, hl]
          simp [optBOr, rawAttr, this]
        · exact optBOr_attr (by lkt ptcAttrs; simp [ho, hl])
    rw [getI_at hK (i := t.low) (by lkt ptcAttrs) h.taps.longs.1, getI_at hK (i := t.tap) (by lkt ptcAttrs) h.taps.longs.2, hon, optDOr_attr (d := t.deadband) (by lkt ptcAttrs) h.taps.deadband.2,
      getS_attr (v := k) (by lkt ptcAttrs), optDOr_attr (d := t.value) (by lkt ptcAttrs) h.value]
    simp only [Out.monad_bind_ok, hk2]
  · refine PBody.append (s' := (t.reg, [])) ?_ ?_
    · have := pref_body (h := ptcSub K A) (root := el) (el := "terminalRef") (set := fun s r => (some r, s.2)) rfl h.reg (none, [])
      cases hr : t.reg with
      | none => rw [hr] at this; exact this
      | some r => rw [hr] at this; exact this
    · exact ptcSteps_body t.steps (t.reg, []) h.steps
  · unfold buildPtc
    simp only [checkTaps_ok h.taps, checkPtc_ok h, Out.monad_bind_ok]

/-- Conditions on optional tap changers. -/
def RtcsOk (K : XCodec) (A : Anon) (o : Option Rtc) : Prop := ∀ t, o = some t → RtcOk K A t

def PtcsOk (K : XCodec) (A : Anon) (o : Option Ptc) : Prop := ∀ t, o = some t → PtcOk K A t

theorem rtc_body {σ : Type} {K : XCodec} (hK : K.Integers) {A : Anon} {h : Handler σ} {root el : String} {cb : Callback σ} {set : σ → Rtc → σ} (hh : h el = some cb)
    (hcb : ∀ s toks t r, readRtc K A el toks = .ok (t, r) → cb s toks = .ok (set s t, r)) {o : Option Rtc} (ho : RtcsOk K A o) (s : σ) :
    Body A h root (rtcElems K A el o) s (setOpt set s o) := by
  cases o with
  | none => exact body_nil _ _ _ _
  | some t => exact body_item (rtc_rt hK (ho t rfl)) hh fun toks r hr => hcb _ _ _ _ hr

theorem ptc_body {σ : Type} {K : XCodec} (hK : K.Integers) {A : Anon} {h : Handler σ} {root el : String} {cb : Callback σ} {set : σ → Ptc → σ} (hh : h el = some cb)
    (hcb : ∀ s toks t r, readPtc K A el toks = .ok (t, r) → cb s toks = .ok (set s t, r)) {o : Option Ptc} (ho : PtcsOk K A o) (s : σ) :
    ∃ cs, ptcElems K A el o = .ok cs ∧ Body A h root cs s (setOpt set s o) := by
  cases o with
  | none => exact ⟨[], rfl, body_nil _ _ _ _⟩
  | some t => exact body_elem (ptc_ert hK (ho t rfl)) hh fun toks r hr => hcb _ _ _ _ hr

/-! ### Two windings transformers -/

/-- What holds of every two windings transformer (`TwoWindingsTransformerAdder.cpp` l. 35-41): at most one of its tap changers regulates. -/
structure Tw2Ok (K : XCodec) (A : Anon) (y : Tw2) : Prop where
  ident : IdentOk A y.ident
  r : Num K y.r
  x : Num K y.x
  g : Num K y.g
  b : Num K y.b
  ratedU1 : Num K y.ratedU1
  ratedU2 : Num K y.ratedU2
  ratedS : (y.ratedS.isNan = true ∨ Dbl.lt 0 y.ratedS = true) ∧ K.Keeps y.ratedS
  side1 : BranchSideOk K A y.side1
  side2 : BranchSideOk K A y.side2
  rtc : RtcsOk K A y.rtc
  ptc : PtcsOk K A y.ptc
  single : ∀ t u, y.rtc = some t → y.ptc = some u → ¬ (t.on = true ∧ u.on = true)
  one : LimsOk K y.lims.one
  two : LimsOk K y.lims.two

theorem regCount_le (r : Option Rtc) (p : Option Ptc) (h : ∀ t u, r = some t → p = some u → ¬ (t.on = true ∧ u.on = true)) : regCount r p ≤ 1 := by
  cases r with
  | none =>
    cases p with
    | none => simp [regCount]
    | some u => simp only [regCount]; cases u.on <;> simp
  | some t =>
    cases p with
    | none => simp only [regCount]; cases t.on <;> simp
    | some u =>
      have := h t u rfl rfl
      simp only [regCount]
      cases ht : t.on <;> cases hu : u.on <;> simp_all

/-- **C68** A two windings transformer is read back as it was written, with its tap changers. -/
theorem two_windings_transformer_round_trip {K : XCodec} (hK : K.Integers) {A : Anon} {y : Tw2} (h : Tw2Ok K A y) :
    ElemRT "twoWindingsTransformer" (writeTw2 K A y) (readTw2 K A) y := by
  have hr := rtc_body hK (A := A) (h := tw2Sub K A) (root := "twoWindingsTransformer") (el := "ratioTapChanger") (set := fun s t => { s with rtc := some t }) rfl
    (fun s toks t r hr => by simp only [rtcCb, hr, Out.monad_bind_ok]) h.rtc ⟨none, none, ⟨noLims, noLims⟩⟩
  obtain ⟨cs, hcs, hp⟩ := ptc_body hK (A := A) (h := tw2Sub K A) (root := "twoWindingsTransformer") (el := "phaseTapChanger") (set := fun s t => { s with ptc := some t }) rfl
    (fun s toks t r hr => by simp only [ptcCb, hr, Out.monad_bind_ok]) h.ptc ⟨y.rtc, none, ⟨noLims, noLims⟩⟩
  have hw : writeTw2 K A y = .ok (writeElem A "twoWindingsTransformer" y.ident (tw2Attrs K A y) (rtcElems K A "ratioTapChanger" y.rtc ++ (cs ++ branchElems K y.lims))) := by
    simp only [writeTw2, hcs, Out.monad_bind_ok]
  rw [hw]
  refine readElem_ert (a := ⟨y.r, y.x, y.g, y.b, y.ratedU1, y.ratedU2, y.ratedS, y.side1, y.side2⟩) (s1 := ⟨y.rtc, y.ptc, y.lims⟩) h.ident ⟨by lks tw2Attrs, by lks tw2Attrs⟩ (by decide) rfl rfl
    (fun e tl => ?_) ?_ ?_
  · unfold readTw2Root
    rw [getD_at (d := y.r) (by lks tw2Attrs) h.r.1 h.r.2, getD_at (d := y.x) (by lks tw2Attrs) h.x.1 h.x.2, getD_at (d := y.g) (by lks tw2Attrs) h.g.1 h.g.2,
      getD_at (d := y.b) (by lks tw2Attrs) h.b.1 h.b.2, getD_at (d := y.ratedU1) (by lks tw2Attrs) h.ratedU1.1 h.ratedU1.2, getD_at (d := y.ratedU2) (by lks tw2Attrs) h.ratedU2.1 h.ratedU2.2,
      optDOr_attr (d := y.ratedS) (by lks tw2Attrs) h.ratedS.2,
      readSides_at hK (x := y.side1) (y := y.side2) ⟨⟨by lks tw2Attrs, by lks tw2Attrs, by lks tw2Attrs⟩, by lks tw2Attrs, by lks tw2Attrs, by lks tw2Attrs⟩
        ⟨⟨by lks tw2Attrs, by lks tw2Attrs, by lks tw2Attrs⟩, by lks tw2Attrs, by lks tw2Attrs, by lks tw2Attrs⟩ h.side1 h.side2]
    simp only [Out.monad_bind_ok, h.r.1, h.x.1, h.g.1, h.b.1, h.ratedU1.1, h.ratedU2.1, Bool.or_false, check_false, checkRatedS_ok h.ratedS.1]
  · refine Body.append (s' := ⟨y.rtc, none, ⟨noLims, noLims⟩⟩) ?_ (Body.append (s' := ⟨y.rtc, y.ptc, ⟨noLims, noLims⟩⟩) ?_ ?_)
    · cases hq : y.rtc with
      | none => rw [hq] at hr; exact hr
      | some t => rw [hq] at hr; exact hr
    · cases hq : y.ptc with
      | none => rw [hq] at hp; exact hp
      | some t => rw [hq] at hp; exact hp
    · unfold branchElems
      refine Body.append (s' := ⟨y.rtc, y.ptc, ⟨y.lims.one, noLims⟩⟩) ?_ ?_
      · exact lims_body hK.naturals (h := tw2Sub K A) (get := fun s => s.lims.one) (put := fun s m => { s with lims := { s.lims with one := m } }) rfl rfl rfl
          (fun s toks l r hr => by simp only [limitsSub, hr, Out.monad_bind_ok]) (fun s toks l r hr => by simp only [limitsSub, hr, Out.monad_bind_ok])
          (fun s toks l r hr => by simp only [limitsSub, hr, Out.monad_bind_ok]) (fun _ _ => rfl) (fun _ _ _ => rfl) (fun _ => rfl) h.one ⟨y.rtc, y.ptc, ⟨noLims, noLims⟩⟩ rfl
      · exact lims_body hK.naturals (h := tw2Sub K A) (get := fun s => s.lims.two) (put := fun s m => { s with lims := { s.lims with two := m } }) rfl rfl rfl
          (fun s toks l r hr => by simp only [limitsSub, hr, Out.monad_bind_ok]) (fun s toks l r hr => by simp only [limitsSub, hr, Out.monad_bind_ok])
          (fun s toks l r hr => by simp only [limitsSub, hr, Out.monad_bind_ok]) (fun _ _ => rfl) (fun _ _ _ => rfl) (fun _ => rfl) h.two ⟨y.rtc, y.ptc, ⟨y.lims.one, noLims⟩⟩ rfl
  · unfold buildTw2
    have : decide (1 < regCount y.rtc y.ptc) = false := by
      have := regCount_le y.rtc y.ptc h.single
      simp; omega
    simp only [this, check_false, Out.monad_bind_ok]

/-- Tap changers of the examples. -/
def someRtc : Rtc := ⟨-1, 0, 1, true, true, 225, some ⟨"T2", "TWO"⟩, [⟨0, 0, 0, 0, 1⟩, ⟨1, 2, 3, 4, 2⟩]⟩

def somePtc : Ptc := ⟨2, 2, .nan, 1, 30, false, none, [(⟨0, 0, 0, 0, 1⟩, .fin (-3))]⟩

theorem toy_step {y : Step} (h : y.r.isNan = false ∧ y.x.isNan = false ∧ y.g.isNan = false ∧ y.b.isNan = false ∧ y.rho.isNan = false) : StepOk toyX y :=
  ⟨toyX_num h.1, toyX_num h.2.1, toyX_num h.2.2.1, toyX_num h.2.2.2.1, toyX_num h.2.2.2.2⟩

theorem someRtc_ok : RtcsOk toyX Anon.none (some someRtc) := by
  rintro t ⟨⟩
  refine ⟨⟨by decide, by decide, by decide, ⟨by decide, toyX_keeps _⟩, by decide⟩, toyX_keeps _, by decide, by decide, by rintro r ⟨⟩; exact ⟨by decide, rfl⟩, ?_⟩
  intro y hy
  simp only [someRtc, List.mem_cons, List.not_mem_nil, or_false] at hy
  rcases hy with rfl | rfl <;> exact toy_step (by decide)

theorem somePtc_ok : PtcsOk toyX Anon.none (some somePtc) := by
  rintro t ⟨⟩
  refine ⟨by decide, ⟨by decide, by decide, by decide, ⟨by decide, toyX_keeps _⟩, by decide⟩, toyX_keeps _, by decide, refOk_none, ?_⟩
  intro y hy
  simp only [somePtc, List.mem_cons, List.not_mem_nil, or_false] at hy
  subst hy
  exact ⟨toy_step (by decide), toyX_num (by decide)⟩

def someTw2 : Tw2 :=
  ⟨⟨⟨"T2", "", false⟩, [], []⟩, 1, 2, 3, 4, 400, 225, .nan, ⟨"VL1", ⟨.node 7, 1, .nan⟩⟩, ⟨"VL2", ⟨.bus "B" true, .nan, 2⟩⟩, some someRtc, some somePtc, ⟨noLims, ⟨some someLimits, none, none⟩⟩⟩

theorem someTw2_ok : Tw2Ok toyX Anon.none someTw2 :=
  ⟨plain_ident, toyX_num (by decide), toyX_num (by decide), toyX_num (by decide), toyX_num (by decide), toyX_num (by decide), toyX_num (by decide), ⟨by decide, toyX_keeps _⟩,
      toy_node_side (by decide), toy_bus_side (by decide), someRtc_ok, somePtc_ok, by rintro t u ⟨⟩ ⟨⟩; decide, noLims_ok, ⟨someLimits_ok, limitsOk_none, limitsOk_none⟩⟩

theorem someTw2_read : ElemRT "twoWindingsTransformer" (writeTw2 toyX Anon.none someTw2) (readTw2 toyX Anon.none) someTw2 :=
  two_windings_transformer_round_trip toyX_integers someTw2_ok

/-! ### Three windings transformers -/

/-- What holds of every leg (`ThreeWindingsTransformerLegAdder.cpp` l. 29-34). -/
structure LegOk (K : XCodec) (A : Anon) (y : Leg) : Prop where
  r : Num K y.z.r
  x : Num K y.z.x
  g : Num K y.z.g
  b : Num K y.z.b
  ratedU : Num K y.z.ratedU
  ratedS : (y.z.ratedS.isNan = true ∨ Dbl.lt 0 y.z.ratedS = true) ∧ K.Keeps y.z.ratedS
  side : LegSideOk K A y.side
  rtc : RtcsOk K A y.sub.rtc
  ptc : PtcsOk K A y.sub.ptc
  lims : LimsOk K y.sub.lims

/-- The regulation flags of the tap changers of a leg. -/
def LegSub.flags (s : LegSub) : List Bool := (s.rtc.map Rtc.on).toList ++ (s.ptc.map Ptc.on).toList

/-- What holds of every three windings transformer: at most one of the six tap changers regulates. -/
structure Tw3Ok (K : XCodec) (A : Anon) (y : Tw3) : Prop where
  ident : IdentOk A y.ident
  leg1 : LegOk K A y.leg1
  leg2 : LegOk K A y.leg2
  leg3 : LegOk K A y.leg3
  ratedU0 : Num K y.ratedU0
  single : (y.leg1.sub.flags ++ (y.leg2.sub.flags ++ y.leg3.sub.flags)).countP id ≤ 1

theorem regCount_flags (s : LegSub) : regCount s.rtc s.ptc = s.flags.countP id := by
  obtain ⟨r, p, l⟩ := s
  cases r with
  | none =>
    cases p with
    | none => rfl
    | some u => simp only [regCount, LegSub.flags, Option.map, Option.toList]; cases u.on <;> rfl
  | some t =>
    cases p with
    | none => simp only [regCount, LegSub.flags, Option.map, Option.toList]; cases t.on <;> rfl
    | some u => simp only [regCount, LegSub.flags, Option.map, Option.toList]; cases t.on <;> cases u.on <;> rfl

theorem readLegZ_at {K : XCodec} {A : Anon} {s n : String} {as : List (String × String)} {y : Leg} (h : LegOk K A y)
    (h1 : lookup ("r" ++ s) as = if y.z.r.isNan then none else some (K.showD y.z.r)) (h2 : lookup ("x" ++ s) as = if y.z.x.isNan then none else some (K.showD y.z.x))
    (h3 : lookup ("g" ++ s) as = if y.z.g.isNan then none else some (K.showD y.z.g)) (h4 : lookup ("b" ++ s) as = if y.z.b.isNan then none else some (K.showD y.z.b))
    (h5 : lookup ("ratedU" ++ s) as = if y.z.ratedU.isNan then none else some (K.showD y.z.ratedU)) (h6 : lookup ("ratedS" ++ s) as = if y.z.ratedS.isNan then none else some (K.showD y.z.ratedS))
    (e : Bool) (rest : List Tok) : readLegZ K s (.start n as e :: rest) = .ok y.z := by
  unfold readLegZ
  rw [getD_at h1 h.r.1 h.r.2, getD_at h2 h.x.1 h.x.2, getD_at h3 h.g.1 h.g.2, getD_at h4 h.b.1 h.b.2, getD_at h5 h.ratedU.1 h.ratedU.2, optDOr_attr h6 h.ratedS.2]
  simp only [Out.monad_bind_ok, h.r.1, h.x.1, h.g.1, h.b.1, h.ratedU.1, Bool.or_false, check_false, checkRatedS_ok h.ratedS.1]

/-- The tap changers of one leg. -/
theorem leg_taps {σ : Type} {K : XCodec} (hK : K.Integers) {A : Anon} {h : Handler σ} {root rt pt : String} {cr cp : Callback σ} {get : σ → LegSub} {put : σ → LegSub → σ} (hr : h rt = some cr) (hp : h pt = some cp)
    (hcr : ∀ s toks t r, readRtc K A rt toks = .ok (t, r) → cr s toks = .ok (put s { get s with rtc := some t }, r))
    (hcp : ∀ s toks t r, readPtc K A pt toks = .ok (t, r) → cp s toks = .ok (put s { get s with ptc := some t }, r))
    (gp : ∀ s l, get (put s l) = l) (pp : ∀ s l m, put (put s l) m = put s m) (pg : ∀ s, put s (get s) = s)
    {y : Leg} (hy : LegOk K A y) (s : σ) (hs : get s = noSubs) :
    ∃ cs, ptcElems K A pt y.sub.ptc = .ok cs ∧ Body A h root (rtcElems K A rt y.sub.rtc ++ cs) s (put s ⟨y.sub.rtc, y.sub.ptc, noLims⟩) := by
  have h1 := rtc_body hK (A := A) (root := root) hr hcr hy.rtc s
  obtain ⟨cs, h2, h3⟩ := ptc_body hK (A := A) (root := root) hp hcp hy.ptc (put s ⟨y.sub.rtc, none, noLims⟩)
  refine ⟨cs, h2, Body.append (s' := put s ⟨y.sub.rtc, none, noLims⟩) ?_ ?_⟩
  · cases hq : y.sub.rtc with
    | none =>
      have : put s ⟨none, none, noLims⟩ = s := by rw [← show get s = ⟨none, none, noLims⟩ from hs, pg]
      rw [hq] at h1
      rw [this]
      exact h1
    | some t =>
      rw [hq] at h1
      simp only [setOpt, hs] at h1
      exact h1
  · cases hq : y.sub.ptc with
    | none => rw [hq] at h3; exact h3
    | some t =>
      rw [hq] at h3
      simp only [setOpt, gp, pp] at h3
      exact h3

/-- **C68** A three windings transformer is read back as it was written, with the tap changers and the limits of its legs. -/
theorem three_windings_transformer_round_trip {K : XCodec} (hK : K.Integers) {A : Anon} {y : Tw3} (h : Tw3Ok K A y) :
    ElemRT "threeWindingsTransformer" (writeTw3 K A y) (readTw3 K A) y := by
  obtain ⟨p1, hp1, hb1⟩ := leg_taps hK (A := A) (h := tw3Sub K A) (root := "threeWindingsTransformer") (rt := "ratioTapChanger1") (pt := "phaseTapChanger1") (get := Tw3Sub.one)
    (put := fun t s => { t with one := s }) rfl rfl (fun s toks t r hr => by simp only [rtcCb, hr, Out.monad_bind_ok]) (fun s toks t r hr => by simp only [ptcCb, hr, Out.monad_bind_ok])
    (fun _ _ => rfl) (fun _ _ _ => rfl) (fun _ => rfl) h.leg1 ⟨noSubs, noSubs, noSubs⟩ rfl
  obtain ⟨p2, hp2, hb2⟩ := leg_taps hK (A := A) (h := tw3Sub K A) (root := "threeWindingsTransformer") (rt := "ratioTapChanger2") (pt := "phaseTapChanger2") (get := Tw3Sub.two)
    (put := fun t s => { t with two := s }) rfl rfl (fun s toks t r hr => by simp only [rtcCb, hr, Out.monad_bind_ok]) (fun s toks t r hr => by simp only [ptcCb, hr, Out.monad_bind_ok])
    (fun _ _ => rfl) (fun _ _ _ => rfl) (fun _ => rfl) h.leg2 ⟨⟨y.leg1.sub.rtc, y.leg1.sub.ptc, noLims⟩, noSubs, noSubs⟩ rfl
  obtain ⟨p3, hp3, hb3⟩ := leg_taps hK (A := A) (h := tw3Sub K A) (root := "threeWindingsTransformer") (rt := "ratioTapChanger3") (pt := "phaseTapChanger3") (get := Tw3Sub.three)
    (put := fun t s => { t with three := s }) rfl rfl (fun s toks t r hr => by simp only [rtcCb, hr, Out.monad_bind_ok]) (fun s toks t r hr => by simp only [ptcCb, hr, Out.monad_bind_ok])
    (fun _ _ => rfl) (fun _ _ _ => rfl) (fun _ => rfl) h.leg3 ⟨⟨y.leg1.sub.rtc, y.leg1.sub.ptc, noLims⟩, ⟨y.leg2.sub.rtc, y.leg2.sub.ptc, noLims⟩, noSubs⟩ rfl
  have hl1 := lims_body hK.naturals (A := A) (h := tw3Sub K A) (root := "threeWindingsTransformer") (a := "activePowerLimits1") (p := "apparentPowerLimits1") (c := "currentLimits1")
    (get := fun s => s.one.lims) (put := fun s m => { s with one := { s.one with lims := m } }) rfl rfl rfl
    (fun s toks l r hr => by simp only [limitsSub, hr, Out.monad_bind_ok]) (fun s toks l r hr => by simp only [limitsSub, hr, Out.monad_bind_ok])
    (fun s toks l r hr => by simp only [limitsSub, hr, Out.monad_bind_ok]) (fun _ _ => rfl) (fun _ _ _ => rfl) (fun _ => rfl) h.leg1.lims
    ⟨⟨y.leg1.sub.rtc, y.leg1.sub.ptc, noLims⟩, ⟨y.leg2.sub.rtc, y.leg2.sub.ptc, noLims⟩, ⟨y.leg3.sub.rtc, y.leg3.sub.ptc, noLims⟩⟩ rfl
  have hl2 := lims_body hK.naturals (A := A) (h := tw3Sub K A) (root := "threeWindingsTransformer") (a := "activePowerLimits2") (p := "apparentPowerLimits2") (c := "currentLimits2")
    (get := fun s => s.two.lims) (put := fun s m => { s with two := { s.two with lims := m } }) rfl rfl rfl
    (fun s toks l r hr => by simp only [limitsSub, hr, Out.monad_bind_ok]) (fun s toks l r hr => by simp only [limitsSub, hr, Out.monad_bind_ok])
    (fun s toks l r hr => by simp only [limitsSub, hr, Out.monad_bind_ok]) (fun _ _ => rfl) (fun _ _ _ => rfl) (fun _ => rfl) h.leg2.lims
    ⟨y.leg1.sub, ⟨y.leg2.sub.rtc, y.leg2.sub.ptc, noLims⟩, ⟨y.leg3.sub.rtc, y.leg3.sub.ptc, noLims⟩⟩ rfl
  have hl3 := lims_body hK.naturals (A := A) (h := tw3Sub K A) (root := "threeWindingsTransformer") (a := "activePowerLimits3") (p := "apparentPowerLimits3") (c := "currentLimits3")
    (get := fun s => s.three.lims) (put := fun s m => { s with three := { s.three with lims := m } }) rfl rfl rfl
    (fun s toks l r hr => by simp only [limitsSub, hr, Out.monad_bind_ok]) (fun s toks l r hr => by simp only [limitsSub, hr, Out.monad_bind_ok])
    (fun s toks l r hr => by simp only [limitsSub, hr, Out.monad_bind_ok]) (fun _ _ => rfl) (fun _ _ _ => rfl) (fun _ => rfl) h.leg3.lims
    ⟨y.leg1.sub, y.leg2.sub, ⟨y.leg3.sub.rtc, y.leg3.sub.ptc, noLims⟩⟩ rfl
  have hbody := hb1.append (hb2.append (hb3.append (hl1.append (hl2.append hl3))))
  simp only [List.append_assoc] at hbody
  unfold writeTw3
  simp only [hp1, hp2, hp3, Out.monad_bind_ok]
  refine readElem_ert (a := ⟨y.leg1.z, y.leg2.z, y.leg3.z, y.ratedU0, y.leg1.side, y.leg2.side, y.leg3.side⟩) (s1 := ⟨y.leg1.sub, y.leg2.sub, y.leg3.sub⟩) h.ident
    ⟨by lks tw3Attrs, by lks tw3Attrs⟩ (by decide) rfl rfl (fun e tl => ?_) hbody ?_
  · unfold readTw3Root
    rw [readLegZ_at h.leg1 (by lks tw3Attrs) (by lks tw3Attrs) (by lks tw3Attrs) (by lks tw3Attrs) (by lks tw3Attrs) (by lks tw3Attrs),
      readLegZ_at h.leg2 (by lks tw3Attrs) (by lks tw3Attrs) (by lks tw3Attrs) (by lks tw3Attrs) (by lks tw3Attrs) (by lks tw3Attrs),
      readLegZ_at h.leg3 (by lks tw3Attrs) (by lks tw3Attrs) (by lks tw3Attrs) (by lks tw3Attrs) (by lks tw3Attrs) (by lks tw3Attrs),
      getD_at (d := y.ratedU0) (by lks tw3Attrs) h.ratedU0.1 h.ratedU0.2,
      readLegSide_at hK (x := y.leg1.side) ⟨⟨by lks tw3Attrs, by lks tw3Attrs, by lks tw3Attrs⟩, by lks tw3Attrs, by lks tw3Attrs, by lks tw3Attrs⟩ h.leg1.side,
      readLegSide_at hK (x := y.leg2.side) ⟨⟨by lks tw3Attrs, by lks tw3Attrs, by lks tw3Attrs⟩, by lks tw3Attrs, by lks tw3Attrs, by lks tw3Attrs⟩ h.leg2.side,
      readLegSide_at hK (x := y.leg3.side) ⟨⟨by lks tw3Attrs, by lks tw3Attrs, by lks tw3Attrs⟩, by lks tw3Attrs, by lks tw3Attrs, by lks tw3Attrs⟩ h.leg3.side]
    simp only [Out.monad_bind_ok, h.ratedU0.1, Bool.false_eq_true, if_false]
  · unfold buildTw3
    have : decide (1 < regCount3 ⟨y.leg1.sub, y.leg2.sub, y.leg3.sub⟩) = false := by
      have := h.single
      simp only [List.countP_append] at this
      simp only [regCount3, regCount_flags]
      simp; omega
    simp only [this, check_false, Out.monad_bind_ok]

def someLeg (v : String) (r : Option Rtc) (p : Option Ptc) : Leg := ⟨⟨1, 2, 3, 4, 400, 100⟩, ⟨v, ⟨.node 7, 1, .nan⟩⟩, ⟨r, p, ⟨none, some someLimits, none⟩⟩⟩

theorem someLeg_ok {v : String} {r : Option Rtc} {p : Option Ptc} (hr : RtcsOk toyX Anon.none r) (hp : PtcsOk toyX Anon.none p) : LegOk toyX Anon.none (someLeg v r p) :=
  ⟨toyX_num rfl, toyX_num rfl, toyX_num rfl, toyX_num rfl, toyX_num rfl, ⟨.inr (show Dbl.lt 0 100 = true by decide), toyX_keeps _⟩, ⟨rfl, ⟨place_node (by decide), toyX_keeps _, toyX_keeps _⟩⟩, hr, hp,
    ⟨limitsOk_none, someLimits_ok, limitsOk_none⟩⟩

def someTw3 : Tw3 := ⟨⟨⟨"T3", "", false⟩, [], []⟩, someLeg "VL1" (some someRtc) none, someLeg "VL2" none none, someLeg "VL3" none (some somePtc), 225⟩

theorem someTw3_ok : Tw3Ok toyX Anon.none someTw3 :=
  ⟨plain_ident, someLeg_ok someRtc_ok nofun, someLeg_ok nofun nofun, someLeg_ok nofun somePtc_ok, toyX_num (by decide), by decide⟩

theorem someTw3_read : ElemRT "threeWindingsTransformer" (writeTw3 toyX Anon.none someTw3) (readTw3 toyX Anon.none) someTw3 :=
  three_windings_transformer_round_trip toyX_integers someTw3_ok

/-! ### Large nodes -/

/-- `std::stoi` refuses the nodes that an `int` cannot hold. -/
def XCodec.Refuses (K : XCodec) : Prop := ∀ n : Nat, 2 ^ 31 ≤ n → K.readInt (K.showN n) = .thrown

/-- **C68, violation** A line connected to a node that an `int` cannot hold is written, as any other, and cannot be read: `AbstractConnectableXml.hxx`
l. 66-95 reads the nodes of branches as `int`, those of injections and legs as `unsigned long`. -/
theorem large_node_unreadable {K : XCodec} (hR : K.Refuses) {A : Anon} {y : Line} {n : Nat} (hp : y.side1.term.place = .node n) (hn : 2 ^ 31 ≤ n) :
    (∃ body, writeLine K A y = .ok (elemCmds "line" (headAttrs A .v15 y.ident.head ++ lineAttrs K A y) body)) ∧
    ∀ e tl r, readLine K A (.start "line" (headAttrs A .v15 y.ident.head ++ lineAttrs K A y) e :: tl) ≠ .ok r := by
  refine ⟨⟨_, rfl⟩, fun e tl r h => ?_⟩
  have hl : lookup "node1" (headAttrs A .v15 y.ident.head ++ lineAttrs K A y) = some (K.showN n) := by lks lineAttrs; rw [hp]; rfl
  have ho : optInt K "node1" (.start "line" (headAttrs A .v15 y.ident.head ++ lineAttrs K A y) e :: tl) = .thrown := by
    simp only [optInt, rawAttr, hl, Out.bind_ok, hR n hn]; rfl
  unfold readLine readElem at h
  obtain ⟨_, _, h⟩ := Out.bind_eq_ok.1 h
  obtain ⟨a, ha, _⟩ := Out.bind_eq_ok.1 h
  unfold readLineRoot at ha
  obtain ⟨_, _, ha⟩ := Out.bind_eq_ok.1 ha
  obtain ⟨s, hs, _⟩ := Out.bind_eq_ok.1 ha
  unfold readSides at hs
  obtain ⟨b, hb, _⟩ := Out.bind_eq_ok.1 hs
  unfold readBranchPlace at hb
  obtain ⟨_, _, hb⟩ := Out.bind_eq_ok.1 hb
  obtain ⟨_, _, hb⟩ := Out.bind_eq_ok.1 hb
  obtain ⟨o, hb, _⟩ := Out.bind_eq_ok.1 hb
  exact nomatch ho.symm.trans hb

/-- The codec of the examples, with the refusal of `std::stoi`. -/
def toyInt : XCodec := { toyX with readInt := fun s => (toyX.readInt s).bind fun i => if -2 ^ 31 ≤ i ∧ i < 2 ^ 31 then .ok i else .thrown }

theorem toyInt_readInt (s : String) : toyInt.readInt s = (toyX.readInt s).bind fun i => if -2 ^ 31 ≤ i ∧ i < 2 ^ 31 then .ok i else .thrown := rfl

theorem toyInt_integers : toyInt.Integers where
  naturals := toy_naturals
  long := toyX_integers.long
  int i h1 h2 := by
    rw [toyInt_readInt, show toyInt.showI i = toyX.showI i from rfl, toyX_integers.int i h1 h2, Out.bind_ok, if_pos ⟨h1, h2⟩]
  intOfNat n h := by
    rw [toyInt_readInt, show toyInt.showN n = toyX.showN n from rfl, toyX_integers.intOfNat n h, Out.bind_ok, if_pos (by omega)]

theorem toyInt_refuses : toyInt.Refuses := by
  intro n hn
  have : toyX.readInt (toyX.showN n) = .ok (n : Int) := by
    show Out.ok ((if count '-' (marks 'x' n) = 0 then (1 : Int) else -1) * (count 'x' (marks 'x' n) : Int)) = .ok (n : Int)
    simp [count, marks]
  rw [toyInt_readInt, show toyInt.showN n = toyX.showN n from rfl, this, Out.bind_ok, if_neg (by omega)]

/-- A load on the same node is read back. -/
example : ElemRT "load" (writeLoad toyInt Anon.none ⟨⟨⟨"L", "", false⟩, [], []⟩, 0, 1, 2, ⟨.node (2 ^ 40), .nan, .nan⟩⟩) (readLoad toyInt Anon.none)
    ⟨⟨⟨"L", "", false⟩, [], []⟩, 0, 1, 2, ⟨.node (2 ^ 40), .nan, .nan⟩⟩ :=
  load_round_trip toyInt_integers ⟨plain_ident, by decide, ⟨by decide, toyX_keeps _⟩, ⟨by decide, toyX_keeps _⟩, ⟨place_node (by decide), toyX_keeps _, toyX_keeps _⟩⟩

example : ∀ e tl r, readLine toyInt Anon.none (.start "line" (headAttrs Anon.none .v15 someLine.ident.head ++ lineAttrs toyInt Anon.none { someLine with side1 := ⟨"VL1", ⟨.node (2 ^ 40), 1, .nan⟩⟩ }) e :: tl) ≠ .ok r :=
  (large_node_unreadable toyInt_refuses (y := { someLine with side1 := ⟨"VL1", ⟨.node (2 ^ 40), 1, .nan⟩⟩ }) rfl (by decide)).2

end Verif.XmlNet
