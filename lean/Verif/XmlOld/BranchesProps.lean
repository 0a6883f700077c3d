import Verif.XmlOld.InjectionsProps
import Verif.XmlNet.BranchesProps

/-!
C86: lines and tie lines, written in any version of IIDM-XML with any behaviour on what the version does not have.
-/

namespace Verif.XmlOld

open Verif Verif.Xml Verif.XmlNet

macro "lko " t:ident : tactic =>
  `(tactic| simp [$t:ident, lookup_append, lookup_cons, lookup_nil, lookup_attrD, lookup_attrB, lookup_attrOptB, lookup_attrOptD, lookup_attrN, lookup_attrI, lookup_headAttrs, lookup_place, lookup_ite,
    pqAttrs, sideAttrs, sidesAttrs, characAttrs, XmlOld.halfAttrs])

/-! ### Lines -/

theorem line_kept {K : XCodec} (hK : K.Integers) {A : Anon} (c : Ctx) {y : Line} (h : LineOk K A y) :
    Kept c.behaviour "line" (writeLine K A c y) (readLine K A c.version) (keptLine c.version y) (lostBranch c.version y.lims) := by
  refine ⟨_, _, reports_elem (l := []) (m := lostBranch c.version y.lims) (Reports.plain _ _) (reports_branch K c y.lims), ?_⟩
  refine readElem_rt (a := (y.z, y.side1, y.side2)) (s1 := keptBranch c.version y.lims) h.ident ⟨by lks lineAttrs, by lks lineAttrs⟩ (by decide) rfl rfl (fun e tl => ?_)
    (branch_body hK h.one h.two) rfl
  unfold readLineRoot
  rw [readCharac_at h.z (by lks lineAttrs) (by lks lineAttrs) (by lks lineAttrs) (by lks lineAttrs) (by lks lineAttrs) (by lks lineAttrs),
    readSides_at hK (x := y.side1) (y := y.side2) ⟨⟨by lks lineAttrs, by lks lineAttrs, by lks lineAttrs⟩, by lks lineAttrs, by lks lineAttrs, by lks lineAttrs⟩
      ⟨⟨by lks lineAttrs, by lks lineAttrs, by lks lineAttrs⟩, by lks lineAttrs, by lks lineAttrs, by lks lineAttrs⟩ h.side1 h.side2]
  rfl

/-- **C86** A line is read back as it was written, less what its version does not have: before version 1.5 its limits on powers are dropped and reported, its current limits kept. -/
theorem line_old {K : XCodec} (hK : K.Integers) {A : Anon} (c : Ctx) {y : Line} (h : LineOk K A y) :
    ∃ doc, Reports c.behaviour (writeLine K A c y) doc (lostBranch c.version y.lims) ∧ RoundTrip doc (readLine K A c.version) (keptLine c.version y) := (line_kept hK c h).doc

/-- A line that has only current limits, in version 1.0: nothing is lost. -/
example : ∃ doc, Reports .throwException (writeLine toyX .none ⟨.v10, .throwException⟩ someLine) doc [] ∧ RoundTrip doc (readLine toyX .none .v10) someLine :=
  line_old toyX_integers ⟨.v10, .throwException⟩ someLine_ok

/-! ### Tie lines -/

theorem readHalf_old {K : XCodec} {A : Anon} {v : Ver} {s n : String} {as : List (String × String)} {y : Half} (hA : A.KeepsEmpty) (hy : HalfOk K A y)
    (hid : lookup ("id" ++ s) as = some (A.anon y.id)) (hname : lookup ("name" ++ s) as = if y.id = y.name then none else some (A.anon y.name))
    (hf : v.ge .v13 = true → lookup ("fictitious" ++ s) as = if y.fictitious = false then none else some (if y.fictitious then "true" else "false"))
    (hz : ∀ e rest, readCharac K s (.start n as e :: rest) = .ok y.z) (e : Bool) (rest : List Tok) : readHalf K A v s (.start n as e :: rest) = .ok (keptHalf v y) := by
  have h1 : A.dean (A.anon y.id) = .ok y.id := hy.id.1
  have h2 : A.dean (A.anon y.name) = .ok y.name := hy.name.1
  have h3 : A.dean "" = .ok "" := hA
  have h4 : runFromMinimumVersion .v13 v (fun _ => optBOr ("fictitious" ++ s) false (.start n as e :: rest)) false = .ok (keptHalf v y).fictitious := by
    unfold runFromMinimumVersion
    cases hv : v.ge .v13 with
    | true =>
      have hk : keptHalf v y = y := by cases v <;> first | rfl | exact absurd hv (by decide)
      rw [if_pos rfl, hk]
      have hf := hf hv
      cases hy : y.fictitious <;> simp [optBOr, rawAttr, hf, hy]
      rfl
    | false =>
      cases v <;> first | rfl | exact absurd hv (by decide)
  have h5 : ∀ nm, nm = y.name → (⟨y.id, nm, (keptHalf v y).fictitious, y.z⟩ : Half) = keptHalf v y := by rintro _ rfl; cases v <;> rfl
  unfold readHalf
  rw [getS_attr hid, hz, h4]
  simp only [Out.monad_bind_ok, h1, show (y.id == "") = false by simp [hy.id.2], check_false]
  by_cases hn : y.id = y.name
  · have : optSOr ("name" ++ s) "" (.start n as e :: rest) = .ok "" := by simp [optSOr, rawAttr, hname, hn]
    simp only [this, Out.monad_bind_ok, h3, if_true]
    rw [h5 _ hn]
  · have : optSOr ("name" ++ s) "" (.start n as e :: rest) = .ok (A.anon y.name) := by simp [optSOr, rawAttr, hname, hn]
    simp only [this, Out.monad_bind_ok, h2, if_neg hy.name.2]
    rw [h5 _ rfl]

/-- What is read back of the power at the boundary. -/
structure XnodeOk (K : XCodec) (b : Xnode) : Prop where
  p1 : K.Keeps b.p1
  p2 : K.Keeps b.p2
  q1 : K.Keeps b.q1
  q2 : K.Keeps b.q2

theorem tie_half1 {K : XCodec} {A : Anon} {v : Ver} {y : TieLine} {b : Xnode} (h : TieOk K A y) (e : Bool) (tl : List Tok) :
    readHalf K A v "_1" (.start "tieLine" (headAttrs A v y.ident.head ++ tieAttrs K A v y b) e :: tl) = .ok (keptHalf v y.half1) :=
  readHalf_old h.empty h.half1 (by lko tieAttrs) (by lko tieAttrs) (fun hv => by lko tieAttrs; simp [hv])
    (readCharac_at h.half1.z (by lko tieAttrs) (by lko tieAttrs) (by lko tieAttrs) (by lko tieAttrs) (by lko tieAttrs) (by lko tieAttrs)) e tl

theorem tie_half2 {K : XCodec} {A : Anon} {v : Ver} {y : TieLine} {b : Xnode} (h : TieOk K A y) (e : Bool) (tl : List Tok) :
    readHalf K A v "_2" (.start "tieLine" (headAttrs A v y.ident.head ++ tieAttrs K A v y b) e :: tl) = .ok (keptHalf v y.half2) :=
  readHalf_old h.empty h.half2 (by lko tieAttrs) (by lko tieAttrs) (fun hv => by lko tieAttrs; simp [hv])
    (readCharac_at h.half2.z (by lko tieAttrs) (by lko tieAttrs) (by lko tieAttrs) (by lko tieAttrs) (by lko tieAttrs) (by lko tieAttrs)) e tl

theorem tie_xnode {K : XCodec} {A : Anon} {v : Ver} {y : TieLine} {b : Xnode} (hb : XnodeOk K b) (e : Bool) (tl : List Tok) :
    readXnode K v (.start "tieLine" (headAttrs A v y.ident.head ++ tieAttrs K A v y b) e :: tl) = .ok (keptXnode v b) := by
  unfold readXnode runUntilMaximumVersion
  cases hv : v.le .v14 with
  | false => cases v <;> first | rfl | exact absurd hv (by decide)
  | true =>
    have hk : keptXnode v b = some ⟨b.p1, b.p2, b.q1, b.q1⟩ := by
      cases v <;> first | rfl | exact absurd hv (by decide)
    simp only [if_true]
    rw [optDOr_attr (d := b.p1) (by lko tieAttrs; simp [hv]) hb.p1, optDOr_attr (d := b.p2) (by lko tieAttrs; simp [hv]) hb.p2,
      optDOr_attr (d := b.q1) (by lko tieAttrs; simp [hv]) hb.q1, hk]
    rfl

theorem tie_sides {K : XCodec} (hK : K.Integers) {A : Anon} {v : Ver} {y : TieLine} {b : Xnode} (h : TieOk K A y) (e : Bool) (tl : List Tok) :
    readSides K A (.start "tieLine" (headAttrs A v y.ident.head ++ tieAttrs K A v y b) e :: tl) = .ok (y.side1, y.side2) :=
  readSides_at hK (x := y.side1) (y := y.side2) ⟨⟨by lko tieAttrs, by lko tieAttrs, by lko tieAttrs⟩, by lko tieAttrs, by lko tieAttrs, by lko tieAttrs⟩
    ⟨⟨by lko tieAttrs, by lko tieAttrs, by lko tieAttrs⟩, by lko tieAttrs, by lko tieAttrs, by lko tieAttrs⟩ h.side1 h.side2 e tl

theorem tie_line_kept {K : XCodec} (hK : K.Integers) {A : Anon} (c : Ctx) {y : TieLine} {b : Xnode} (h : TieOk K A y) (hb : XnodeOk K b) :
    Kept c.behaviour "tieLine" (writeTie K A c y b) (readTie K A c.version) (keptTie c.version y, keptXnode c.version b) (lostBranch c.version y.lims) := by
  refine ⟨_, _, reports_elem (l := []) (m := lostBranch c.version y.lims) (Reports.plain _ _) (reports_branch K c y.lims), ?_⟩
  refine readElem_rt (a := ((y.ucte, keptHalf c.version y.half1, keptHalf c.version y.half2, y.side1, y.side2), keptXnode c.version b)) (s1 := keptBranch c.version y.lims) h.ident
    ⟨by lko tieAttrs, by lko tieAttrs⟩ (by decide) rfl rfl (fun e tl => ?_) (branch_body hK h.one h.two) rfl
  unfold readTieRoot
  have hu : optSOr "ucteXnodeCode" "" (.start "tieLine" (headAttrs A c.version y.ident.head ++ tieAttrs K A c.version y b) e :: tl) = .ok y.ucte := by
    have : lookup "ucteXnodeCode" (headAttrs A c.version y.ident.head ++ tieAttrs K A c.version y b) = some y.ucte := by lko tieAttrs
    simp [optSOr, rawAttr, this]
  rw [tie_half1 h, tie_half2 h, tie_sides hK h, hu, tie_xnode hb]
  simp only [Out.monad_bind_ok, show (y.ucte == "") = false by simp [h.ucte], check_false]

/-- **C86** A tie line is read back as it was written, less what its version does not have; before version 1.5 the power at the boundary is written too, and the reader gets it
back, except the reactive power of the second half, for which it takes that of the first one. -/
theorem tie_line_old {K : XCodec} (hK : K.Integers) {A : Anon} (c : Ctx) {y : TieLine} {b : Xnode} (h : TieOk K A y) (hb : XnodeOk K b) :
    ∃ doc, Reports c.behaviour (writeTie K A c y b) doc (lostBranch c.version y.lims) ∧ RoundTrip doc (readTie K A c.version) (keptTie c.version y, keptXnode c.version b) := (tie_line_kept hK c h hb).doc

/-- In version 1.4, with limits on active powers. -/
example : ∃ doc, Reports .logError (writeTie toyX .none ⟨.v14, .logError⟩ someTie ⟨1, 2, 3, 4⟩) doc ["activePowerLimits2"] ∧
    RoundTrip doc (readTie toyX .none .v14) ({ someTie with lims := ⟨noLims, noLims⟩ }, some ⟨1, 2, 3, 3⟩) :=
  tie_line_old toyX_integers ⟨.v14, .logError⟩ someTie_ok ⟨toyX_keeps _, toyX_keeps _, toyX_keeps _, toyX_keeps _⟩

/-! ### The power at the boundary -/

/-- The check that the messages of the reader announce: a value is there and is not the computed one. -/
def Mismatch (imported calculated : Dbl) : Prop := imported.isNan = false ∧ imported ≠ calculated

/-- **C86** A value is reported exactly when it is there and is not the computed one. -/
theorem boundary_warning_iff (i c : Dbl) (n m : String) : m ∈ boundaryWarning i c n ↔ m = n ∧ Mismatch i c := by
  have hne : (!i.isNan && (Dbl.lt i c || Dbl.lt c i || c.isNan)) = true ↔ Mismatch i c := by
    unfold Mismatch
    cases i with
    | nan => simp [Dbl.isNan]
    | negInf => cases c <;> simp [Dbl.isNan, Dbl.lt]
    | posInf => cases c <;> simp [Dbl.isNan, Dbl.lt]
    | fin a =>
      cases c with
      | nan => simp [Dbl.isNan]
      | negInf => simp [Dbl.isNan, Dbl.lt]
      | posInf => simp [Dbl.isNan, Dbl.lt]
      | fin b =>
        simp only [Dbl.isNan, Dbl.lt, Bool.not_false, Bool.true_and, Bool.or_false, Bool.or_eq_true, decide_eq_true_eq, ne_eq, Dbl.fin.injEq, true_and]
        constructor
        · rintro (h | h) rfl <;> exact absurd h (Rat.lt_irrefl)
        · intro h
          rcases Rat.le_total (a := a) (b := b) with h1 | h1
          · exact .inl (Rat.lt_of_le_of_ne h1 h)
          · exact .inr (Rat.lt_of_le_of_ne h1 (fun e => h e.symm))
  unfold boundaryWarning
  split
  · next h => simp [hne.1 h]
  · next h => simp [show ¬ Mismatch i c from fun hm => h (hne.2 hm)]

/-- **C86** What an import reports, when the values it computes are those of the export, is exactly what has no number or differs: nothing about active powers, nor about the
reactive power of the first half.  Partial: `boundary_check_wrong` for that of the second half. -/
theorem boundary_warnings_partial (b : Xnode) (hq : b.q1.isNan = true ∨ b.q1 = b.q2) : boundaryWarnings ⟨b.p1, b.p2, b.q1, b.q1⟩ b = [] := by
  refine List.eq_nil_iff_forall_not_mem.2 fun m hm => ?_
  simp only [boundaryWarnings, List.mem_append, boundary_warning_iff, Mismatch] at hm
  rcases hm with ⟨_, _, h⟩ | ⟨_, _, h⟩ | ⟨_, _, h⟩ | ⟨_, h1, h⟩
  · exact h rfl
  · exact h rfl
  · exact h rfl
  · rcases hq with h2 | h2
    · rw [h2] at h1; cases h1
    · exact h h2

example : boundaryWarnings ⟨1, 2, 3, 3⟩ ⟨1, 2, 3, 3⟩ = [] := boundary_warnings_partial ⟨1, 2, 3, 3⟩ (.inr rfl)

/-- **C86, violation** `TieLineXml.cpp` l. 81 reads the reactive power of the second half from the attribute of the first one, and l. 87 reports it under the name of an active
power.  So an import of what was just exported, with the values that it computes itself, reports the active power of the second half; and a document whose reactive power of the
second half is wrong is not reported. -/
theorem boundary_check_wrong :
    (∀ b : Xnode, b.q1.isNan = false → b.q1 ≠ b.q2 → boundaryWarnings ⟨b.p1, b.p2, b.q1, b.q1⟩ b = ["xnodeP_2"]) ∧
    (∀ (b : Xnode) (q : Dbl), b.q1 = b.q2 → keptXnode .v14 { b with q2 := q } = some b ∧ boundaryWarnings b b = []) := by
  have h0 : ∀ (d : Dbl) (n : String), boundaryWarning d d n = [] := fun d n =>
    List.eq_nil_iff_forall_not_mem.2 fun m hm => ((boundary_warning_iff d d n m).1 hm).2.2 rfl
  refine ⟨fun b h1 h2 => ?_, fun b q hq => ⟨?_, ?_⟩⟩
  · have : boundaryWarning b.q1 b.q2 "xnodeP_2" = ["xnodeP_2"] := by
      have hm := (boundary_warning_iff b.q1 b.q2 "xnodeP_2" "xnodeP_2").2 ⟨rfl, h1, h2⟩
      unfold boundaryWarning at hm ⊢
      split <;> simp_all
    simp [boundaryWarnings, h0, this]
  · obtain ⟨p1, p2, q1, q2⟩ := b
    simp only at hq
    subst hq
    rfl
  · simp [boundaryWarnings, h0]

/-- Nothing changed between the export and the import: still a message, on a value that is right. -/
example : boundaryWarnings ⟨1, 2, 3, 3⟩ ⟨1, 2, 3, 4⟩ = ["xnodeP_2"] := boundary_check_wrong.1 ⟨1, 2, 3, 4⟩ (by decide) (by decide)

/-- **C86, violation** Before version 1.3 the flag of a fictitious half is dropped and nothing is reported, even with the behaviour that throws (`TieLineXml.cpp` l. 138-140). -/
theorem half_flag_lost {v : Ver} (hv : ¬ Supports .v13 v) : ∃ doc, writeTie toyX .none ⟨v, .throwException⟩ { someTie with lims := ⟨noLims, noLims⟩ } ⟨1, 2, 3, 4⟩ = .ok ⟨doc, []⟩ ∧
    RoundTrip doc (readTie toyX .none v) (keptTie v { someTie with lims := ⟨noLims, noLims⟩ }, some ⟨1, 2, 3, 3⟩) ∧
    someTie.half1.fictitious = true ∧ (keptTie v { someTie with lims := ⟨noLims, noLims⟩ }).half1.fictitious = false := by
  have hok : TieOk toyX .none { someTie with lims := ⟨noLims, noLims⟩ } := { someTie_ok with one := noLims_ok, two := noLims_ok }
  obtain ⟨doc, h1, h2⟩ := tie_line_old toyX_integers (A := .none) ⟨v, .throwException⟩ (b := ⟨1, 2, 3, 4⟩) hok ⟨toyX_keeps _, toyX_keeps _, toyX_keeps _, toyX_keeps _⟩
  have hl : lostBranch v ⟨noLims, noLims⟩ = [] := by cases v <;> rfl
  have hw := h1.1 (.inl hl)
  refine ⟨doc, ?_, ?_, rfl, ?_⟩
  · rw [hw]
    show Out.ok (Written.mk doc (lostBranch v ⟨noLims, noLims⟩).reverse) = _
    rw [hl]
    rfl
  · cases v <;> first | exact absurd (by decide) hv | exact h2
  · cases v <;> first | exact absurd (by decide) hv | rfl

end Verif.XmlOld
