import Verif.XmlNet.ImportLemmas
import Verif.XmlNet.BranchesProps

/-!
C69: whatever the document, an equipment that is read is valid.  Nothing is assumed of the nodes, of the codec of numbers or of the anonymizer.
-/

namespace Verif.XmlNet

open Verif Verif.Xml

theorem keeps_noSub : Keeps noSub fun _ => True := fun _ _ h => nomatch h

section callbacks

variable {σ : Type} {P : σ → Prop}

theorem refCb_keeps {A : Anon} {b : Bool} {set : σ → Ref → σ} (hs : ∀ s r, P s → P (set s r)) (s : σ) (toks : List Tok) (s' : σ) (r : List Tok) (h : P s)
    (he : refCb A b set s toks = .ok (s', r)) : P s' := by
  unfold refCb at he
  obtain ⟨x, _, he⟩ := Out.bind_eq_ok.1 he
  simp only [Out.ok.injEq, Prod.mk.injEq] at he
  exact he.1 ▸ hs s x.1 h

theorem reactiveCb_keeps {K : XCodec} {set : σ → Reactive → σ} (hs : ∀ s r, P s → ReactiveValid r → P (set s r)) (s : σ) (toks : List Tok) (s' : σ) (r : List Tok) (h : P s)
    (he : reactiveCb K set s toks = .ok (s', r)) : P s' := by
  unfold reactiveCb at he
  obtain ⟨x, hx, he⟩ := Out.bind_eq_ok.1 he
  simp only [Out.ok.injEq, Prod.mk.injEq] at he
  exact he.1 ▸ hs s x.1 h (readReactive_valid (show _ = Out.ok (x.1, x.2) from hx))

theorem limitsSub_keeps {K : XCodec} {el : String} {set : σ → Limits.LL → σ} (hs : ∀ s l, P s → LimitsValid l → P (set s l)) (s : σ) (toks : List Tok) (s' : σ) (r : List Tok) (h : P s)
    (he : limitsSub K el set s toks = .ok (s', r)) : P s' := by
  unfold limitsSub at he
  obtain ⟨x, hx, he⟩ := Out.bind_eq_ok.1 he
  simp only [Out.ok.injEq, Prod.mk.injEq] at he
  exact he.1 ▸ hs s x.1 h (readLimits_valid (show _ = Out.ok (x.1, x.2) from hx))

end callbacks

/-! ### Injections -/

/-- **C69** Loads. -/
theorem readLoad_valid {K : XCodec} {A : Anon} {toks rest : List Tok} {x : Load} (h : readLoad K A toks = .ok (x, rest)) : LoadValid x := by
  obtain ⟨i, a, s, hi, ha, _, hm⟩ := readElem_ok keeps_noSub trivial h
  unfold readLoadRoot at ha
  obtain ⟨name, _, ha⟩ := Out.bind_eq_ok.1 ha
  split at ha
  all_goals
    simp only [bind_ok_iff, check_ok_iff] at ha
    obtain ⟨kind, hk, p0, _, q0, _, pl, hpl, _, h1, _, h2, t, ht, ha⟩ := ha
    simp only [Out.ok.injEq] at ha hm
    subst ha hm
    refine ⟨hi, readTerm_place ht ▸ readPlace_valid hpl, ?_, h1, h2⟩
  · simp only [Out.ok.injEq] at hk; subst hk; show 0 < Enums.loadType.enumerators.length; decide
  · exact enum_valid hk

theorem genSub_keeps {K : XCodec} {A : Anon} : Keeps (genSub K A) fun s => ReactiveValid s.2 := by
  intro n cb hcb
  unfold genSub at hcb
  split at hcb
  · simp only [Option.some.injEq] at hcb; exact hcb ▸ refCb_keeps fun s r hs => hs
  · split at hcb
    · simp only [Option.some.injEq] at hcb; exact hcb ▸ reactiveCb_keeps fun s r _ hr => hr
    · cases hcb

/-- **C69** Generators. -/
theorem readGen_valid {K : XCodec} {A : Anon} {toks rest : List Tok} {x : Gen} (h : readGen K A toks = .ok (x, rest)) : GenValid x := by
  obtain ⟨i, a, s, hi, ha, hs, hm⟩ := readElem_ok genSub_keeps defaultReactive_valid h
  simp only [readGenRoot, bind_ok_iff, check_ok_iff] at ha
  obtain ⟨name, _, src, hk, minP, _, maxP, _, rs, _, on, _, tp, _, tv, _, tq, _, pl, hpl, _, h1, _, h2, _, h3, _, h4, _, h5, _, h6, t, ht, ha⟩ := ha
  simp only [Out.ok.injEq] at ha hm
  subst ha hm
  exact ⟨hi, readTerm_place ht ▸ readPlace_valid hpl, enum_valid hk, range_valid h1 h2 h5, h3, checkControl_valid h4, checkRatedS_valid h6, hs⟩

theorem holderSub_keeps {K : XCodec} : Keeps (holderSub K) ReactiveValid := by
  intro n cb hcb
  unfold holderSub at hcb
  split at hcb
  · simp only [Option.some.injEq] at hcb; exact hcb ▸ reactiveCb_keeps fun s r _ hr => hr
  · cases hcb

/-- **C69** Batteries. -/
theorem readBat_valid {K : XCodec} {A : Anon} {toks rest : List Tok} {x : Bat} (h : readBat K A toks = .ok (x, rest)) : BatValid x := by
  obtain ⟨i, a, s, hi, ha, hs, hm⟩ := readElem_ok holderSub_keeps defaultReactive_valid h
  simp only [readBatRoot, bind_ok_iff, check_ok_iff] at ha
  obtain ⟨p0, _, q0, _, minP, _, maxP, _, pl, hpl, _, h1, _, h2, _, h3, _, h4, _, h5, t, ht, ha⟩ := ha
  simp only [Out.ok.injEq] at ha hm
  subst ha hm
  exact ⟨hi, readTerm_place ht ▸ readPlace_valid hpl, h1, h2, range_valid h3 h4 h5, hs⟩

/-- **C69** Line commutated converter stations. -/
theorem readLcc_valid {K : XCodec} {A : Anon} {toks rest : List Tok} {x : Lcc} (h : readLcc K A toks = .ok (x, rest)) : LccValid x := by
  obtain ⟨i, a, s, hi, ha, _, hm⟩ := readElem_ok keeps_noSub trivial h
  simp only [readLccRoot, bind_ok_iff] at ha
  obtain ⟨l, _, p, _, pl, hpl, _, h1, _, h2, t, ht, ha⟩ := ha
  simp only [Out.ok.injEq] at ha hm
  subst ha hm
  exact ⟨hi, readTerm_place ht ▸ readPlace_valid hpl, checkLoss_valid h1, checkPowerFactor_valid h2⟩

/-- **C69** Voltage source converter stations. -/
theorem readVsc_valid {K : XCodec} {A : Anon} {toks rest : List Tok} {x : Vsc} (h : readVsc K A toks = .ok (x, rest)) : VscValid x := by
  obtain ⟨i, a, s, hi, ha, hs, hm⟩ := readElem_ok holderSub_keeps defaultReactive_valid h
  simp only [readVscRoot, bind_ok_iff] at ha
  obtain ⟨on, _, l, _, v, _, q, _, pl, hpl, _, h1, _, h2, t, ht, ha⟩ := ha
  simp only [Out.ok.injEq] at ha hm
  subst ha hm
  exact ⟨hi, readTerm_place ht ▸ readPlace_valid hpl, checkLoss_valid h1, checkControl_valid h2, hs⟩

theorem svcSub_keeps {A : Anon} : Keeps (svcSub A) fun _ => True := fun _ _ _ _ _ _ _ _ _ => trivial

/-- **C69** Static VAR compensators. -/
theorem readSvc_valid {K : XCodec} {A : Anon} {toks rest : List Tok} {x : Svc} (h : readSvc K A toks = .ok (x, rest)) : SvcValid x := by
  obtain ⟨i, a, s, hi, ha, _, hm⟩ := readElem_ok svcSub_keeps trivial h
  simp only [readSvcRoot, checkSvc, bind_ok_iff, check_ok_iff] at ha
  obtain ⟨b1, _, b2, _, v, _, q, _, name, _, mode, hk, pl, hpl, _, h1, _, h2, _, h3, t, ht, ha⟩ := ha
  simp only [Out.ok.injEq] at ha hm
  subst ha hm
  refine ⟨hi, readTerm_place ht ▸ readPlace_valid hpl, enum_valid hk, h1, h2, ?_, ?_⟩
  · intro h0
    rw [if_pos h0] at h3
    exact h3
  · intro h1
    have h1' : mode = 1 := h1
    rw [if_neg (by omega), if_pos h1'] at h3
    exact h3

/-- The values of a model of shunt compensator are set. -/
def modelSet : Shunt.Model → Prop
  | .linear b _ _ => IsSet b
  | .nonLinear ss => ∀ s ∈ ss, IsSet s.b ∧ IsSet s.g

theorem bPerSection_set {b : Dbl} {u : Unit} (h : Shunt.checkBPerSection b = .ok u) : IsSet b := by
  unfold Shunt.checkBPerSection at h
  split at h
  · cases h
  · rename_i hb; simpa using hb

theorem sectionCb_keeps {K : Codec} (ss : List Shunt.Section) (toks : List Tok) (ss' : List Shunt.Section) (r : List Tok) (hs : ∀ s ∈ ss, IsSet s.b ∧ IsSet s.g)
    (h : sectionCb K ss toks = .ok (ss', r)) : ∀ s ∈ ss', IsSet s.b ∧ IsSet s.g := by
  unfold sectionCb at h
  obtain ⟨n, _, h⟩ := Out.bind_eq_ok.1 h
  split at h
  · obtain ⟨b, _, h⟩ := Out.bind_eq_ok.1 h
    obtain ⟨g, _, h⟩ := Out.bind_eq_ok.1 h
    obtain ⟨c, hc, h⟩ := map_ok_iff.1 h
    simp only [Prod.mk.injEq] at h
    obtain ⟨rfl, rfl⟩ := h
    unfold Shunt.endSection at hc
    obtain ⟨_, hb, hc⟩ := Out.bind_eq_ok.1 hc
    simp only [Out.ok.injEq] at hc
    subst hc
    intro s hm
    rcases List.mem_append.1 hm with hm | hm
    · exact hs s hm
    · simp only [List.mem_singleton] at hm
      subst hm
      refine ⟨bPerSection_set hb, ?_⟩
      cases hg : g.isNan with
      | false => simp [IsSet, hg]
      | true =>
        cases hl : ss.getLast? with
        | none => simp only [if_true]; rfl
        | some y => simp only [if_true]; exact (hs y (List.mem_of_getLast? hl)).2
  · cases h

theorem shuntCb_keeps {K : Codec} {m m' : Option Shunt.Model} {toks r : List Tok} (h : shuntCb K .v15 m toks = .ok (m', r)) : ∀ x, m' = some x → modelSet x := by
  unfold shuntCb at h
  obtain ⟨n, _, h⟩ := Out.bind_eq_ok.1 h
  split at h
  · obtain ⟨_, _, h⟩ := Out.bind_eq_ok.1 h
    obtain ⟨b, _, h⟩ := Out.bind_eq_ok.1 h
    obtain ⟨g, _, h⟩ := Out.bind_eq_ok.1 h
    obtain ⟨x, _, h⟩ := Out.bind_eq_ok.1 h
    obtain ⟨c, hc, h⟩ := map_ok_iff.1 h
    simp only [Prod.mk.injEq] at h
    obtain ⟨rfl, rfl⟩ := h
    rintro y ⟨⟩
    unfold Shunt.buildLinear at hc
    obtain ⟨_, hb, hc⟩ := Out.bind_eq_ok.1 hc
    simp only at hc
    split at hc
    · cases hc
    · simp only [Out.ok.injEq] at hc
      subst hc
      exact bPerSection_set hb
  · split at h
    · obtain ⟨_, _, h⟩ := Out.bind_eq_ok.1 h
      obtain ⟨x, hx, h⟩ := Out.bind_eq_ok.1 h
      split at h
      · cases h
      · simp only [Out.ok.injEq, Prod.mk.injEq] at h
        obtain ⟨rfl, rfl⟩ := h
        rintro y ⟨⟩
        exact readUntilEnd_inv sectionCb_keeps (s := []) (by simp) (show _ = Out.ok (x.1, x.2) from hx)
    · cases h

theorem shSub_keeps {K : XCodec} {A : Anon} : Keeps (shSub K A) fun s => ∀ x, s.1 = some x → modelSet x := by
  intro n cb hcb
  unfold shSub at hcb
  split at hcb
  · simp only [Option.some.injEq] at hcb; exact hcb ▸ refCb_keeps fun s r hs => hs
  · split at hcb
    · simp only [Option.some.injEq] at hcb
      subst hcb
      intro s toks s' r _ he
      obtain ⟨y, hy, he⟩ := Out.bind_eq_ok.1 he
      simp only [Out.ok.injEq, Prod.mk.injEq] at he
      exact he.1 ▸ shuntCb_keeps (show _ = Out.ok (y.1, y.2) from hy)
    · cases hcb

/-- **C69** Shunt compensators. -/
theorem readSh_valid {K : XCodec} {A : Anon} {toks rest : List Tok} {x : Sh} (h : readSh K A toks = .ok (x, rest)) : ShValid x := by
  obtain ⟨i, a, s, hi, ha, hs, hm⟩ := readElem_ok shSub_keeps (by simp) h
  simp only [readShRoot, bind_ok_iff] at ha
  obtain ⟨on, _, v, _, d, _, n, _, pl, hpl, t, ht, ha⟩ := ha
  simp only [buildSh, bind_ok_iff] at hm
  obtain ⟨b, hb, hm⟩ := hm
  simp only [Out.ok.injEq] at ha hm
  subst ha hm
  obtain ⟨h1, h2, h3, h4, h5, h6, h7, h8, h9⟩ := Shunt.build_ok hb
  refine ⟨hi, readTerm_place ht ▸ readPlace_valid hpl, ⟨h3, h4⟩, ?_, ?_, ?_⟩
  · have := hs _ h1
    show match b.1 with
    | .linear b _ _ => IsSet b
    | .nonLinear ss => ∀ s ∈ ss, IsSet s.b ∧ IsSet s.g
    cases hb1 : b.1 <;> rw [hb1] at this <;> exact this
  · show b.2.on = true → Dbl.lt 0 b.2.targetV = true
    rw [h7, h8]
    intro ho
    unfold Shunt.checkVoltageControl at h5
    split at h5
    · cases h5
    · rename_i hc
      rw [show on = true from ho] at hc
      simp only [Bool.true_and, Bool.or_eq_true, not_or, Bool.not_eq_true] at hc
      exact Dbl.lt_of_not_le hc.1 rfl hc.2
  · show Dbl.lt b.2.deadband 0 = false ∧ (b.2.on = true → IsSet b.2.deadband)
    rw [h7, h9]
    unfold Shunt.checkTargetDeadband at h6
    split at h6
    · cases h6
    · rename_i hc
      split at h6
      · cases h6
      · rename_i hd
        refine ⟨by simpa using hd, fun ho => ?_⟩
        rw [show on = true from ho] at hc
        simpa using hc

/-! ### Dangling lines -/

/-- The codec only reads values that a `double` can hold. -/
def XCodec.Doubles (K : XCodec) : Prop := ∀ s d, K.readD s = .ok d → d.InRange

theorem optDOr_inRange {K : XCodec} (hK : K.Doubles) {k : String} {toks : List Tok} {d : Dbl} (h : optDOr K.toCodec k .nan toks = .ok d) : d.InRange := by
  unfold optDOr at h
  obtain ⟨o, _, h⟩ := Out.bind_eq_ok.1 h
  cases o with
  | none => simp only [Out.ok.injEq] at h; subst h; trivial
  | some v => exact hK v d h

theorem range_aux {M : Rat} (hM : 0 ≤ M) {a b : Dbl} (ha : ∀ q, a = .fin q → q ≤ M) (hb : ∀ q, b = .fin q → -M ≤ q) (h : Dbl.lt b a = false) :
    Dbl.le (if a.isNan then .fin (-M) else a) (if b.isNan then .fin M else b) = true ∨ (if a.isNan then .fin (-M) else a) = .posInf ∨ (if b.isNan then .fin M else b) = .negInf := by
  cases a <;> cases b <;> simp_all [Dbl.isNan, Dbl.le, Dbl.lt] <;> grind

theorem maxRat_nonneg : (0 : Rat) ≤ Dbl.maxRat := by decide +kernel

theorem default_set {d : Dbl} (q : Rat) : IsSet (if d.isNan then .fin q else d) := by
  cases d <;> rfl

theorem dlGen_range {a b : Dbl} (ha : a.InRange) (hb : b.InRange) (h : Dbl.lt b a = false) :
    Dbl.le (if a.isNan then .fin (-Dbl.maxRat) else a) (if b.isNan then dblMax else b) = true ∨ (if a.isNan then .fin (-Dbl.maxRat) else a) = .posInf ∨ (if b.isNan then dblMax else b) = .negInf :=
  range_aux maxRat_nonneg (by rintro q rfl; exact ha.2) (by rintro q rfl; exact hb.1) h

theorem readDlGen_valid {K : XCodec} (hK : K.Doubles) {toks : List Tok} {o : Option DlGen} (h : readDlGen K toks = .ok o) : ∀ y, o = some y → DlGenValid y := by
  unfold readDlGen at h
  obtain ⟨t, _, h⟩ := Out.bind_eq_ok.1 h
  cases t with
  | none =>
    intro y hy
    rw [hy] at h
    have h' : Out.ok (none : Option DlGen) = .ok (some y) := h
    simp at h'
  | some s =>
    dsimp only at h
    simp only [bind_ok_iff, check_ok_iff] at h
    obtain ⟨minP, h1, maxP, h2, p, _, v, _, q, _, _, h3, _, h4, _, h5, h⟩ := h
    intro y hy
    rw [hy] at h
    simp only [Out.ok.injEq, Option.some.injEq] at h
    rw [← h]
    exact ⟨dlGen_range (optDOr_inRange hK h1) (optDOr_inRange hK h2) h3, ⟨default_set _, default_set _⟩, h4, checkControl_valid h5, defaultReactive_valid⟩

/-- What the sub elements of a dangling line keep. -/
def DlSubValid (s : DlSub) : Prop := (∀ l, s.limits = some l → ReactiveValid l) ∧ LimsValid ⟨s.active, s.apparent, s.current⟩

theorem dlSub_keeps {K : XCodec} : Keeps (dlSub K) DlSubValid := by
  intro n cb hcb
  unfold dlSub at hcb
  split at hcb
  · simp only [Option.some.injEq] at hcb
    exact hcb ▸ limitsSub_keeps fun s l hs hl => ⟨hs.1, by rintro x ⟨⟩; exact hl, hs.2.2.1, hs.2.2.2⟩
  · split at hcb
    · simp only [Option.some.injEq] at hcb
      exact hcb ▸ limitsSub_keeps fun s l hs hl => ⟨hs.1, hs.2.1, by rintro x ⟨⟩; exact hl, hs.2.2.2⟩
    · split at hcb
      · simp only [Option.some.injEq] at hcb
        exact hcb ▸ limitsSub_keeps fun s l hs hl => ⟨hs.1, hs.2.1, hs.2.2.1, by rintro x ⟨⟩; exact hl⟩
      · split at hcb
        · simp only [Option.some.injEq] at hcb
          exact hcb ▸ reactiveCb_keeps fun s l hs hl => ⟨by rintro x ⟨⟩; exact hl, hs.2⟩
        · cases hcb

/-- **C69** Dangling lines. -/
theorem readDl_valid {K : XCodec} (hK : K.Doubles) {A : Anon} {toks rest : List Tok} {x : Dl} (h : readDl K A toks = .ok (x, rest)) : DlValid x := by
  obtain ⟨i, a, s, hi, ha, hs, hm⟩ := readElem_ok dlSub_keeps ⟨by simp, by simp, by simp, by simp⟩ h
  simp only [readDlRoot, bind_ok_iff, check_ok_iff] at ha
  obtain ⟨p0, _, q0, _, r, _, x, _, g, _, b, _, gen, hg, u, _, pl, hpl, _, h1, _, h2, _, h3, _, h4, _, h5, _, h6, t, ht, ha⟩ := ha
  simp only [buildDl, bind_ok_iff] at hm
  obtain ⟨gen', hg', hm⟩ := hm
  simp only [Out.ok.injEq] at ha hm
  subst ha hm
  refine ⟨hi, readTerm_place ht ▸ readPlace_valid hpl, ⟨h1, h2, h3, h4, h5, h6⟩, ?_, hs.2⟩
  intro z hz
  have hv := readDlGen_valid hK hg
  have hz' : gen' = some z := hz
  subst hz'
  cases hl : s.limits with
  | none =>
    rw [hl] at hg'
    cases gen <;> simp only [dlGenLimits, Out.ok.injEq] at hg'
    · cases hg'
    · exact hv z hg'
  | some l =>
    rw [hl] at hg'
    cases gen with
    | none => cases hg'
    | some y =>
      simp only [dlGenLimits, Out.ok.injEq, Option.some.injEq] at hg'
      subst hg'
      have hy := hv y rfl
      exact ⟨hy.range, hy.bounds, hy.targetP, hy.control, hs.1 l hl⟩

/-! ### Lines -/

theorem lims_active {l : Lims} {x : Limits.LL} (h : LimsValid l) (hx : LimitsValid x) : LimsValid { l with active := some x } := ⟨by rintro y ⟨⟩; exact hx, h.2.1, h.2.2⟩

theorem lims_apparent {l : Lims} {x : Limits.LL} (h : LimsValid l) (hx : LimitsValid x) : LimsValid { l with apparent := some x } := ⟨h.1, by rintro y ⟨⟩; exact hx, h.2.2⟩

theorem lims_current {l : Lims} {x : Limits.LL} (h : LimsValid l) (hx : LimitsValid x) : LimsValid { l with current := some x } := ⟨h.1, h.2.1, by rintro y ⟨⟩; exact hx⟩

theorem noLims_valid : LimsValid noLims := ⟨by simp [noLims], by simp [noLims], by simp [noLims]⟩

theorem branchSub_keeps {K : XCodec} : Keeps (branchSub K) fun l => LimsValid l.one ∧ LimsValid l.two := by
  intro n cb hcb
  unfold branchSub at hcb
  split at hcb
  · simp only [Option.some.injEq] at hcb; exact hcb ▸ limitsSub_keeps fun s l hs hl => ⟨lims_active hs.1 hl, hs.2⟩
  split at hcb
  · simp only [Option.some.injEq] at hcb; exact hcb ▸ limitsSub_keeps fun s l hs hl => ⟨lims_apparent hs.1 hl, hs.2⟩
  split at hcb
  · simp only [Option.some.injEq] at hcb; exact hcb ▸ limitsSub_keeps fun s l hs hl => ⟨lims_current hs.1 hl, hs.2⟩
  split at hcb
  · simp only [Option.some.injEq] at hcb; exact hcb ▸ limitsSub_keeps fun s l hs hl => ⟨hs.1, lims_active hs.2 hl⟩
  split at hcb
  · simp only [Option.some.injEq] at hcb; exact hcb ▸ limitsSub_keeps fun s l hs hl => ⟨hs.1, lims_apparent hs.2 hl⟩
  split at hcb
  · simp only [Option.some.injEq] at hcb; exact hcb ▸ limitsSub_keeps fun s l hs hl => ⟨hs.1, lims_current hs.2 hl⟩
  · cases hcb

theorem readCharac_valid {K : XCodec} {s : String} {toks : List Tok} {z : Charac} (h : readCharac K s toks = .ok z) : CharacValid z := by
  simp only [readCharac, bind_ok_iff, check_ok_iff, Bool.or_eq_false_iff] at h
  obtain ⟨r, _, x, _, g1, _, b1, _, g2, _, b2, _, _, hn, h⟩ := h
  simp only [Out.ok.injEq] at h
  subst h
  exact ⟨hn.1.2, hn.2, hn.1.1.1.2, hn.1.1.1.1.1, hn.1.1.2, hn.1.1.1.1.2⟩

/-- **C69** Lines. -/
theorem readLine_valid {K : XCodec} {A : Anon} {toks rest : List Tok} {x : Line} (h : readLine K A toks = .ok (x, rest)) : LineValid x := by
  obtain ⟨i, a, s, hi, ha, hs, hm⟩ := readElem_ok branchSub_keeps ⟨noLims_valid, noLims_valid⟩ h
  simp only [readLineRoot, bind_ok_iff] at ha
  obtain ⟨z, hz, s12, h12, ha⟩ := ha
  simp only [Out.ok.injEq] at ha hm
  subst ha hm
  exact ⟨hi, readSides_valid h12, readCharac_valid hz, hs⟩

theorem readHalf_valid {K : XCodec} {A : Anon} {s : String} {toks : List Tok} {y : Half} (h : readHalf K A s toks = .ok y) : HalfValid y := by
  simp only [readHalf, bind_ok_iff, check_ok_iff] at h
  obtain ⟨i, _, id, _, n, _, name, _, z, hz, f, _, _, hid, h⟩ := h
  simp only [Out.ok.injEq] at h
  subst h
  have hne : id ≠ "" := by simpa using hid
  refine ⟨hne, ?_, readCharac_valid hz⟩
  show (if name = "" then id else name) ≠ ""
  split
  · exact hne
  · assumption

/-- **C69** Tie lines. -/
theorem readTie_valid {K : XCodec} {A : Anon} {toks rest : List Tok} {x : TieLine} (h : readTie K A toks = .ok (x, rest)) : TieValid x := by
  obtain ⟨i, a, s, hi, ha, hs, hm⟩ := readElem_ok branchSub_keeps ⟨noLims_valid, noLims_valid⟩ h
  simp only [readTieRoot, bind_ok_iff, check_ok_iff] at ha
  obtain ⟨h1, hh1, h2, hh2, s12, h12, u, _, _, hu, ha⟩ := ha
  simp only [Out.ok.injEq] at ha hm
  subst ha hm
  exact ⟨hi, readSides_valid h12, by simpa using hu, ⟨readHalf_valid hh1, readHalf_valid hh2⟩, hs⟩

theorem checkNominal_valid {v : Dbl} {u : Unit} (h : checkNominal v = .ok u) : Dbl.lt 0 v = true := by
  rw [checkNominal, check_ok_iff, Bool.or_eq_false_iff] at h
  exact Dbl.lt_of_not_le h.1 rfl h.2

theorem checkPositive_valid {v : Dbl} {u : Unit} (h : checkPositive v = .ok u) : Dbl.le 0 v = true := by
  rw [checkPositive, check_ok_iff, Bool.or_eq_false_iff] at h
  exact Dbl.le_of_not_lt h.1 rfl h.2

/-- **C69** HVDC lines. -/
theorem readHvdc_valid {K : XCodec} {A : Anon} {toks rest : List Tok} {x : HvdcLine} (h : readHvdc K A toks = .ok (x, rest)) : HvdcValid x := by
  obtain ⟨i, a, s, hi, ha, _, hm⟩ := readElem_ok keeps_noSub trivial h
  simp only [readHvdcRoot, bind_ok_iff, check_ok_iff, Bool.or_eq_false_iff] at ha
  obtain ⟨r, _, v, _, m, _, mode, hk, sp, _, mx, _, s1, _, s2, _, _, h1, _, h2, _, h3, _, h4, _, h5, ha⟩ := ha
  simp only [Out.ok.injEq] at ha hm
  subst ha hm
  exact ⟨hi, enum_valid hk, h1, checkNominal_valid h2, checkPositive_valid h3, checkPositive_valid h4, by simpa using h5.1, by simpa using h5.2⟩

/-! ### Transformers -/

theorem readStep_valid {K : XCodec} {toks : List Tok} {y : Step} (h : readStep K toks = .ok y) : StepValid y := by
  simp only [readStep, bind_ok_iff, check_ok_iff, Bool.or_eq_false_iff] at h
  obtain ⟨r, _, x, _, g, _, b, _, rho, _, _, hn, h⟩ := h
  simp only [Out.ok.injEq] at h
  subst h
  exact ⟨hn.1.1.1.2, hn.1.1.2, hn.1.2, hn.2, hn.1.1.1.1⟩

theorem checkTaps_valid {low tap : Int} {n : Nat} {on : Bool} {d : Dbl} {u : Unit} (h : checkTaps low tap n on d = .ok u) : TapsValid low tap n on d := by
  simp only [checkTaps, bind_ok_iff, check_ok_iff, Bool.or_eq_false_iff, decide_eq_false_iff_not] at h
  obtain ⟨_, h1, _, h2, _, h3, h4⟩ := h
  refine ⟨by simpa using h1, ?_, h4, ?_⟩
  · intro hl hu
    have hn : 1 ≤ n := by
      have : n ≠ 0 := by simpa using h1
      omega
    have : highTap low n = low + n - 1 := by
      unfold highTap
      rw [Int.emod_eq_of_lt (by omega) (by omega)]
      omega
    omega
  · rintro rfl
    simpa using h3

theorem rtcSub_keeps {K : XCodec} {A : Anon} : Keeps (rtcSub K A) fun s => ∀ y ∈ s.2, StepValid y := by
  intro n cb hcb
  unfold rtcSub at hcb
  split at hcb
  · simp only [Option.some.injEq] at hcb; exact hcb ▸ refCb_keeps fun s r hs => hs
  split at hcb
  · simp only [Option.some.injEq] at hcb
    subst hcb
    intro s toks s' r hs he
    obtain ⟨y, hy, he⟩ := Out.bind_eq_ok.1 he
    simp only [Out.ok.injEq, Prod.mk.injEq] at he
    obtain ⟨rfl, rfl⟩ := he
    intro z hz
    rcases List.mem_append.1 hz with hz | hz
    · exact hs z hz
    · simp only [List.mem_singleton] at hz; exact hz ▸ readStep_valid hy
  · cases hcb

/-- **C69** Ratio tap changers. -/
theorem readRtc_valid {K : XCodec} {A : Anon} {el : String} {toks rest : List Tok} {x : Rtc} (h : readRtc K A el toks = .ok (x, rest)) : RtcValid x := by
  obtain ⟨a, s, ha, hs, hm⟩ := readPlain_ok rtcSub_keeps (by simp) h
  simp only [buildRtc, bind_ok_iff, checkRtc, check_ok_iff] at hm
  obtain ⟨_, h1, _, h2, hm⟩ := hm
  simp only [Out.ok.injEq] at hm
  subst hm
  refine ⟨checkTaps_valid h1, ?_, hs⟩
  intro ho
  have ho' : a.2.2.2.2.1 = true := ho
  rw [ho', Bool.true_and, Bool.or_eq_false_iff] at h2
  refine ⟨?_, fun hl => ?_⟩
  · intro hn
    have hn' : s.1 = none := hn
    simp [hn'] at h2
  · have hl' : a.2.2.2.1 = true := hl
    rw [hl', Bool.true_and, Bool.or_eq_false_iff] at h2
    exact Dbl.lt_of_not_le h2.1.1 rfl h2.1.2

theorem ptcSub_keeps {K : XCodec} {A : Anon} : Keeps (ptcSub K A) fun s => ∀ y ∈ s.2, StepValid y.1 ∧ IsSet y.2 := by
  intro n cb hcb
  unfold ptcSub at hcb
  split at hcb
  · simp only [Option.some.injEq] at hcb; exact hcb ▸ refCb_keeps fun s r hs => hs
  split at hcb
  · simp only [Option.some.injEq] at hcb
    subst hcb
    intro s toks s' r hs he
    obtain ⟨y, hy, he⟩ := Out.bind_eq_ok.1 he
    obtain ⟨a, _, he⟩ := Out.bind_eq_ok.1 he
    obtain ⟨_, ha, he⟩ := Out.bind_eq_ok.1 he
    simp only [Out.ok.injEq, Prod.mk.injEq] at he
    obtain ⟨rfl, rfl⟩ := he
    intro z hz
    rcases List.mem_append.1 hz with hz | hz
    · exact hs z hz
    · simp only [List.mem_singleton] at hz; exact hz ▸ ⟨readStep_valid hy, check_ok_iff.1 ha⟩
  · cases hcb

/-- **C69** Phase tap changers. -/
theorem readPtc_valid {K : XCodec} {A : Anon} {el : String} {toks rest : List Tok} {x : Ptc} (h : readPtc K A el toks = .ok (x, rest)) : PtcValid x := by
  obtain ⟨a, s, ha, hs, hm⟩ := readPlain_ok ptcSub_keeps (by simp) h
  simp only [readPtcRoot, bind_ok_iff] at ha
  obtain ⟨low, _, tap, _, on, _, d, _, m, _, mode, hk, v, _, ha⟩ := ha
  simp only [buildPtc, bind_ok_iff, checkPtc, check_ok_iff] at hm
  obtain ⟨_, h1, _, h2, hm⟩ := hm
  simp only [Out.ok.injEq] at ha hm
  subst ha hm
  refine ⟨enum_valid hk, checkTaps_valid h1, ?_, hs⟩
  intro ho
  have ho' : on = true := ho
  subst ho'
  simp only [Bool.true_and, Bool.or_eq_false_iff, decide_eq_false_iff_not] at h2
  refine ⟨?_, h2.1.2, h2.1.1⟩
  intro hn
  have hn' : s.1 = none := hn
  simp [hn'] at h2

section callbacks2

variable {σ : Type} {P : σ → Prop}

theorem rtcCb_keeps {K : XCodec} {A : Anon} {el : String} {set : σ → Rtc → σ} (hs : ∀ s t, P s → RtcValid t → P (set s t)) (s : σ) (toks : List Tok) (s' : σ) (r : List Tok) (h : P s)
    (he : rtcCb K A el set s toks = .ok (s', r)) : P s' := by
  unfold rtcCb at he
  obtain ⟨x, hx, he⟩ := Out.bind_eq_ok.1 he
  simp only [Out.ok.injEq, Prod.mk.injEq] at he
  exact he.1 ▸ hs s x.1 h (readRtc_valid (show _ = Out.ok (x.1, x.2) from hx))

theorem ptcCb_keeps {K : XCodec} {A : Anon} {el : String} {set : σ → Ptc → σ} (hs : ∀ s t, P s → PtcValid t → P (set s t)) (s : σ) (toks : List Tok) (s' : σ) (r : List Tok) (h : P s)
    (he : ptcCb K A el set s toks = .ok (s', r)) : P s' := by
  unfold ptcCb at he
  obtain ⟨x, hx, he⟩ := Out.bind_eq_ok.1 he
  simp only [Out.ok.injEq, Prod.mk.injEq] at he
  exact he.1 ▸ hs s x.1 h (readPtc_valid (show _ = Out.ok (x.1, x.2) from hx))

theorem liftSub_keeps {τ : Type} {get : τ → σ} {put : τ → σ → τ} {h : Handler σ} {Q : τ → Prop} (hk : Keeps h P) (hg : ∀ t, Q t → P (get t)) (hp : ∀ t s, Q t → P s → Q (put t s)) :
    Keeps (liftSub get put h) Q := by
  intro n cb hcb s toks s' r hs he
  unfold liftSub at hcb
  cases hn : h n with
  | none => rw [hn] at hcb; cases hcb
  | some c =>
    rw [hn] at hcb
    simp only [Option.some.injEq] at hcb
    subst hcb
    obtain ⟨y, hy, he⟩ := Out.bind_eq_ok.1 he
    simp only [Out.ok.injEq, Prod.mk.injEq] at he
    exact he.1 ▸ hp s y.1 hs (hk n c hn _ _ _ _ (hg s hs) (show _ = Out.ok (y.1, y.2) from hy))

end callbacks2

/-- What the sub elements of a two windings transformer keep. -/
def Tw2SubValid (s : Tw2Sub) : Prop := (∀ t, s.rtc = some t → RtcValid t) ∧ (∀ t, s.ptc = some t → PtcValid t) ∧ LimsValid s.lims.one ∧ LimsValid s.lims.two

theorem tw2Sub_keeps {K : XCodec} {A : Anon} : Keeps (tw2Sub K A) Tw2SubValid := by
  intro n cb hcb
  unfold tw2Sub at hcb
  split at hcb
  · simp only [Option.some.injEq] at hcb; exact hcb ▸ rtcCb_keeps fun s t hs ht => ⟨by rintro y ⟨⟩; exact ht, hs.2⟩
  split at hcb
  · simp only [Option.some.injEq] at hcb; exact hcb ▸ ptcCb_keeps fun s t hs ht => ⟨hs.1, by rintro y ⟨⟩; exact ht, hs.2.2⟩
  · exact liftSub_keeps branchSub_keeps (fun t ht => ht.2.2) (fun t s ht hs => ⟨ht.1, ht.2.1, hs⟩) n cb hcb

theorem regCount_flags' (r : Option Rtc) (p : Option Ptc) : regCount r p = (flags r p).countP id := by
  cases r with
  | none => cases p with
    | none => rfl
    | some u => cases hu : u.on <;> simp [regCount, flags, hu]
  | some t => cases p with
    | none => cases ht : t.on <;> simp [regCount, flags, ht]
    | some u => cases ht : t.on <;> cases hu : u.on <;> simp [regCount, flags, ht, hu]

/-- **C69** Two windings transformers. -/
theorem readTw2_valid {K : XCodec} {A : Anon} {toks rest : List Tok} {x : Tw2} (h : readTw2 K A toks = .ok (x, rest)) : Tw2Valid x := by
  obtain ⟨i, a, s, hi, ha, hs, hm⟩ := readElem_ok tw2Sub_keeps ⟨by simp, by simp, noLims_valid, noLims_valid⟩ h
  simp only [readTw2Root, bind_ok_iff, check_ok_iff, Bool.or_eq_false_iff] at ha
  obtain ⟨r, _, x, _, g, _, b, _, u1, _, u2, _, rs, _, s12, h12, _, hn, _, hr, ha⟩ := ha
  simp only [buildTw2, bind_ok_iff, check_ok_iff, decide_eq_false_iff_not] at hm
  obtain ⟨_, hc, hm⟩ := hm
  simp only [Out.ok.injEq] at ha hm
  subst ha hm
  rw [regCount_flags'] at hc
  exact ⟨hi, readSides_valid h12, ⟨hn.1.1.1.1.1, hn.1.1.1.1.2, hn.1.1.1.2, hn.1.1.2, hn.1.2, hn.2⟩, checkRatedS_valid hr, hs.1, hs.2.1, Nat.le_of_not_lt hc, hs.2.2⟩

theorem legSub_keeps {K : XCodec} {A : Anon} {rt pt ac ap cu : String} : Keeps (legSub K A rt pt ac ap cu) LegSubValid := by
  intro n cb hcb
  unfold legSub at hcb
  split at hcb
  · simp only [Option.some.injEq] at hcb; exact hcb ▸ rtcCb_keeps fun s t hs ht => ⟨by rintro y ⟨⟩; exact ht, hs.ptc, hs.lims⟩
  split at hcb
  · simp only [Option.some.injEq] at hcb; exact hcb ▸ ptcCb_keeps fun s t hs ht => ⟨hs.rtc, by rintro y ⟨⟩; exact ht, hs.lims⟩
  split at hcb
  · simp only [Option.some.injEq] at hcb; exact hcb ▸ limitsSub_keeps fun s l hs hl => ⟨hs.rtc, hs.ptc, lims_active hs.lims hl⟩
  split at hcb
  · simp only [Option.some.injEq] at hcb; exact hcb ▸ limitsSub_keeps fun s l hs hl => ⟨hs.rtc, hs.ptc, lims_apparent hs.lims hl⟩
  split at hcb
  · simp only [Option.some.injEq] at hcb; exact hcb ▸ limitsSub_keeps fun s l hs hl => ⟨hs.rtc, hs.ptc, lims_current hs.lims hl⟩
  · cases hcb

theorem tw3Sub_keeps {K : XCodec} {A : Anon} : Keeps (tw3Sub K A) fun s => LegSubValid s.one ∧ LegSubValid s.two ∧ LegSubValid s.three := by
  intro n cb hcb
  unfold tw3Sub at hcb
  split at hcb
  · rename_i c hc
    simp only [Option.some.injEq] at hcb
    subst hcb
    exact liftSub_keeps (put := fun t s => { t with one := s }) (Q := fun s : Tw3Sub => LegSubValid s.one ∧ LegSubValid s.two ∧ LegSubValid s.three) legSub_keeps (fun t ht => ht.1) (fun t s ht hs => ⟨hs, ht.2⟩) n c hc
  · split at hcb
    · rename_i c hc
      simp only [Option.some.injEq] at hcb
      subst hcb
      exact liftSub_keeps (put := fun t s => { t with two := s }) (Q := fun s : Tw3Sub => LegSubValid s.one ∧ LegSubValid s.two ∧ LegSubValid s.three) legSub_keeps (fun t ht => ht.2.1) (fun t s ht hs => ⟨ht.1, hs, ht.2.2⟩) n c hc
    · exact liftSub_keeps (put := fun t s => { t with three := s }) (Q := fun s : Tw3Sub => LegSubValid s.one ∧ LegSubValid s.two ∧ LegSubValid s.three) legSub_keeps (fun t ht => ht.2.2) (fun t s ht hs => ⟨ht.1, ht.2.1, hs⟩) n cb hcb

theorem readLegZ_valid {K : XCodec} {s : String} {toks : List Tok} {z : LegZ} (h : readLegZ K s toks = .ok z) :
    (IsSet z.r ∧ IsSet z.x ∧ IsSet z.g ∧ IsSet z.b ∧ IsSet z.ratedU) ∧ RatedValid z.ratedS := by
  simp only [readLegZ, bind_ok_iff, check_ok_iff, Bool.or_eq_false_iff] at h
  obtain ⟨r, _, x, _, g, _, b, _, u, _, rs, _, _, hn, _, hr, h⟩ := h
  simp only [Out.ok.injEq] at h
  subst h
  exact ⟨⟨hn.1.1.1.1, hn.1.1.1.2, hn.1.1.2, hn.1.2, hn.2⟩, checkRatedS_valid hr⟩

/-- **C69** Three windings transformers. -/
theorem readTw3_valid {K : XCodec} {A : Anon} {toks rest : List Tok} {x : Tw3} (h : readTw3 K A toks = .ok (x, rest)) : Tw3Valid x := by
  have h0 : LegSubValid noSubs := ⟨by simp [noSubs], by simp [noSubs], noLims_valid⟩
  obtain ⟨i, a, s, hi, ha, hs, hm⟩ := readElem_ok tw3Sub_keeps ⟨h0, h0, h0⟩ h
  simp only [readTw3Root, bind_ok_iff] at ha
  obtain ⟨z1, hz1, z2, hz2, z3, hz3, u0, _, s1, hs1, s2, hs2, s3, hs3, ha⟩ := ha
  simp only [buildTw3, bind_ok_iff, check_ok_iff, decide_eq_false_iff_not] at hm
  obtain ⟨_, hc, hm⟩ := hm
  simp only [Out.ok.injEq] at ha hm
  subst ha hm
  refine ⟨hi, ⟨⟨readLegSide_valid hs1, (readLegZ_valid hz1).1, (readLegZ_valid hz1).2, hs.1⟩, ⟨readLegSide_valid hs2, (readLegZ_valid hz2).1, (readLegZ_valid hz2).2, hs.2.1⟩,
    ⟨readLegSide_valid hs3, (readLegZ_valid hz3).1, (readLegZ_valid hz3).2, hs.2.2⟩⟩, ?_, ?_⟩
  · show IsSet (if u0.isNan then z1.ratedU else u0)
    cases hu : u0.isNan with
    | true => exact (readLegZ_valid hz1).1.2.2.2.2
    | false => exact hu
  · unfold regCount3 at hc
    rw [regCount_flags', regCount_flags', regCount_flags'] at hc
    show (flags s.one.rtc s.one.ptc ++ (flags s.two.rtc s.two.ptc ++ flags s.three.rtc s.three.ptc)).countP id ≤ 1
    rw [List.countP_append, List.countP_append]
    omega

/-! ### Examples -/

theorem ElemRT.readable {α : Type} {n : String} {w : Out (List Cmd)} {rd : List Tok → Out (α × List Tok)} {a : α} (h : ElemRT n w rd a) : ∃ toks rest, rd toks = .ok (a, rest) := by
  obtain ⟨_, _, _, h⟩ := h
  obtain ⟨ts, _, _, h⟩ := h false
  exact ⟨_, _, h []⟩

example : LoadValid someLoad := let ⟨_, _, h⟩ := someLoad_read.readable; readLoad_valid h
example : GenValid someGen := let ⟨_, _, h⟩ := someGen_read.readable; readGen_valid h
example : BatValid someBat := let ⟨_, _, h⟩ := someBat_read.readable; readBat_valid h
example : LccValid someLcc := let ⟨_, _, h⟩ := someLcc_read.readable; readLcc_valid h
example : VscValid someVsc := let ⟨_, _, h⟩ := someVsc_read.readable; readVsc_valid h
example : SvcValid someSvc := let ⟨_, _, h⟩ := someSvc_read.readable; readSvc_valid h
example : ShValid someSh := let ⟨_, _, h⟩ := someSh_read.readable; readSh_valid h
example : LineValid someLine := let ⟨_, _, h⟩ := someLine_read.readable; readLine_valid h
example : TieValid someTie := let ⟨_, _, h⟩ := someTie_read.readable; readTie_valid h
example : HvdcValid someHvdc := let ⟨_, _, h⟩ := someHvdc_read.readable; readHvdc_valid h
example : Tw2Valid someTw2 := let ⟨_, _, h⟩ := someTw2_read.readable; readTw2_valid h
example : Tw3Valid someTw3 := let ⟨_, _, h⟩ := someTw3_read.readable; readTw3_valid h

/-- A codec that reads the infinity, and one for anything else. -/
def tiny : XCodec := { toyX with readD := fun s => .ok (if s = "inf" then .posInf else 1) }

theorem tiny_doubles : tiny.Doubles := by
  intro s d h
  have h' : Out.ok (if s = "inf" then Dbl.posInf else 1) = .ok d := h
  simp only [Out.ok.injEq] at h'
  subst h'
  split
  · trivial
  · show -Dbl.maxRat ≤ 1 ∧ (1 : Rat) ≤ Dbl.maxRat
    decide +kernel

/-- A dangling line whose generation has an infinite smallest power and no largest one. -/
def infiniteDl : List Tok :=
  [.start "danglingLine" [("id", "D"), ("p0", "1"), ("q0", "1"), ("r", "1"), ("x", "1"), ("g", "1"), ("b", "1"), ("generationMinP", "inf"), ("generationVoltageRegulationOn", "false"),
    ("generationTargetP", "1"), ("generationTargetQ", "1"), ("bus", "B"), ("connectableBus", "B")] true]

/-- **C69, violation** The range of power of the generation of a dangling line may be empty: the bounds are compared before a missing one is given its
default value (`DanglingLineGenerationAdder.cpp` l. 25, `DanglingLineGeneration.cpp` l. 26-27). -/
theorem empty_generation_range : ∃ x r y, readDl tiny Anon.none infiniteDl = .ok (x, r) ∧ x.gen = some y ∧ Dbl.lt y.maxP y.minP = true := ⟨_, _, _, rfl, rfl, rfl⟩

example : ∃ x, DlValid x ∧ ∃ y, x.gen = some y ∧ Dbl.lt y.maxP y.minP = true := let ⟨x, _, y, h, h1, h2⟩ := empty_generation_range; ⟨x, readDl_valid tiny_doubles h, y, h1, h2⟩

end Verif.XmlNet
