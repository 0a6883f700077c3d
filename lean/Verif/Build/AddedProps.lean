import Verif.Build.Lemmas
import Verif.Setters.ExactProps

/-!
C98, class by class: an adder accepts exactly the objects that a network may contain, at a place that is free, under a name that is free, and adds them at the end.
-/

namespace Verif.Build

open Verif Verif.Xml Verif.XmlNet Verif.Setters Verif.ReadBack

variable {l : List Item}

theorem badRange_iff {a b : Dbl} : badRange a b = false ↔ Dbl.le a b = true := by
  constructor
  · intro h
    simp only [badRange, Bool.or_eq_false_iff] at h
    exact (maxP_valid h.1.1 (by simp [h.1.2, h.2])).2
  · intro h
    have := good_max h
    simp only [Bool.or_eq_false_iff] at this
    simp [badRange, (Dbl.not_nan_of_le h).1, this.1, this.2]

theorem grd_unit {bad : Bool} {u : Unit} : grd bad () = .ok u ↔ bad = false := by cases bad <;> simp [grd]

theorem attached_valid {v : VL} {b : Base} {a : Adders.Args} {i : Ident} {t : Term} (h : Attached l v b a i t) : IdentValid i ∧ PlaceValid t.place := by
  obtain ⟨n, p, _, hw, _, rfl, rfl⟩ := h
  exact ⟨ident_new b n, wanted_valid hw⟩

/-- The end of an injection adder, after the checks. -/
theorem inj_iff (hs : Countable l) {v : VL} {b : Base} {a : Adders.Args} {bad : Bool} {first : Bool} {f : Ident × Term → VL} {w : VL} :
    ((grd bad ()).bind fun _ => (attach1 l v.ident.head.id v.topo.isNode first b a).map f) = .ok w ↔ bad = false ∧ ∃ i t, Attached l v b a i t ∧ w = f (i, t) := by
  cases bad with
  | true => simp [grd, Out.bind]
  | false =>
    simp only [grd, Bool.false_eq_true, if_false, Out.bind_ok, true_and, map_ok_iff]
    constructor
    · rintro ⟨⟨i, t⟩, h, rfl⟩; exact ⟨i, t, (attached_iff hs).1 h, rfl⟩
    · rintro ⟨i, t, h, rfl⟩; exact ⟨(i, t), (attached_iff hs).2 h, rfl⟩

/-- The same without counting names, for what is added. -/
theorem inj_ok {v : VL} {b : Base} {a : Adders.Args} {bad : Bool} {first : Bool} {f : Ident × Term → VL} {w : VL}
    (h : ((grd bad ()).bind fun _ => (attach1 l v.ident.head.id v.topo.isNode first b a).map f) = .ok w) :
    bad = false ∧ ∃ i t, attach1 l v.ident.head.id v.topo.isNode first b a = .ok (i, t) ∧ IdentValid i ∧ PlaceValid t.place ∧ w = f (i, t) := by
  obtain ⟨_, h1, h2⟩ := Out.bind_eq_ok.1 h
  obtain ⟨⟨i, t⟩, h3, rfl⟩ := map_ok_iff.1 h2
  obtain ⟨n, p, _, hw, _, hi, ht⟩ := attach1_ok h3
  exact ⟨grd_unit.1 h1, i, t, h3, hi ▸ ident_new b n, ht ▸ wanted_valid hw, rfl⟩

def withLoad (v : VL) (x : Load) : VL := { v with equip := { v.equip with loads := v.equip.loads ++ [x] } }
def withGen (v : VL) (x : Gen) : VL := { v with equip := { v.equip with gens := v.equip.gens ++ [x] } }
def withBat (v : VL) (x : Bat) : VL := { v with equip := { v.equip with bats := v.equip.bats ++ [x] } }
def withSh (v : VL) (x : Sh) : VL := { v with equip := { v.equip with shs := v.equip.shs ++ [x] } }
def withDl (v : VL) (x : Dl) : VL := { v with equip := { v.equip with dls := v.equip.dls ++ [x] } }
def withSvc (v : VL) (x : Svc) : VL := { v with equip := { v.equip with svcs := v.equip.svcs ++ [x] } }
def withVsc (v : VL) (x : Vsc) : VL := { v with equip := { v.equip with vscs := v.equip.vscs ++ [x] } }
def withLcc (v : VL) (x : Lcc) : VL := { v with equip := { v.equip with lccs := v.equip.lccs ++ [x] } }

theorem load_checks {x : Load} : (decide (3 ≤ x.kind) || x.p0.isNan || x.q0.isNan) = false ↔ x.kind < Enums.loadType.enumerators.length ∧ IsSet x.p0 ∧ IsSet x.q0 := by
  have : Enums.loadType.enumerators.length = 3 := rfl
  simp only [Bool.or_eq_false_iff, decide_eq_false_iff_not, Nat.not_le, this, and_assoc]

/-- **C98** A load is added exactly when its name and its place are free and it is valid. -/
theorem load_added_iff (hs : Countable l) {v w : VL} {b : Base} {a : Adders.Args} {x : Load} : (VLAdd.load b a x).add l v = .ok w ↔
    ∃ i t, Attached l v b a i t ∧ LoadValid { x with ident := i, term := t } ∧ w = withLoad v { x with ident := i, term := t } := by
  simp only [VLAdd.add]
  rw [inj_iff hs, load_checks]
  constructor
  · rintro ⟨⟨h1, h2, h3⟩, i, t, ha, rfl⟩
    exact ⟨i, t, ha, ⟨(attached_valid ha).1, (attached_valid ha).2, h1, h2, h3⟩, rfl⟩
  · rintro ⟨i, t, ha, hv, rfl⟩
    exact ⟨⟨hv.kind, hv.p0, hv.q0⟩, i, t, ha, rfl⟩

theorem badReg_iff {r : Option Ref} {s : Bool} : badReg r s = false ↔ (r ≠ none → s = true) := by
  cases r <;> cases s <;> simp [badReg]

theorem gen_checks {x : Gen} {on s : Bool} : (badRange x.minP x.maxP || badReg x.reg s || x.targetP.isNan || badControl on x.targetV x.targetQ || badRatedS x.ratedS) = false ↔
    Dbl.le x.minP x.maxP = true ∧ (x.reg ≠ none → s = true) ∧ IsSet x.targetP ∧ ControlValid on x.targetV x.targetQ ∧ RatedValid x.ratedS := by
  simp only [Bool.or_eq_false_iff, badRange_iff, badReg_iff, and_assoc]
  exact ⟨fun ⟨h1, h2, h3, h4, h5⟩ => ⟨h1, h2, h3, control_valid h4, rated_valid h5⟩, fun ⟨h1, h2, h3, h4, h5⟩ => ⟨h1, h2, h3, good_control h4, good_rated h5⟩⟩

/-- **C98** A generator of a known energy source is added exactly when its name and its place are free, its regulation was set, its regulating terminal is in the network,
and it is valid. -/
theorem generator_added_iff (hs : Countable l) {v w : VL} {b : Base} {a : Adders.Args} {on : Option Bool} {s : Bool} {x : Gen}
    (hk : x.source < Enums.energySource.enumerators.length) : (VLAdd.gen b a on s x).add l v = .ok w ↔
    ∃ i t o, Attached l v b a i t ∧ on = some o ∧ (x.reg ≠ none → s = true) ∧ GenValid { x with ident := i, term := t, on := o, limits := defaultReactive } ∧
      w = withGen v { x with ident := i, term := t, on := o, limits := defaultReactive } := by
  simp only [VLAdd.add, Out.bind_eq_ok (x := given on), given_ok]
  simp only [inj_iff hs, gen_checks]
  constructor
  · rintro ⟨o, h0, ⟨h1, h2, h3, h4, h5⟩, i, t, ha, rfl⟩
    exact ⟨i, t, o, ha, h0, h2, ⟨(attached_valid ha).1, (attached_valid ha).2, hk, h1, h3, h4, h5, defaultReactive_valid⟩, rfl⟩
  · rintro ⟨i, t, o, ha, h0, h2, hv, rfl⟩
    exact ⟨o, h0, ⟨hv.range, h2, hv.targetP, hv.control, hv.ratedS⟩, i, t, ha, rfl⟩

theorem bat_checks {x : Bat} : (x.p0.isNan || x.q0.isNan || badRange x.minP x.maxP) = false ↔ IsSet x.p0 ∧ IsSet x.q0 ∧ Dbl.le x.minP x.maxP = true := by
  simp only [Bool.or_eq_false_iff, badRange_iff, and_assoc]

/-- **C98** Batteries. -/
theorem battery_added_iff (hs : Countable l) {v w : VL} {b : Base} {a : Adders.Args} {x : Bat} : (VLAdd.bat b a x).add l v = .ok w ↔
    ∃ i t, Attached l v b a i t ∧ BatValid { x with ident := i, term := t, limits := defaultReactive } ∧ w = withBat v { x with ident := i, term := t, limits := defaultReactive } := by
  simp only [VLAdd.add]
  rw [inj_iff hs, bat_checks]
  constructor
  · rintro ⟨⟨h1, h2, h3⟩, i, t, ha, rfl⟩
    exact ⟨i, t, ha, ⟨(attached_valid ha).1, (attached_valid ha).2, h1, h2, h3, defaultReactive_valid⟩, rfl⟩
  · rintro ⟨i, t, ha, hv, rfl⟩
    exact ⟨⟨hv.p0, hv.q0, hv.range⟩, i, t, ha, rfl⟩

theorem vsc_checks {x : Vsc} {on : Bool} : (badLoss x.lossFactor || badControl on x.voltage x.reactive) = false ↔
    (Dbl.le 0 x.lossFactor = true ∧ Dbl.le x.lossFactor 100 = true) ∧ ControlValid on x.voltage x.reactive := by
  simp only [Bool.or_eq_false_iff]
  exact ⟨fun ⟨h1, h2⟩ => ⟨loss_valid h1, control_valid h2⟩, fun ⟨h1, h2⟩ => ⟨good_loss h1, good_control h2⟩⟩

/-- **C98** VSC converter stations. -/
theorem vsc_added_iff (hs : Countable l) {v w : VL} {b : Base} {a : Adders.Args} {on : Option Bool} {x : Vsc} : (VLAdd.vsc b a on x).add l v = .ok w ↔
    ∃ i t o, Attached l v b a i t ∧ on = some o ∧ VscValid { x with ident := i, term := t, on := o, limits := defaultReactive } ∧
      w = withVsc v { x with ident := i, term := t, on := o, limits := defaultReactive } := by
  simp only [VLAdd.add, Out.bind_eq_ok (x := given on), given_ok]
  simp only [inj_iff hs, vsc_checks]
  constructor
  · rintro ⟨o, h0, ⟨h1, h2⟩, i, t, ha, rfl⟩
    exact ⟨i, t, o, ha, h0, ⟨(attached_valid ha).1, (attached_valid ha).2, h1, h2, defaultReactive_valid⟩, rfl⟩
  · rintro ⟨i, t, o, ha, h0, hv, rfl⟩
    exact ⟨o, h0, ⟨hv.loss, hv.control⟩, i, t, ha, rfl⟩

theorem lcc_checks {x : Lcc} : (badLoss x.lossFactor || badPowerFactor x.powerFactor) = false ↔
    (Dbl.le 0 x.lossFactor = true ∧ Dbl.le x.lossFactor 100 = true) ∧ Dbl.le (.fin (-1)) x.powerFactor = true ∧ Dbl.le x.powerFactor 1 = true := by
  simp only [Bool.or_eq_false_iff]
  exact ⟨fun ⟨h1, h2⟩ => ⟨loss_valid h1, power_valid h2⟩, fun ⟨h1, h2⟩ => ⟨good_loss h1, good_power h2⟩⟩

/-- **C98** LCC converter stations. -/
theorem lcc_added_iff (hs : Countable l) {v w : VL} {b : Base} {a : Adders.Args} {x : Lcc} : (VLAdd.lcc b a x).add l v = .ok w ↔
    ∃ i t, Attached l v b a i t ∧ LccValid { x with ident := i, term := t } ∧ w = withLcc v { x with ident := i, term := t } := by
  simp only [VLAdd.add]
  rw [inj_iff hs, lcc_checks]
  constructor
  · rintro ⟨⟨h1, h2⟩, i, t, ha, rfl⟩
    exact ⟨i, t, ha, ⟨(attached_valid ha).1, (attached_valid ha).2, h1, h2⟩, rfl⟩
  · rintro ⟨i, t, ha, hv, rfl⟩
    exact ⟨⟨hv.loss, hv.power⟩, i, t, ha, rfl⟩

theorem svc_checks {x : Svc} {m : Nat} {s : Bool} : (x.bMin.isNan || x.bMax.isNan || badReg x.reg s || badSvc m x.voltage x.reactive) = false ↔
    IsSet x.bMin ∧ IsSet x.bMax ∧ (x.reg ≠ none → s = true) ∧ m < Enums.staticVarCompensatorRegulationMode.enumerators.length ∧ (m = 0 → IsSet x.voltage) ∧ (m = 1 → IsSet x.reactive) := by
  simp only [Bool.or_eq_false_iff, badReg_iff, and_assoc]
  exact ⟨fun ⟨h1, h2, h3, h4⟩ => ⟨h1, h2, h3, svc_mode_valid h4⟩, fun ⟨h1, h2, h3, h4, h5, h6⟩ => ⟨h1, h2, h3, good_svc h4 h5 h6⟩⟩

/-- **C98** Static var compensators. -/
theorem svc_added_iff (hs : Countable l) {v w : VL} {b : Base} {a : Adders.Args} {mode : Option Nat} {s : Bool} {x : Svc} : (VLAdd.svc b a mode s x).add l v = .ok w ↔
    ∃ i t m, Attached l v b a i t ∧ mode = some m ∧ (x.reg ≠ none → s = true) ∧ SvcValid { x with ident := i, term := t, mode := m } ∧
      w = withSvc v { x with ident := i, term := t, mode := m } := by
  simp only [VLAdd.add, Out.bind_eq_ok (x := given mode), given_ok]
  simp only [inj_iff hs, svc_checks]
  constructor
  · rintro ⟨o, h0, ⟨h1, h2, h3, h4, h5, h6⟩, i, t, ha, rfl⟩
    exact ⟨i, t, o, ha, h0, h3, ⟨(attached_valid ha).1, (attached_valid ha).2, h4, h1, h2, h5, h6⟩, rfl⟩
  · rintro ⟨i, t, o, ha, h0, h3, hv, rfl⟩
    exact ⟨o, h0, ⟨hv.bMin, hv.bMax, h3, hv.mode, hv.voltage, hv.reactive⟩, i, t, ha, rfl⟩

/-! ### Shunt compensators -/

/-- The model that the arguments give: the conductance that a section does not give is that of the one before it. -/
inductive Models : ShModelArgs → Shunt.Model → Prop
  | linear {b g : Dbl} {m : Nat} (hb : IsSet b) (hm : m ≠ 0) : Models (.linear b g (some m)) (.linear b g m)
  | nonLinear {args : List (Dbl × Dbl)} {ss : List Shunt.Section} (hl : ss.length = args.length) (hn : args ≠ [])
    (hb : ∀ i (hi : i < args.length), ∃ s, ss[i]? = some s ∧ s.b = (args[i]).1 ∧ IsSet s.b ∧ (IsSet (args[i]).2 → s.g = (args[i]).2) ∧
      ((args[i]).2.isNan = true → (i = 0 → s.g = 0) ∧ ∀ j, i = j + 1 → ∃ t, ss[j]? = some t ∧ s.g = t.g)) : Models (.nonLinear args) (.nonLinear ss)

theorem buildLinear_iff {b g : Dbl} {max : Option Nat} {m : Shunt.Model} : Shunt.buildLinear b g max = .ok m ↔ IsSet b ∧ ∃ n, max = some n ∧ n ≠ 0 ∧ m = .linear b g n := by
  unfold Shunt.buildLinear Shunt.checkBPerSection
  cases hb : b.isNan with
  | true =>
    simp only [if_true, Out.bind, reduceCtorEq, false_iff]
    rintro ⟨h, _⟩
    rw [IsSet, hb] at h; cases h
  | false =>
    simp only [Bool.false_eq_true, if_false, Out.bind_ok]
    cases max with
    | none => simp
    | some n =>
      by_cases hn : n = 0
      · subst hn; simp
      · simp only [hn, if_false, Out.ok.injEq]
        constructor
        · rintro rfl; exact ⟨hb, n, rfl, hn, rfl⟩
        · rintro ⟨_, k, hk, _, rfl⟩; cases hk; rfl

theorem endSections_ok : ∀ (args : List (Dbl × Dbl)) (acc : List Shunt.Section), (∀ a ∈ args, IsSet a.1) → ∃ ss, Shunt.endSections acc args = .ok ss := by
  intro args
  induction args with
  | nil => intro acc _; exact ⟨acc, rfl⟩
  | cons a as ih =>
    intro acc h
    have ha : a.1.isNan = false := h a List.mem_cons_self
    simp only [Shunt.endSections, Shunt.endSection, Shunt.checkBPerSection, ha, Bool.false_eq_true, if_false, Out.bind_ok]
    exact ih _ fun b hb => h b (List.mem_cons_of_mem _ hb)

theorem sections_unique {args : List (Dbl × Dbl)} {ss ts : List Shunt.Section} (h : Models (.nonLinear args) (.nonLinear ss)) (h' : Models (.nonLinear args) (.nonLinear ts)) : ss = ts := by
  cases h with
  | nonLinear hl _ hb =>
    cases h' with
    | nonLinear hl' _ hb' =>
      have key : ∀ i, i < args.length → ss[i]? = ts[i]? := by
        intro i
        induction i with
        | zero =>
          intro hi
          obtain ⟨s, h1, h2, _, h3, h4⟩ := hb 0 hi
          obtain ⟨t, g1, g2, _, g3, g4⟩ := hb' 0 hi
          rw [h1, g1]
          cases hg : (args[0]).2.isNan with
          | true => have := (h4 hg).1 rfl; have := (g4 hg).1 rfl; cases s; cases t; simp_all
          | false => have := h3 hg; have := g3 hg; cases s; cases t; simp_all
        | succ i ih =>
          intro hi
          have ih := ih (by omega)
          obtain ⟨s, h1, h2, _, h3, h4⟩ := hb (i + 1) hi
          obtain ⟨t, g1, g2, _, g3, g4⟩ := hb' (i + 1) hi
          rw [h1, g1]
          cases hg : (args[i + 1]).2.isNan with
          | true =>
            obtain ⟨u, u1, u2⟩ := (h4 hg).2 i rfl
            obtain ⟨w, w1, w2⟩ := (g4 hg).2 i rfl
            rw [ih, w1] at u1
            cases u1
            cases s; cases t; simp_all
          | false => have := h3 hg; have := g3 hg; cases s; cases t; simp_all
      refine List.ext_getElem? fun i => ?_
      by_cases hi : i < args.length
      · exact key i hi
      · rw [List.getElem?_eq_none (by omega), List.getElem?_eq_none (by omega)]

theorem model_iff {k : ShModelArgs} {m : Shunt.Model} : k.model = .ok m ↔ Models k m := by
  cases k with
  | linear b g max =>
    simp only [ShModelArgs.model, buildLinear_iff]
    constructor
    · rintro ⟨hb, n, rfl, hn, rfl⟩; exact .linear hb hn
    · rintro ⟨hb, hn⟩; exact ⟨hb, _, rfl, hn, rfl⟩
  | nonLinear args =>
    have forth : ∀ {m}, (ShModelArgs.nonLinear args).model = .ok m → Models (.nonLinear args) m := by
      intro m h
      simp only [ShModelArgs.model, Shunt.buildNonLinear] at h
      obtain ⟨ss, h1, h2⟩ := Out.bind_eq_ok.1 h
      split at h2
      · cases h2
      · rename_i he
        simp only [Out.ok.injEq] at h2
        subst h2
        obtain ⟨e1, _, e2⟩ := Shunt.nonLinear_build_sections args [] ss h1
        refine .nonLinear (by simpa using e1) ?_ fun i hi => ?_
        · rintro rfl; simp only [List.length_nil, Nat.add_zero] at e1; simp [List.length_eq_zero_iff.1 e1] at he
        · simpa using e2 i hi
    refine ⟨forth, fun h => ?_⟩
    cases h with
    | nonLinear hl hn hb =>
      rename_i ss
      obtain ⟨ts, ht⟩ := endSections_ok args [] (fun a ha => by
        obtain ⟨i, hi, rfl⟩ := List.mem_iff_getElem.1 ha
        obtain ⟨s, _, h1, h2, _⟩ := hb i hi
        exact h1 ▸ h2)
      have hne : ts.isEmpty = false := by
        have := (Shunt.nonLinear_build_sections args [] ts ht).1
        cases ts with
        | nil => simp only [List.length_nil, Nat.zero_add] at this; exact absurd (List.length_eq_zero_iff.1 this.symm) hn
        | cons => rfl
      have hm : (ShModelArgs.nonLinear args).model = .ok (.nonLinear ts) := by
        simp [ShModelArgs.model, Shunt.buildNonLinear, ht, Out.bind, hne]
      rw [hm, sections_unique (.nonLinear hl hn hb) (forth hm)]

/-- The sections of such a model have their values. -/
theorem models_values {k : ShModelArgs} {x : Sh} (h : Models k x.model) : match x.model with
    | .linear b _ _ => IsSet b
    | .nonLinear ss => ∀ s ∈ ss, IsSet s.b ∧ IsSet s.g := by
  generalize x.model = m at h
  cases h with
  | linear hb => exact hb
  | @nonLinear args ss hl _ hb =>
    have key : ∀ (i : Nat) (s : Shunt.Section), ss[i]? = some s → IsSet s.b ∧ IsSet s.g := by
      intro i
      induction i with
      | zero =>
        intro s h
        have hi : 0 < args.length := hl ▸ (List.getElem?_eq_some_iff.1 h).1
        obtain ⟨t, h1, _, h2, h3, h4⟩ := hb 0 hi
        rw [h] at h1; cases h1
        cases hg : (args[0]).2.isNan with
        | true => exact ⟨h2, by rw [(h4 hg).1 rfl]; rfl⟩
        | false => exact ⟨h2, by rw [h3 hg]; exact hg⟩
      | succ i ih =>
        intro s h
        have hi : i + 1 < args.length := hl ▸ (List.getElem?_eq_some_iff.1 h).1
        obtain ⟨t, h1, _, h2, h3, h4⟩ := hb (i + 1) hi
        rw [h] at h1; cases h1
        cases hg : (args[i + 1]).2.isNan with
        | true => obtain ⟨u, u1, u2⟩ := (h4 hg).2 i rfl; exact ⟨h2, u2 ▸ (ih u u1).2⟩
        | false => exact ⟨h2, by rw [h3 hg]; exact hg⟩
    intro s hs
    obtain ⟨i, hi, rfl⟩ := List.mem_iff_getElem.1 hs
    exact key i _ (List.getElem?_eq_getElem hi)

theorem sh_checks {x : Sh} {m : Shunt.Model} {c : Nat} {s : Bool} :
    (badReg x.reg s || badTarget x.per.on x.per.targetV || badDeadband x.per.on x.per.deadband || badSections c m.maximum) = false ↔
    (x.reg ≠ none → s = true) ∧ (x.per.on = true → Dbl.lt 0 x.per.targetV = true) ∧ (Dbl.lt x.per.deadband 0 = false ∧ (x.per.on = true → IsSet x.per.deadband)) ∧
      0 < m.maximum ∧ c ≤ m.maximum := by
  simp only [Bool.or_eq_false_iff, badReg_iff, and_assoc]
  exact ⟨fun ⟨h1, h2, h3, h4⟩ => ⟨h1, target_valid h2, (deadband_valid h3).1, (deadband_valid h3).2, sections_valid h4⟩,
    fun ⟨h1, h2, h3, h3', h4⟩ => ⟨h1, good_target h2, good_deadband ⟨h3, h3'⟩, good_sections h4⟩⟩

/-- **C98** Shunt compensators. -/
theorem shunt_added_iff (hs : Countable l) {v w : VL} {b : Base} {a : Adders.Args} {count : Option Nat} {model : Option ShModelArgs} {s : Bool} {x : Sh} :
    (VLAdd.sh b a count model s x).add l v = .ok w ↔ ∃ i t k m c, Attached l v b a i t ∧ model = some k ∧ Models k m ∧ count = some c ∧ (x.reg ≠ none → s = true) ∧
      ShValid { x with ident := i, term := t, model := m, per := { x.per with count := c } } ∧
      w = withSh v { x with ident := i, term := t, model := m, per := { x.per with count := c } } := by
  simp only [VLAdd.add, Out.bind_eq_ok (x := given model), Out.bind_eq_ok (x := given count), given_ok, Out.bind_eq_ok (x := ShModelArgs.model _), model_iff]
  simp only [inj_iff hs, sh_checks]
  constructor
  · rintro ⟨k, h0, m, hm, c, hc, ⟨h1, h2, h3, h4⟩, i, t, ha, rfl⟩
    exact ⟨i, t, k, m, c, ha, h0, hm, hc, h1, ⟨(attached_valid ha).1, (attached_valid ha).2, h4, models_values (x := { x with model := m }) hm, h2, h3⟩, rfl⟩
  · rintro ⟨i, t, k, m, c, ha, h0, hm, hc, h1, hv, rfl⟩
    exact ⟨k, h0, m, hm, c, hc, ⟨h1, hv.target, hv.deadband, hv.sections⟩, i, t, ha, rfl⟩

/-! ### Dangling lines -/

/-- The generation that is asked for may be given: bounds in order when both are set, and what the regulation needs. -/
structure GenerationFit (y : DlGen) : Prop where
  range : Dbl.lt y.maxP y.minP = false
  targetP : IsSet y.targetP
  control : ControlValid y.on y.targetV y.targetQ

theorem generation_checks {y : DlGen} : badGeneration y = false ↔ GenerationFit y := by
  simp only [badGeneration, Bool.or_eq_false_iff]
  exact ⟨fun ⟨⟨h1, h2⟩, h3⟩ => ⟨h1, h2, control_valid h3⟩, fun ⟨h1, h2, h3⟩ => ⟨⟨h1, h2⟩, good_control h3⟩⟩

theorem newGeneration_valid {y : DlGen} (hd : y.minP.InRange ∧ y.maxP.InRange) (h : GenerationFit y) : DlGenValid (newGeneration y) :=
  ⟨dlGen_range hd.1 hd.2 h.range, ⟨default_set _, default_set _⟩, h.targetP, h.control, defaultReactive_valid⟩

theorem dl_checks {x : Dl} : (x.p0.isNan || x.q0.isNan || x.r.isNan || x.x.isNan || x.g.isNan || x.b.isNan || x.gen.any badGeneration) = false ↔
    (IsSet x.p0 ∧ IsSet x.q0 ∧ IsSet x.r ∧ IsSet x.x ∧ IsSet x.g ∧ IsSet x.b) ∧ ∀ y, x.gen = some y → GenerationFit y := by
  have : x.gen.any badGeneration = false ↔ ∀ y, x.gen = some y → GenerationFit y := by
    cases x.gen with
    | none => simp
    | some y => simp [generation_checks]
  simp only [Bool.or_eq_false_iff, this, and_assoc]

theorem noLims_valid : LimsValid noLims := ⟨nofun, nofun, nofun⟩

/-- **C98** A dangling line is added exactly when its values are set, its generation fits and its name and its place are free. -/
theorem dangling_added_iff (hs : Countable l) {v w : VL} {b : Base} {a : Adders.Args} {x : Dl} : (VLAdd.dl b a x).add l v = .ok w ↔
    ∃ i t, Attached l v b a i t ∧ (IsSet x.p0 ∧ IsSet x.q0 ∧ IsSet x.r ∧ IsSet x.x ∧ IsSet x.g ∧ IsSet x.b) ∧ (∀ y, x.gen = some y → GenerationFit y) ∧
      w = withDl v { x with ident := i, term := t, gen := x.gen.map newGeneration, active := none, apparent := none, current := none } := by
  simp only [VLAdd.add]
  rw [inj_iff hs, dl_checks]
  constructor
  · rintro ⟨⟨h1, h2⟩, i, t, ha, rfl⟩; exact ⟨i, t, ha, h1, h2, rfl⟩
  · rintro ⟨i, t, ha, h1, h2, rfl⟩; exact ⟨⟨h1, h2⟩, i, t, ha, rfl⟩

/-- The new dangling line is valid. -/
theorem new_dangling_valid {x : Dl} {i : Ident} {t : Term} (hi : IdentValid i) (ht : PlaceValid t.place) (hd : ∀ y, x.gen = some y → y.minP.InRange ∧ y.maxP.InRange)
    (h1 : IsSet x.p0 ∧ IsSet x.q0 ∧ IsSet x.r ∧ IsSet x.x ∧ IsSet x.g ∧ IsSet x.b) (h2 : ∀ y, x.gen = some y → GenerationFit y) :
    DlValid { x with ident := i, term := t, gen := x.gen.map newGeneration, active := none, apparent := none, current := none } := by
  refine ⟨hi, ht, h1, fun z hz => ?_, ⟨nofun, nofun, nofun⟩⟩
  obtain ⟨y, hy, rfl⟩ := Option.map_eq_some_iff.1 hz
  exact newGeneration_valid (hd y hy) (h2 y hy)

end Verif.Build
