import Verif.ExtData.Props
import Verif.Measure.DiscreteProps
import Verif.ExtXml.DataProps
import Verif.ExtXml.MeasProps
import Verif.XmlNet.BranchesProps

/-! Property C79: the XML serializers of the extensions, from the calls that make an extension to the extension that is read. -/

namespace Verif.ExtXml

open Verif Verif.Xml Verif.XmlNet Verif.ExtData Verif.Measure

/-! ### Extensions that hold values -/

theorem written_held {E : Env} {x y : Data} {op : Op} {k : Key} (h : Held E x) (hp : x.name = .position → (x.get E.index k).isSome)
    (hv : (op.val).isSome ∨ x.name ≠ .position) (hf : (∀ s, k ≠ .feederName s) → ∀ v, op.val = some v → Fit E x.name k v) (hw : Written E x y op k) : Held E y := by
  obtain ⟨hn, -, hg⟩ := hw
  constructor
  · intro i k' v hv hk
    rw [hg] at hv
    rw [hn]
    split at hv
    · rename_i hc; rw [hc.1] at hk ⊢; exact hf hk v hv
    · exact h.1 i k' v hv hk
  · intro hpos
    have hpos : x.name = .position := hn ▸ hpos
    have hshape : ∀ s, (y.get E.index (.feederName s)).isSome = (x.get E.index (.feederName s)).isSome := by
      intro s
      rw [hg]
      split
      · rename_i hc
        rw [hc.1, hp hpos]
        rcases hv with hv | hv
        · exact hv
        · exact absurd hpos hv
      · rfl
    show (_, _, _, _) ∈ _
    rw [hshape, hshape, hshape, hshape]
    exact h.2 hpos

/-- The calls keep what the serializers need. -/
theorem held_kept {E : Env} : ∀ (ops : List Op) {x y : Data}, Held E x → x.InBounds E → x.run E ops = .ok y → Held E y := by
  intro ops
  induction ops with
  | nil => intro x y h _ hr; rw [← Out.ok.inj hr]; exact h
  | cons op ops ih =>
    intro x y h hb hr
    rcases step_cases op hb with hs | ⟨k, z, hk, hp, hf, hs, hw⟩
    · rw [Data.run, hs] at hr
      exact ih h hb hr
    · rw [Data.run, hs] at hr
      refine ih (written_held h hp ?_ hf hw) (fun s e => hb s (hw.2.1 ▸ e)) hr
      cases hv : op.val with
      | some _ => exact .inl rfl
      | none =>
        refine .inr fun hpos => ?_
        have := hp hpos
        cases op <;> simp [Op.val] at hv <;> simp [Op.key] at hk
        all_goals
          subst hk
          cases x <;> simp [Data.name] at hpos
          simp [Data.get] at this

/-- What an adder makes is what the serializers need. -/
theorem added_held {n : Name} {E : Env} {ops : List Op} {x : Data} (hops : ∀ op ∈ ops, op.Gives n) (hc : E.cls ∈ concrete) (hi : E.index < E.size)
    (h : ((Draft.new n).run ops).add E = .ok x) : Held E x ∧ x.name = n ∧ x.InBounds E ∧ E.cls ∈ holders n := by
  obtain ⟨h1, h2, h3⟩ := extension_added_values hops hc hi h
  obtain ⟨hh, -, hf, hs⟩ := (extension_added_iff hops hc hi).1 ⟨x, h⟩
  refine ⟨⟨?_, ?_⟩, h1, fun s e => by rw [h2 s e]; exact hi, hh⟩
  · intro i k v hv _
    rw [h3] at hv
    rw [h1]
    split at hv
    · cases hv
    · exact hf k v hv
  · intro hp
    have hp : n = .position := h1 ▸ hp
    have : x.get E.index = given n ops := by
      funext k
      rw [h3, if_neg]
      rw [hp]
      simp
    rw [this]
    exact hs hp

theorem fit_env {E F : Env} (hid : F.id = E.id) (hl : F.levelOf = E.levelOf) {n : Name} {k : Key} {v : Val} (h : Fit E n k v) : Fit F n k v := by
  cases n <;> cases k <;> first
    | exact trivial
    | (cases v <;> first | exact h | exact trivial | (show F.levelOf _ = F.id; rw [hid, hl]; exact h))

theorem held_env {E F : Env} (hid : F.id = E.id) (hl : F.levelOf = E.levelOf) {x : Data} (h : Held E x) : Held F x := by
  refine ⟨fun i k v hv hk => fit_env hid hl (h.1 i k v hv hk), fun hp => ?_⟩
  have : x.get F.index = x.get E.index := by
    cases x <;> simp [Data.name] at hp
    funext k
    cases k <;> rfl
  rw [this]
  exact h.2 hp

/-- **C79.**  An extension made by an adder then by any calls is written; the same object of another network then gets it back, with all its values, in the
working variant, unless it is one of those that cannot be read, and then the reading is refused.  (Partial: the names of the lines of a merged node come back empty, and
there are extensions that cannot be read.) -/
theorem extension_round_trip_partial {n : Name} {F : Env} {ops ops' : List Op} {x y : Data} (hops : ∀ op ∈ ops, op.Gives n) (hc : F.cls ∈ concrete) (hi : F.index < F.size)
    (h : ((Draft.new n).run ops).add F = .ok x) (hy : x.run F ops' = .ok y) (hn : n ≠ .remote)
    {K : XCodec} (hN : K.toCodec.Naturals) {A : Anon} {E : REnv} (hcls : E.cls = F.cls) (hid : E.id = F.id) (hl : E.levelOf = F.levelOf) (hi' : E.index < E.size)
    (he : Exact K A E F.index y) :
    ∃ as body, writeExt K A F.index (.data y) = .ok (as, body) ∧
      (¬ Unreadable F.index y → ∃ z, ReadAs E.toEnv F.index y z ∧ RoundTrip (elemCmds (Ext.data y).title.name as body) (readExt K A E (.data n)) (.data z)) ∧
      (Unreadable F.index y → Refused (elemCmds (Ext.data y).title.name as body) (readExt K A E (.data n))) := by
  obtain ⟨hx, hnm, hb, hh⟩ := added_held hops hc hi h
  obtain ⟨y', hy', hyn, hys⟩ := calls_defined ops' hb
  rw [hy] at hy'
  cases hy'
  have hyn : y.name = n := hyn.trans hnm
  have := data_reading (K := K) (A := A) (E := E) (i := F.index) (x := y) hN (hcls ▸ hc) hi' (by rw [hyn, hcls]; exact hh) (held_env hid hl (held_kept ops' hx hb hy))
    (fun s e => hb s (hys ▸ e)) he (by rw [hyn]; exact hn)
  rw [hyn] at this
  obtain ⟨as, body, h1, h2, h3⟩ := this
  have ht : (Ext.data y).title = .data n := by rw [title_name, hyn]
  rw [ht]
  refine ⟨as, body, h1, fun hu => ?_, fun hu => (h3 hu).refused⟩
  obtain ⟨z, hz, hr⟩ := h2 hu
  exact ⟨z, hz, hr.roundTrip⟩

/-- **C79.**  The detail of a load is also read under its former names (LoadDetailXmlSerializer.cpp l.35-50). -/
theorem detail_former_names {K : XCodec} {A : Anon} {E : REnv} (hc : E.cls = .load) (hi : E.index < E.size) {p : Powers} (h1 : p.fixedP ≠ .nan) (h2 : p.fixedQ ≠ .nan)
    (h3 : p.varP ≠ .nan) (h4 : p.varQ ≠ .nan) (k1 : K.Keeps p.fixedP) (k2 : K.Keeps p.fixedQ) (k3 : K.Keeps p.varP) (k4 : K.Keeps p.varQ) (n : String) (e : Bool) (rest : List Tok) :
    let old := .start n [("subLoad1ActivePower", K.showD p.fixedP), ("subLoad1ReactivePower", K.showD p.fixedQ), ("subLoad2ActivePower", K.showD p.varP), ("subLoad2ReactivePower", K.showD p.varQ)] e :: rest
    readExt K A E (.data .detail) old = .ok (.data (.detail (List.replicate E.size p)), old) := by
  intro old
  have hn2 : ∀ {d : Dbl}, d ≠ .nan → d.isNan = false := fun h => ExtData.isNan_iff.2 h
  have key : ∀ {k o : String} {d : Dbl}, d ≠ .nan → K.Keeps d → lookup k [("subLoad1ActivePower", K.showD p.fixedP), ("subLoad1ReactivePower", K.showD p.fixedQ),
      ("subLoad2ActivePower", K.showD p.varP), ("subLoad2ReactivePower", K.showD p.varQ)] = none →
      lookup o [("subLoad1ActivePower", K.showD p.fixedP), ("subLoad1ReactivePower", K.showD p.fixedQ), ("subLoad2ActivePower", K.showD p.varP), ("subLoad2ReactivePower", K.showD p.varQ)] = some (K.showD d) →
      readPower K k o old = .ok d := by
    intro k o d hd hk hl1 hl2
    unfold readPower
    rw [optDOr_attr (d := .nan) (by rw [hl1]; rfl) (fun h => by cases h)]
    simp only [Out.monad_bind_ok]
    exact getD_attr hl2 (hk (hn2 hd))
  have hd : (Draft.detail p).Ok E.toEnv := ⟨h1, h2, h3, h4⟩
  simp only [readExt, readData, hc, isA]
  rw [key h1 k1 (by simp [lookup]) (by simp [lookup]), key h2 k2 (by simp [lookup]) (by simp [lookup]), key h3 k3 (by simp [lookup]) (by simp [lookup]),
    key h4 k4 (by simp [lookup]) (by simp [lookup])]
  simp only [Out.monad_bind_ok, require]
  exact added_ok (d := .detail p) (by rw [hc]; decide) hi (by rw [hc]; simp [Draft.name, holders]) hd rfl old

/-! ### Measurements -/

theorem props_set {n v : String} {ps qs : PropMap.Props} (h : PropsOk ps) (hq : putProperty n v ps = .ok qs) : PropsOk qs := by
  unfold putProperty at hq
  by_cases hn : n = ""
  · rw [if_pos hn] at hq; cases hq
  · rw [if_neg hn] at hq
    cases hq
    have hk := PropMap.set_keys (m := ps) (k := n) (v := v)
    refine ⟨?_, ?_⟩
    · show (((PropMap.set n v ps).2).map Prod.fst).Nodup
      rw [hk]
      split
      · exact h.1
      · rename_i hc
        have : ps.get? n = none := by
          cases hg : ps.get? n with
          | none => rfl
          | some _ => rw [hg] at hc; exact absurd rfl hc
        have := (AMap.get?_eq_none_iff _ _).1 this
        refine List.nodup_append.2 ⟨h.1, by simp, fun a ha b hb => ?_⟩
        rw [List.mem_singleton] at hb
        rintro rfl
        exact this (hb ▸ ha)
    · rw [hk]
      split
      · exact h.2
      · simp only [List.mem_append, List.mem_singleton, not_or]
        exact ⟨h.2, Ne.symm hn⟩

theorem props_erase {n : String} {ps : PropMap.Props} (h : PropsOk ps) : PropsOk (ps.erase n) := by
  refine ⟨AMap.nodupKeys_erase h.1 n, fun hm => h.2 ?_⟩
  obtain ⟨x, hx, hx'⟩ := List.mem_map.1 hm
  exact List.mem_map.2 ⟨x, (List.mem_filter.1 hx).1, hx'⟩

theorem distinct_of {α : Type} {idOf : α → String} {l : List (Nat × α)} (h1 : ∀ x ∈ l, ∀ y ∈ l, idOf x.2 = idOf y.2 → idOf x.2 ≠ "" → x = y)
    (h2 : (l.map (·.1)).Pairwise (· < ·)) : Distinct ((l.map (·.2)).map idOf) := by
  unfold Distinct
  rw [List.map_map, List.pairwise_map]
  rw [List.pairwise_map] at h2
  refine h2.imp_of_mem fun {a b} ha hb hab hne heq => ?_
  have := h1 a ha b hb heq hne
  rw [this] at hab
  omega

/-- The properties that the adders are given are a map, and no name is empty: `putProperty` of the adders refuses it. -/
def AddersOk (os : List MOp) : Prop := ∀ a, .add a ∈ os → PropsOk a.props

/-- The same for discrete measurements; the integers have 32 bits. -/
structure DAddersOk (os : List DOp) : Prop where
  props : ∀ a, .add a ∈ os → PropsOk a.props
  given : ∀ a i, .add a ∈ os → a.value = some (.int i) → -2 ^ 31 ≤ i ∧ i < 2 ^ 31
  set : ∀ p i, .setInt p i ∈ os → -2 ^ 31 ≤ i ∧ i < 2 ^ 31

/-- **C79.**  The measurements of an equipment, after any sequence of calls, are written; an equipment of the same kind then gets back the same ones in the same
order, unless one is valid without value, and then the reading is refused. -/
theorem measurements_round_trip_partial {K : XCodec} {A : Anon} {E : REnv} {os : List MOp} {s : Box Meas} (h : runM (kindOf E.cls) os = some s) (ho : AddersOk os)
    (hk : ∀ x ∈ s.items, K.Keeps x.2.value ∧ K.Keeps x.2.stdDev) (i : Nat) :
    ∃ body, writeExt K A i (.meas (s.items.map (·.2))) = .ok ([], body) ∧
      ((∀ x ∈ s.items, x.2.valid = true → x.2.value ≠ .nan) → RoundTrip (elemCmds "measurements" [] body) (readExt K A E .meas) (.meas (s.items.map (·.2)))) ∧
      ((∃ x ∈ s.items, x.2.valid = true ∧ x.2.value = .nan) → Refused (elemCmds "measurements" [] body) (readExt K A E .meas)) := by
  obtain ⟨h1, h2, -, h3⟩ := elements (idOf := fun m : Meas => m.id) (P := fun m => Fits (kindOf E.cls) m.type m.side ∧ PropsOk m.props) (cs := os.map (MOp.call (kindOf E.cls))) (fun c hc => by
    obtain ⟨o, hmo, rfl⟩ := List.mem_map.1 hc
    refine ⟨call_named _ o, call_keepsId _ o, ?_⟩
    have hg := call_good (kindOf E.cls) o
    cases o with
    | add a =>
      intro m hm
      refine ⟨hg m hm, ?_⟩
      rw [← (make_iff.1 hm).2.2.2.1]
      exact ho a hmo
    | remove p => trivial
    | putProperty p n v =>
      intro x y hx hy
      refine ⟨hg x y hx.1 hy, ?_⟩
      cases hq : Measure.putProperty n v x.props with
      | ok ps =>
        simp only [hq, Out.map, Out.ok.injEq] at hy
        subst hy
        exact props_set hx.2 hq
      | thrown => simp only [hq, Out.map] at hy; cases hy
      | ub => simp only [hq, Out.map] at hy; cases hy
    | removeProperty p n => intro x y hx hy; cases hy; exact ⟨hx.1, props_erase hx.2⟩
    | _ => intro x y hx hy; cases hy; exact hx) h
  obtain ⟨body, w1, w2, w3⟩ := meas_reading (K := K) (A := A) (E := E) (ms := s.items.map (·.2)) (fun m hm => by
    obtain ⟨x, hx, rfl⟩ := List.mem_map.1 hm
    exact ⟨(h3 x hx).1, (h3 x hx).2, (hk x hx).1, (hk x hx).2⟩) (distinct_of (idOf := fun m : Meas => m.id) h1 h2) i
  refine ⟨body, w1, fun hv => (w2 fun m hm => ?_).roundTrip, fun ⟨x, hx, hv⟩ => (w3 ⟨x.2, List.mem_map.2 ⟨x, hx, rfl⟩, hv⟩).refused⟩
  obtain ⟨x, hx, rfl⟩ := List.mem_map.1 hm
  exact hv x hx

/-- **C79.**  The discrete measurements of an object, after any sequence of calls, are written; an object of the same kind then gets back the same ones in the
same order, unless a value is the empty string, and then the reading is refused. -/
theorem discrete_round_trip_partial {K : XCodec} (hK : K.Integers) (hS : K.readInt "" = .thrown) {A : Anon} {E : REnv} {os : List DOp} {s : Box Disc} (h : runD (kindOf E.cls) os = some s)
    (ho : DAddersOk os) (i : Nat) :
    ∃ body, writeExt K A i (.disc (s.items.map (·.2))) = .ok ([], body) ∧
      ((∀ x ∈ s.items, x.2.value ≠ some (.string "")) → RoundTrip (elemCmds "discreteMeasurements" [] body) (readExt K A E .disc) (.disc (s.items.map (·.2)))) ∧
      ((∃ x ∈ s.items, x.2.value = some (.string "")) → Refused (elemCmds "discreteMeasurements" [] body) (readExt K A E .disc)) := by
  obtain ⟨h1, h2, -, h3⟩ := elements (idOf := fun m : Disc => m.id) (P := fun m => Disc.Good (kindOf E.cls) m ∧ PropsOk m.props ∧ ∀ i, m.value = some (.int i) → -2 ^ 31 ≤ i ∧ i < 2 ^ 31)
    (cs := os.map (DOp.call (kindOf E.cls))) (fun c hc => by
    obtain ⟨o, hmo, rfl⟩ := List.mem_map.1 hc
    refine ⟨dcall_named _ o, (dcall_edit _ o).1, ?_⟩
    have hg := (dcall_edit (kindOf E.cls) o).2
    cases o with
    | add a =>
      intro m hm
      obtain ⟨-, -, -, e1, -, e2, -⟩ := dmake_iff.1 hm
      exact ⟨hg m hm, e1 ▸ ho.props a hmo, fun i hi => ho.given a i hmo (e2.trans hi)⟩
    | remove p => trivial
    | putProperty p n v =>
      intro x y hx hy
      refine ⟨hg x y hx.1 hy, ?_⟩
      cases hq : Measure.putProperty n v x.props with
      | ok ps =>
        simp only [hq, Out.map, Out.ok.injEq] at hy
        subst hy
        exact ⟨props_set hx.2.1 hq, hx.2.2⟩
      | thrown => simp only [hq, Out.map] at hy; cases hy
      | ub => simp only [hq, Out.map] at hy; cases hy
    | removeProperty p n => intro x y hx hy; refine ⟨hg x y hx.1 hy, ?_⟩; cases hy; exact ⟨props_erase hx.2.1, hx.2.2⟩
    | setInt p i =>
      intro x y hx hy
      refine ⟨hg x y hx.1 hy, ?_⟩
      cases hy
      refine ⟨hx.2.1, fun j hj => ?_⟩
      cases hj
      exact ho.set p i hmo
    | setString p t =>
      intro x y hx hy
      refine ⟨hg x y hx.1 hy, ?_⟩
      cases hq : checkDValue (some (.string t)) x.valid with
      | ok ps =>
        simp only [hq, Out.map, Out.ok.injEq] at hy
        subst hy
        exact ⟨hx.2.1, nofun⟩
      | thrown => simp only [hq, Out.map] at hy; cases hy
      | ub => simp only [hq, Out.map] at hy; cases hy
    | setBoolean p b => intro x y hx hy; refine ⟨hg x y hx.1 hy, ?_⟩; cases hy; exact ⟨hx.2.1, nofun⟩
    | setValid p b => intro x y hx hy; refine ⟨hg x y hx.1 hy, ?_⟩; cases hy; exact hx.2) h
  obtain ⟨body, w1, w2, w3⟩ := disc_reading hK hS (A := A) (E := E) (ms := s.items.map (·.2)) (fun m hm => by
    obtain ⟨x, hx, rfl⟩ := List.mem_map.1 hm
    exact ⟨(h3 x hx).1.1, (h3 x hx).2.1, (h3 x hx).1.2, (h3 x hx).2.2⟩) (distinct_of (idOf := fun m : Disc => m.id) h1 h2) i
  refine ⟨body, w1, fun hv => (w2 fun m hm => ?_).roundTrip, fun ⟨x, hx, hv⟩ => (w3 ⟨x.2, List.mem_map.2 ⟨x, hx, rfl⟩, hv⟩).refused⟩
  obtain ⟨x, hx, rfl⟩ := List.mem_map.1 hm
  exact hv x hx

/-- **C79.**  The kind of an object, which decides the measurements it may have: the class it is of (Injection.hpp l.21 and the classes that derive from it). -/
theorem kind_of_class : ∀ c ∈ concrete,
    (kindOf c = .injection ↔ c ∈ [.busbarSection, .load, .generator, .battery, .shunt, .svc, .danglingLine, .vsc, .lcc]) ∧
    (kindOf c = .line ↔ c ∈ [.line, .tieLine]) ∧ (kindOf c = .twoWindings ↔ c = .twoWindings) ∧ (kindOf c = .threeWindings ↔ c = .threeWindings) ∧
    (kindOf c = .switch ↔ c = .switch) := by decide

/-- **C79.**  The names of the enumerators in the documents (MeasurementType.cpp and the like). -/
theorem enumerator_names :
    [MType.angle, .activePower, .apparentPower, .reactivePower, .current, .voltage, .frequency, .other].map (nameOf mtypes Enums.measurementType.names) =
      ["ANGLE", "ACTIVE_POWER", "APPARENT_POWER", "REACTIVE_POWER", "CURRENT", "VOLTAGE", "FREQUENCY", "OTHER"].map .ok ∧
    [MSide.one, .two, .three].map (nameOf msides Enums.measurementSide.names) = ["ONE", "TWO", "THREE"].map .ok ∧
    [DType.tapPosition, .switchPosition, .shuntSection, .other].map (nameOf dtypes Enums.discreteMeasurementType.names) =
      ["TAP_POSITION", "SWITCH_POSITION", "SHUNT_COMPENSATOR_SECTION", "OTHER"].map .ok ∧
    [TapChanger.ratio, .phase, .ratio1, .phase1, .ratio2, .phase2, .ratio3, .phase3].map (nameOf tapChangers Enums.discreteMeasurementTapChanger.names) =
      ["RATIO_TAP_CHANGER", "PHASE_TAP_CHANGER", "RATIO_TAP_CHANGER_1", "PHASE_TAP_CHANGER_1", "RATIO_TAP_CHANGER_2", "PHASE_TAP_CHANGER_2", "RATIO_TAP_CHANGER_3", "PHASE_TAP_CHANGER_3"].map .ok ∧
    [VType.boolean, .int, .string].map (nameOf vtypes Enums.discreteMeasurementValueType.names) = ["BOOLEAN", "INT", "STRING"].map .ok := by decide

/-! ### Examples -/

/-- A codec that writes no empty number. -/
def toyS : XCodec where
  toCodec := { toy with showN := fun n => "z" ++ toy.showN n }
  showI i := "z" ++ toyX.showI i
  readI := toyX.readI
  readInt s := if s = "" then .thrown else toyX.readInt s

theorem z_ne (s : String) : "z" ++ s ≠ "" := by
  intro h
  have := congrArg String.toList h
  simp [String.toList_append] at this

theorem count_z {c : Char} (hc : c ≠ 'z') (s : String) : count c ("z" ++ s) = count c s := by
  unfold count
  rw [String.toList_append, List.filter_append]
  have : List.filter (· == c) "z".toList = [] := by simp [Ne.symm hc]
  rw [this]
  rfl

theorem toyS_integers : toyS.Integers where
  naturals n h := by
    show Out.ok (count 'x' ("z" ++ toy.showN n)) = _
    rw [count_z (by decide)]
    exact toy_naturals n h
  long i h1 h2 := by
    show Out.ok ((if count '-' ("z" ++ toyX.showI i) = 0 then (1 : Int) else -1) * (count 'x' ("z" ++ toyX.showI i) : Int)) = _
    rw [count_z (by decide), count_z (by decide)]
    exact toyX_integers.long i h1 h2
  int i h1 h2 := by
    show (if "z" ++ toyX.showI i = "" then .thrown else Out.ok ((if count '-' ("z" ++ toyX.showI i) = 0 then (1 : Int) else -1) * (count 'x' ("z" ++ toyX.showI i) : Int))) = _
    rw [if_neg (z_ne _), count_z (by decide), count_z (by decide)]
    exact toyX_integers.int i h1 h2
  intOfNat n h := by
    show (if "z" ++ toy.showN n = "" then .thrown else Out.ok ((if count '-' ("z" ++ toy.showN n) = 0 then (1 : Int) else -1) * (count 'x' ("z" ++ toy.showN n) : Int))) = _
    rw [if_neg (z_ne _), count_z (by decide), count_z (by decide)]
    exact toyX_integers.intOfNat n h

theorem toyS_keeps (d : Dbl) : toyS.Keeps d := fun _ => toy_exact d

/-- A network with three variants, in the first one, where every reference designates the terminal it names. -/
def exREnv (c : Cls) (id : String) : REnv := { cls := c, id := id, size := 3, index := 0, levelOf := (exEnv c id).levelOf, find := .ok }

theorem exact_toy {E : REnv} (hf : ∀ r, E.find r = .ok r) {i : Nat} {x : Data} (hn : ∀ k n, x.get i k = some (.n n) → n < 2 ^ 64) : Exact toyS .none E i x :=
  ⟨fun _ d _ _ => toy_exact d, hn, fun _ r _ => ⟨none_inverts _, hf r⟩⟩

/-- The extension `y` made by the calls `ops` of the adder then `ops'`, on an object of class `c`, written in the second variant and read in the first one of another network. -/
theorem example_read {n : Name} {c : Cls} {ops ops' : List Op} {x y : Data} (hops : ∀ op ∈ ops, op.Gives n) (hc : c ∈ concrete) (h : ((Draft.new n).run ops).add (exEnv c "V") = .ok x)
    (hy : x.run (exEnv c "V") ops' = .ok y) (hn : n ≠ .remote) (hk : ∀ k m, y.get 1 k = some (.n m) → m < 2 ^ 64) :
    ∃ as body, writeExt toyS .none 1 (.data y) = .ok (as, body) ∧
      (¬ Unreadable 1 y → ∃ z, ReadAs (exREnv c "V").toEnv 1 y z ∧ RoundTrip (elemCmds (Ext.data y).title.name as body) (readExt toyS .none (exREnv c "V") (.data n)) (.data z)) ∧
      (Unreadable 1 y → Refused (elemCmds (Ext.data y).title.name as body) (readExt toyS .none (exREnv c "V") (.data n))) :=
  extension_round_trip_partial hops hc (show 1 < 2 by decide) h hy hn toyS_integers.naturals rfl rfl rfl (show 0 < 3 by decide) (exact_toy (fun _ => rfl) hk)

/-- A position whose feeder is renamed is read back. -/
example : ∃ as body z, writeExt toyS .none 1 (.data (.position ⟨none, some ⟨"c", 3, ⟨0, by decide⟩⟩, some ⟨"b", 4, ⟨1, by decide⟩⟩, none⟩)) = .ok (as, body) ∧
    z.get 0 (.feederName .one) = some (.s "c") ∧ RoundTrip (elemCmds "position" as body) (readExt toyS .none (exREnv .line "V") (.data .position)) (.data z) := by
  obtain ⟨as, body, h1, h2, -⟩ := example_read (n := .position) (c := .line) (ops := exFeeders) (ops' := [.feederName .one "c", .feederName .only "d"])
    (x := .position ⟨none, some ⟨"a", 3, ⟨0, by decide⟩⟩, some ⟨"b", 4, ⟨1, by decide⟩⟩, none⟩)
    (y := .position ⟨none, some ⟨"c", 3, ⟨0, by decide⟩⟩, some ⟨"b", 4, ⟨1, by decide⟩⟩, none⟩) (by
      intro op h
      simp only [exFeeders, List.mem_cons, List.not_mem_nil, or_false] at h
      rcases h with rfl | rfl | rfl <;> exact .inr ⟨rfl, _, _, rfl⟩) (by decide) (by decide) (by decide) (by decide) (by
      intro k m hm
      cases k <;> simp [Data.get] at hm
      all_goals (rename_i s; cases s <;> simp [Position.get] at hm <;> omega))
  obtain ⟨z, hz, hr⟩ := h2 (by
    rintro (⟨h, -⟩ | ⟨s, h⟩ | ⟨h, -⟩)
    · cases h
    · cases s <;> simp [Data.get, Position.get] at h
    · cases h)
  exact ⟨as, body, z, h1, hz.2.2.1 (.feederName .one) (by simp [lost]), hr⟩

/-- A slack terminal is read back in the variant in which it is. -/
example : ∃ as body z, writeExt toyS .none 1 (.data (.slack [none, some ⟨"VG", ""⟩])) = .ok (as, body) ∧ z.get 0 .terminal = some (.r ⟨"VG", ""⟩) ∧
    RoundTrip (elemCmds "slackTerminal" as body) (readExt toyS .none (exREnv .voltageLevel "V") (.data .slack)) (.data z) := by
  obtain ⟨as, body, h1, h2, -⟩ := example_read (n := .slack) (c := .voltageLevel) (ops := [.terminal (some ⟨"VG", ""⟩)]) (ops' := []) (x := .slack [none, some ⟨"VG", ""⟩]) (y := .slack [none, some ⟨"VG", ""⟩]) (by
      intro op h
      rw [List.mem_singleton] at h
      subst h
      exact .inl ⟨_, _, rfl, rfl, by decide⟩) (by decide) (by decide) rfl (by decide) (by
      intro k m hm
      cases k <;> simp [Data.get] at hm)
  obtain ⟨z, hz, hr⟩ := h2 (by
    rintro (⟨h, -⟩ | ⟨s, h⟩ | ⟨-, h⟩)
    · cases h
    · simp [Data.get] at h
    · simp [Data.get] at h)
  exact ⟨as, body, z, h1, hz.2.2.1 .terminal (by simp [lost]), hr⟩

/-- An injection with two measurements, the second one without identifier and not valid, with properties. -/
def exMeas : List MOp := [.add ⟨"a", some .activePower, [("p", "q")], none, 3, .nan, true⟩, .add ⟨"", some .other, [], none, .nan, 1, false⟩, .putProperty 1 "k" "v", .setValue 0 4]

example : ∃ body, writeExt toyS .none 0 (.meas [⟨"a", .activePower, [("p", "q")], none, 4, .nan, true⟩, ⟨"", .other, [("k", "v")], none, .nan, 1, false⟩]) = .ok ([], body) ∧
    RoundTrip (elemCmds "measurements" [] body) (readExt toyS .none (exREnv .load "V") .meas) (.meas [⟨"a", .activePower, [("p", "q")], none, 4, .nan, true⟩, ⟨"", .other, [("k", "v")], none, .nan, 1, false⟩]) := by
  have hrun : runM (kindOf (exREnv .load "V").cls) exMeas =
      some ⟨[(0, ⟨"a", .activePower, [("p", "q")], none, 4, .nan, true⟩), (1, ⟨"", .other, [("k", "v")], none, .nan, 1, false⟩)], 2⟩ := by decide
  obtain ⟨body, h1, h2, -⟩ := measurements_round_trip_partial (K := toyS) (A := .none) (E := exREnv .load "V") hrun (by
    intro a h
    simp only [exMeas, List.mem_cons, List.not_mem_nil, or_false, MOp.add.injEq, reduceCtorEq] at h
    rcases h with rfl | rfl <;> exact ⟨by simp [AMap.NodupKeys], by decide⟩) (fun x _ => ⟨fun _ => toy_exact _, fun _ => toy_exact _⟩) 0
  exact ⟨body, h1, h2 (by decide)⟩

/-- A switch with two discrete measurements. -/
def exDisc : List DOp := [.add ⟨"a", some .switchPosition, none, [], some (.boolean true), true⟩, .add ⟨"b", some .other, none, [("k", "v")], some (.string "x"), false⟩, .setInt 1 (-3)]

example : ∃ body, writeExt toyS .none 0 (.disc [⟨"a", .switchPosition, none, [], .boolean, some (.boolean true), true⟩, ⟨"b", .other, none, [("k", "v")], .int, some (.int (-3)), false⟩]) = .ok ([], body) ∧
    RoundTrip (elemCmds "discreteMeasurements" [] body) (readExt toyS .none (exREnv .switch "V") .disc)
      (.disc [⟨"a", .switchPosition, none, [], .boolean, some (.boolean true), true⟩, ⟨"b", .other, none, [("k", "v")], .int, some (.int (-3)), false⟩]) := by
  have hrun : runD (kindOf (exREnv .switch "V").cls) exDisc =
      some ⟨[(0, ⟨"a", .switchPosition, none, [], .boolean, some (.boolean true), true⟩), (1, ⟨"b", .other, none, [("k", "v")], .int, some (.int (-3)), false⟩)], 2⟩ := by decide
  obtain ⟨body, h1, h2, -⟩ := discrete_round_trip_partial toyS_integers rfl (A := .none) (E := exREnv .switch "V") hrun (by
    refine ⟨?_, ?_, ?_⟩
    · intro a h
      simp only [exDisc, List.mem_cons, List.not_mem_nil, or_false, DOp.add.injEq, reduceCtorEq] at h
      rcases h with rfl | rfl <;> exact ⟨by simp [AMap.NodupKeys], by decide⟩
    · intro a i h hv
      simp only [exDisc, List.mem_cons, List.not_mem_nil, or_false, DOp.add.injEq, reduceCtorEq] at h
      rcases h with rfl | rfl <;> cases hv
    · intro p i h
      simp only [exDisc, List.mem_cons, List.not_mem_nil, or_false, DOp.setInt.injEq, reduceCtorEq, false_or] at h
      obtain ⟨-, rfl⟩ := h
      decide) 0
  exact ⟨body, h1, h2 (by decide)⟩

/-- The hypotheses of `detail_former_names` can be met. -/
example : readExt toyS .none (exREnv .load "V") (.data .detail) [.start "detail" [("subLoad1ActivePower", toyS.showD 1), ("subLoad1ReactivePower", toyS.showD 2), ("subLoad2ActivePower", toyS.showD 3),
    ("subLoad2ReactivePower", toyS.showD 4)] true] = .ok (.data (.detail [⟨1, 2, 3, 4⟩, ⟨1, 2, 3, 4⟩, ⟨1, 2, 3, 4⟩]), [.start "detail" [("subLoad1ActivePower", toyS.showD 1),
    ("subLoad1ReactivePower", toyS.showD 2), ("subLoad2ActivePower", toyS.showD 3), ("subLoad2ReactivePower", toyS.showD 4)] true]) :=
  detail_former_names (K := toyS) (A := .none) (E := exREnv .load "V") (p := ⟨1, 2, 3, 4⟩) rfl (by decide) (by decide) (by decide) (by decide) (by decide) (toyS_keeps _) (toyS_keeps _)
    (toyS_keeps _) (toyS_keeps _) "detail" true []

/-! ### What the code does not read back -/

/-- **Against C79**: the names of the lines of a merged node are not written (MergedXnodeXmlSerializer.cpp l.46-55). -/
theorem merged_names_lost : ∃ (y : Data) (as : List (String × String)) (body : List Cmd) (z : Data), ((Draft.new .merged).run (exMerged ++ [.line1Name "a"])).add (exEnv .tieLine "V") = .ok y ∧ y.get 1 .line1Name = some (.s "a") ∧
    writeExt toyS .none 1 (.data y) = .ok (as, body) ∧ RoundTrip (elemCmds "mergedXnode" as body) (readExt toyS .none (exREnv .tieLine "V") (.data .merged)) (.data z) ∧ z.get 0 .line1Name = some (.s "") := by
  have hadd : ((Draft.new .merged).run (exMerged ++ [.line1Name "a"])).add (exEnv .tieLine "V") = .ok (.merged ⟨0, 1, .fin (-3), 0, .posInf, 0, "a", "", "X"⟩) := by decide
  obtain ⟨as, body, h1, h2, -⟩ := example_read (n := .merged) (c := .tieLine) (ops' := []) (by
      intro op h
      simp only [exMerged, List.mem_cons, List.not_mem_nil, or_false, List.cons_append, List.nil_append] at h
      rcases h with rfl | rfl | rfl | rfl | rfl | rfl | rfl | rfl | rfl <;> exact .inl ⟨_, _, rfl, rfl, by decide⟩) (by decide) hadd rfl (by decide) (by
      intro k m hm
      cases k <;> simp [Data.get] at hm)
  obtain ⟨z, hz, hr⟩ := h2 (by
    rintro (⟨h, -⟩ | ⟨s, h⟩ | ⟨h, -⟩)
    · cases h
    · simp [Data.get] at h
    · cases h)
  exact ⟨_, as, body, z, hadd, rfl, h1, hr, hz.2.2.2 .line1Name (by simp [lost])⟩

/-- **Against C79**: a droop that is not a number is accepted by the adder, not written, and then missed (ActivePowerControlXmlSerializer.cpp l.37-50). -/
theorem droop_unreadable : ∃ (y : Data) (as : List (String × String)) (body : List Cmd), ((Draft.new .activePower).run [.droop .nan]).add (exEnv .generator "V") = .ok y ∧ writeExt toyS .none 1 (.data y) = .ok (as, body) ∧
    Refused (elemCmds "activePowerControl" as body) (readExt toyS .none (exREnv .generator "V") (.data .activePower)) := by
  have hadd : ((Draft.new .activePower).run [.droop .nan]).add (exEnv .generator "V") = .ok (.activePower false .nan) := by decide
  obtain ⟨as, body, h1, -, h3⟩ := example_read (n := .activePower) (c := .generator) (ops' := []) (by
      intro op h
      rw [List.mem_singleton] at h
      subst h
      exact .inl ⟨_, _, rfl, rfl, by decide⟩) (by decide) hadd rfl (by decide) (by
      intro k m hm
      cases k <;> simp [Data.get] at hm)
  exact ⟨_, as, body, hadd, h1, h3 (.inl ⟨rfl, rfl⟩)⟩

/-- **Against C79**: the emptied name of a feeder is refused when it is read (ConnectablePosition.cpp l.59-62, ConnectablePositionAdder.cpp). -/
theorem feeder_unreadable : ∃ (x y : Data) (as : List (String × String)) (body : List Cmd), ((Draft.new .position).run exFeeders).add (exEnv .line "V") = .ok x ∧ x.run (exEnv .line "V") [.feederName .one ""] = .ok y ∧
    writeExt toyS .none 1 (.data y) = .ok (as, body) ∧ Refused (elemCmds "position" as body) (readExt toyS .none (exREnv .line "V") (.data .position)) := by
  have hadd : ((Draft.new .position).run exFeeders).add (exEnv .line "V") = .ok (.position ⟨none, some ⟨"a", 3, ⟨0, by decide⟩⟩, some ⟨"b", 4, ⟨1, by decide⟩⟩, none⟩) := by decide
  have hrun : (Data.position ⟨none, some ⟨"a", 3, ⟨0, by decide⟩⟩, some ⟨"b", 4, ⟨1, by decide⟩⟩, none⟩).run (exEnv .line "V") [.feederName .one ""] =
    .ok (.position ⟨none, some ⟨"", 3, ⟨0, by decide⟩⟩, some ⟨"b", 4, ⟨1, by decide⟩⟩, none⟩) := by decide
  obtain ⟨as, body, h1, -, h3⟩ := example_read (n := .position) (c := .line) (by
      intro op h
      simp only [exFeeders, List.mem_cons, List.not_mem_nil, or_false] at h
      rcases h with rfl | rfl | rfl <;> exact .inr ⟨rfl, _, _, rfl⟩) (by decide) hadd hrun (by decide) (by
      intro k m hm
      cases k <;> simp [Data.get] at hm
      all_goals (rename_i s; cases s <;> simp [Position.get] at hm <;> omega))
  exact ⟨_, _, as, body, hadd, hrun, h1, h3 (.inr (.inl ⟨.one, rfl⟩))⟩

/-- **Against C79**: a slack terminal that was removed from the working variant is written without reference, which is then missed (SlackTerminalXmlSerializer.cpp l.52-70). -/
theorem slack_unreadable : ∃ (x y : Data) (as : List (String × String)) (body : List Cmd), ((Draft.new .slack).run [.terminal (some ⟨"VG", ""⟩)]).add (exEnv .voltageLevel "V") = .ok x ∧
    x.run (exEnv .voltageLevel "V") [.terminal none] = .ok y ∧
    writeExt toyS .none 1 (.data y) = .ok (as, body) ∧ Refused (elemCmds "slackTerminal" as body) (readExt toyS .none (exREnv .voltageLevel "V") (.data .slack)) := by
  have hadd : ((Draft.new .slack).run [.terminal (some ⟨"VG", ""⟩)]).add (exEnv .voltageLevel "V") = .ok (.slack [none, some ⟨"VG", ""⟩]) := by decide
  have hrun : (Data.slack [none, some ⟨"VG", ""⟩]).run (exEnv .voltageLevel "V") [.terminal none] = .ok (.slack [none, none]) := by decide
  obtain ⟨as, body, h1, -, h3⟩ := example_read (n := .slack) (c := .voltageLevel) (by
      intro op h
      rw [List.mem_singleton] at h
      subst h
      exact .inl ⟨_, _, rfl, rfl, by decide⟩) (by decide) hadd hrun (by decide) (by
      intro k m hm
      cases k <;> simp [Data.get] at hm)
  exact ⟨_, _, as, body, hadd, hrun, h1, h3 (.inr (.inr ⟨rfl, rfl⟩))⟩

/-- **Against C79**: a valid measurement whose value was set to NaN makes the reading of all the measurements fail (Measurement.cpp l.134-137). -/
theorem measurement_unreadable : ∃ s body, runM (kindOf Cls.load) [.add ⟨"a", some .activePower, [], none, 3, .nan, true⟩, .setValue 0 .nan] = some s ∧
    writeExt toyS .none 0 (.meas (s.items.map (·.2))) = .ok ([], body) ∧ Refused (elemCmds "measurements" [] body) (readExt toyS .none (exREnv .load "V") .meas) := by
  have hrun : runM (kindOf (exREnv .load "V").cls) [.add ⟨"a", some .activePower, [], none, 3, .nan, true⟩, .setValue 0 .nan] =
      some ⟨[(0, ⟨"a", .activePower, [], none, .nan, .nan, true⟩)], 1⟩ := by decide
  obtain ⟨body, h1, -, h3⟩ := measurements_round_trip_partial (K := toyS) (A := .none) (E := exREnv .load "V") hrun (by
    intro a h
    simp only [List.mem_cons, List.not_mem_nil, or_false, MOp.add.injEq, reduceCtorEq] at h
    subst h
    exact ⟨by simp [AMap.NodupKeys], by decide⟩) (fun x _ => ⟨fun _ => toy_exact _, fun _ => toy_exact _⟩) 0
  exact ⟨_, body, hrun, h1, h3 ⟨_, List.mem_singleton.2 rfl, rfl, rfl⟩⟩

/-- **Against C79**: a discrete measurement whose value is the empty string, which the adder accepts, makes the reading fail (DiscreteMeasurementsXmlSerializer.cpp
l.70-86, 118-121). -/
theorem empty_string_unreadable : ∃ s body, runD (kindOf Cls.switch) [.add ⟨"a", some .switchPosition, none, [], some (.string ""), true⟩] = some s ∧
    writeExt toyS .none 0 (.disc (s.items.map (·.2))) = .ok ([], body) ∧ Refused (elemCmds "discreteMeasurements" [] body) (readExt toyS .none (exREnv .switch "V") .disc) := by
  have hrun : runD (kindOf (exREnv .switch "V").cls) [.add ⟨"a", some .switchPosition, none, [], some (.string ""), true⟩] =
      some ⟨[(0, ⟨"a", .switchPosition, none, [], .string, some (.string ""), true⟩)], 1⟩ := by decide
  obtain ⟨body, h1, -, h3⟩ := discrete_round_trip_partial toyS_integers rfl (A := .none) (E := exREnv .switch "V") hrun (by
    refine ⟨?_, ?_, ?_⟩
    · intro a h
      simp only [List.mem_cons, List.not_mem_nil, or_false, DOp.add.injEq] at h
      subst h
      exact ⟨by simp [AMap.NodupKeys], by decide⟩
    · intro a i h hv
      simp only [List.mem_cons, List.not_mem_nil, or_false, DOp.add.injEq] at h
      subst h
      cases hv
    · intro p i h
      simp at h) 0
  exact ⟨_, body, hrun, h1, h3 ⟨_, List.mem_singleton.2 rfl, rfl⟩⟩

end Verif.ExtXml
