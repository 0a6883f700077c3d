import Verif.ExtXml.Lemmas

/-! Property C79, measurements: what is read of the measurements that are written. -/

namespace Verif.ExtXml

open Verif Verif.Xml Verif.XmlNet Verif.ExtData Verif.Measure

/-! ### Specification -/

/-- The properties are a map, and no name is empty. -/
def PropsOk (ps : PropMap.Props) : Prop := AMap.NodupKeys ps ∧ "" ∉ ps.map Prod.fst

/-- A measurement that an object of kind `k` can have, whose numbers are read back as they were written. -/
structure MeasOk (K : XCodec) (k : Kind) (m : Meas) : Prop where
  fits : Fits k m.type m.side
  props : PropsOk m.props
  value : K.Keeps m.value
  stdDev : K.Keeps m.stdDev

/-- A discrete measurement that an object of kind `k` can have: it has a value, of its type; an integer has 32 bits. -/
structure DiscOk (k : Kind) (m : Disc) : Prop where
  fits : DFits k m.type m.tapChanger
  props : PropsOk m.props
  typed : m.value.map DVal.vtype = some m.vtype
  int : ∀ i, m.value = some (.int i) → -2 ^ 31 ≤ i ∧ i < 2 ^ 31

/-- The identifiers are distinct unless empty. -/
def Distinct (ids : List String) : Prop := ids.Pairwise fun a b => a ≠ "" → a ≠ b

/-! ### Properties -/

theorem props_runs (root : String) (i : Bool) : ∀ (ps qs : PropMap.Props), PropsOk (qs ++ ps) →
    ∃ bt, Emits i (propElems ps) bt ∧ Runs propCb root qs bt (.ok (qs ++ ps)) ∧ (bt = [] → ps = []) := by
  intro ps
  induction ps with
  | nil => intro qs _; exact ⟨[], emits_nil i, by rw [List.append_nil]; exact runs_nil _ _ _, fun _ => rfl⟩
  | cons p ps ih =>
    intro qs hok
    obtain ⟨k, val⟩ := p
    obtain ⟨hnd, hne⟩ := hok
    have hnone : AMap.get? qs k = none := by
      rw [AMap.get?_eq_none_iff]
      intro hm
      have hnd : ((qs ++ (k, val) :: ps).map Prod.fst).Nodup := hnd
      rw [List.map_append, List.nodup_append] at hnd
      exact hnd.2.2 k hm k (by simp) rfl
    have hset : (PropMap.set k val qs).2 = qs ++ [(k, val)] := by
      simp only [PropMap.set, hnone]
      simp [AMap.emplace, hnone]
    have hk : k ≠ "" := by rintro rfl; simp at hne
    obtain ⟨bt, h1, h2, _⟩ := ih (qs ++ [(k, val)]) ⟨by simpa using hnd, by simpa using hne⟩
    refine ⟨elemToks i "property" [("name", k), ("value", val)] [] ++ bt, ((emits_nil i).elem _ _).append h1, ?_, fun h => by simp [elemToks, coreToks] at h⟩
    have hr : Runs propCb root qs (elemToks i "property" [("name", k), ("value", val)] []) (.ok (qs ++ [(k, val)])) := by
      refine (runs_sp _ _ _ i).append (f := fun _ => .ok (qs ++ [(k, val)])) fun s' hs' => ?_
      cases hs'
      refine runs_element (body := []) (by simp) fun rest => ?_
      show propCb qs (.start "property" [("name", k), ("value", val)] true :: rest) = _
      unfold propCb
      rw [getS_attr (v := k) (by simp [lookup]), getS_attr (v := val) (by simp [lookup])]
      simp only [localName, Out.monad_bind_ok, if_true, Measure.putProperty, if_neg hk, hset]
      rfl
    have := hr.append (f := fun _ => .ok (qs ++ (k, val) :: ps)) fun s' hs' => by
      cases hs'
      simpa using h2
    exact this

theorem lookup_if {c : Prop} [Decidable c] {key k v : String} : lookup key (if c then [(k, v)] else []) = if c ∧ k = key then some v else none := by
  by_cases h : c <;> simp [h, lookup_cons, lookup_nil]

theorem lookup_if' {c : Prop} [Decidable c] {key k v : String} : lookup key (if c then [] else [(k, v)]) = if ¬ c ∧ k = key then some v else none := by
  by_cases h : c <;> simp [h, lookup_cons, lookup_nil]

/-! ### Adding -/

/-- The vector with one more element. -/
def push {α : Type} (b : Box α) (m : α) : Box α := ⟨b.items ++ [(b.next, m)], b.next + 1⟩

theorem addTo_ok {α : Type} {idOf : α → String} {m : α} {b : Box α} (h : idOf m = "" ∨ ∀ x ∈ b.items, idOf x.2 ≠ idOf m) : addTo idOf (idOf m) (.ok m) b = .ok (push b m) := by
  have h1 : ¬ (idOf m ≠ "" ∧ (b.find idOf (idOf m)).isSome) := by
    rintro ⟨h1, h2⟩
    rcases h with h | h
    · exact h1 h
    · unfold Box.find at h2
      obtain ⟨y, hy⟩ := Option.isSome_iff_exists.1 h2
      have := List.find?_some hy
      exact h y (List.mem_of_find?_eq_some hy) (by simpa using this)
  have h2 : ∃ y, (push b m).find idOf (idOf m) = some y := by
    refine Option.isSome_iff_exists.1 ?_
    unfold Box.find push
    rw [List.find?_isSome]
    exact ⟨(b.next, m), by simp, by simp⟩
  obtain ⟨y, hy⟩ := h2
  unfold addTo
  simp only [step, if_neg h1]
  have hy' : Box.find idOf (idOf m) ⟨b.items ++ [(b.next, m)], b.next + 1⟩ = some y := hy
  rw [hy']
  rfl

theorem addTo_thrown {α : Type} {idOf : α → String} {id : String} {b : Box α} : addTo idOf id .thrown b = .thrown := by
  unfold addTo step
  by_cases h : id ≠ "" ∧ (b.find idOf id).isSome = true
  · simp only [if_pos h]
  · simp only [if_neg h]

/-- Reading the elements of a vector one after the other. -/
def pushAll {α : Type} (p : α → Bool) : List α → Box α → Out (Box α)
  | [], b => .ok b
  | m :: ms, b => (if p m then .ok (push b m) else .thrown : Out (Box α)).bind (pushAll p ms)

theorem pushAll_ok {α : Type} {p : α → Bool} : ∀ {ms : List α} {b : Box α}, (∀ m ∈ ms, p m = true) → ∃ b', pushAll p ms b = .ok b' ∧ b'.items.map (·.2) = b.items.map (·.2) ++ ms := by
  intro ms
  induction ms with
  | nil => intro b _; exact ⟨b, rfl, by simp⟩
  | cons m ms ih =>
    intro b h
    obtain ⟨b', h1, h2⟩ := ih (b := push b m) (fun x hx => h x (List.mem_cons_of_mem _ hx))
    refine ⟨b', by rw [pushAll, if_pos (h m List.mem_cons_self), Out.bind_ok, h1], ?_⟩
    rw [h2]
    simp [push]

theorem pushAll_thrown {α : Type} {p : α → Bool} : ∀ {ms : List α} {b : Box α}, (∃ m ∈ ms, p m = false) → pushAll p ms b = .thrown := by
  intro ms
  induction ms with
  | nil => rintro b ⟨m, hm, -⟩; cases hm
  | cons m ms ih =>
    rintro b ⟨x, hx, hp⟩
    rw [pushAll]
    cases hm : p m with
    | false => rfl
    | true =>
      rcases List.mem_cons.1 hx with rfl | hx
      · rw [hp] at hm; cases hm
      · simp [ih ⟨x, hx, hp⟩]

/-- A list of elements, each of which is read into the vector or refused. -/
theorem list_runs {α : Type} {idOf : α → String} {w : α → Out (List Cmd)} {cb : Callback (Box α)} {root el : String} {p : α → Bool} {P : α → Prop}
    (hw : ∀ m, P m → ∃ as body, w m = .ok (elemCmds el as body) ∧ ∀ i, ∃ bt, Emits i body bt ∧ ∀ b : Box α, (idOf m = "" ∨ ∀ x ∈ b.items, idOf x.2 ≠ idOf m) → ∀ rest,
      cb b (coreToks i el as bt ++ rest) = (if p m then .ok (push b m) else .thrown : Out (Box α)).map fun b' => (b', last1 (coreToks i el as bt) ++ rest)) :
    ∀ ms : List α, (∀ m ∈ ms, P m) → Distinct (ms.map idOf) →
      ∃ cs, writeList w ms = .ok cs ∧ ∀ i, ∃ bt, Emits i cs bt ∧ (bt = [] → ms = []) ∧
        ∀ b : Box α, (∀ m ∈ ms, idOf m = "" ∨ ∀ x ∈ b.items, idOf x.2 ≠ idOf m) → Runs cb root b bt (pushAll p ms b) := by
  intro ms
  induction ms with
  | nil => intro _ _; exact ⟨[], rfl, fun i => ⟨[], emits_nil i, fun _ => rfl, fun b _ => runs_nil _ _ _⟩⟩
  | cons m ms ih =>
    intro hP hd
    obtain ⟨as, body, h1, h2⟩ := hw m (hP m List.mem_cons_self)
    obtain ⟨hd1, hd2⟩ := List.pairwise_cons.1 hd
    obtain ⟨cs, h3, h4⟩ := ih (fun x hx => hP x (List.mem_cons_of_mem _ hx)) hd2
    refine ⟨_, by simp only [writeList, h1, h3, Out.monad_bind_ok]; rfl, fun i => ?_⟩
    obtain ⟨bt, e1, e2⟩ := h2 i
    obtain ⟨bu, f1, -, f2⟩ := h4 i
    obtain ⟨e, tl, hcore⟩ := core_start i el as bt
    refine ⟨elemToks i el as bt ++ bu, (e1.elem el as).append f1, fun h => ?_, fun b hb => ?_⟩
    · simp [elemToks, core_ne_nil] at h
    · have hm := hb m List.mem_cons_self
      have hr : Runs cb root b (elemToks i el as bt) (if p m then .ok (push b m) else .thrown) := by
        refine (runs_sp _ _ _ i).append (f := fun b => if p m then .ok (push b m) else .thrown) (us := coreToks i el as bt) fun s' hs' => ?_
        cases hs'
        have h5 := e2 b hm
        rw [hcore] at h5 ⊢
        exact runs_element (by split <;> simp) h5
      refine hr.append fun b' hb' => ?_
      have hb2 : b' = push b m := by
        split at hb'
        · exact (Out.ok.inj hb').symm
        · cases hb'
      subst hb2
      refine f2 _ fun x hx => ?_
      by_cases hxe : idOf x = ""
      · exact .inl hxe
      · refine .inr fun y hy => ?_
        simp only [push, List.mem_append, List.mem_singleton] at hy
        rcases hy with hy | rfl
        · rcases hb x (List.mem_cons_of_mem _ hx) with h | h
          · exact absurd h hxe
          · exact h y hy
        · intro heq
          exact hd1 (idOf x) (List.mem_map.2 ⟨x, hx, rfl⟩) (heq ▸ hxe) heq

/-! ### Measurements -/

/-- The adder accepts the measurement. -/
def measReadable (m : Meas) : Bool := !(m.valid && m.value.isNan)

theorem mem_mtypes (t : MType) : t ∈ mtypes := by cases t <;> decide
theorem mem_msides (t : MSide) : t ∈ msides := by cases t <;> decide
theorem mem_dtypes (t : DType) : t ∈ dtypes := by cases t <;> decide
theorem mem_tapChangers (t : TapChanger) : t ∈ tapChangers := by cases t <;> decide
theorem mem_vtypes (t : VType) : t ∈ vtypes := by cases t <;> decide

theorem measReadable_iff {m : Meas} : measReadable m = true ↔ (m.valid = true → m.value ≠ .nan) := by
  unfold measReadable
  cases m.valid <;> cases m.value <;> simp [Dbl.isNan]

theorem meas_make {k : Kind} {m : Meas} (hf : Fits k m.type m.side) :
    (MAdder.mk m.id (some m.type) m.props m.side m.value m.stdDev m.valid).make k = if measReadable m then .ok m else .thrown := by
  by_cases h : measReadable m = true
  · rw [if_pos h, make_iff]
    exact ⟨⟨⟨_, rfl, hf⟩, measReadable_iff.1 h⟩, rfl, rfl, rfl, rfl, rfl, rfl, rfl⟩
  · rw [if_neg h]
    cases hm : (MAdder.mk m.id (some m.type) m.props m.side m.value m.stdDev m.valid).make k with
    | ok y => exact absurd (measReadable_iff.2 (make_iff.1 hm).1.hasValue) h
    | thrown => rfl
    | ub => exact absurd hm make_ne

theorem meas_core {K : XCodec} {k : Kind} {m : Meas} (hm : MeasOk K k m) :
    ∃ as body, writeMeas K m = .ok (elemCmds "measurement" as body) ∧ ∀ i, ∃ bt, Emits i body bt ∧ ∀ b : Box Meas, (m.id = "" ∨ ∀ x ∈ b.items, x.2.id ≠ m.id) → ∀ rest,
      measCb K k b (coreToks i "measurement" as bt ++ rest) = (if measReadable m then .ok (push b m) else .thrown : Out (Box Meas)).map fun b' => (b', last1 (coreToks i "measurement" as bt) ++ rest) := by
  obtain ⟨t, t1, -, t2⟩ := name_rt nodup_tables.2.2.2.1 (by decide) (mem_mtypes m.type)
  obtain ⟨sd, s1, s2, s3⟩ : ∃ sd : String, (match m.side with
      | none => .ok []
      | some s => (nameOf msides Enums.measurementSide.names s).map fun n => [("side", n)] : Out (List (String × String))) = .ok (if sd = "" then [] else [("side", sd)]) ∧
      optEnum msides Enums.measurementSide.names sd = .ok m.side ∧ True := by
    cases hs : m.side with
    | none => exact ⟨"", rfl, rfl, trivial⟩
    | some s =>
      obtain ⟨n, n1, n2, n3⟩ := name_rt nodup_tables.2.2.2.2.1 (by decide) (mem_msides s)
      have hne : n ≠ "" := names_not_empty.1 n n2
      exact ⟨n, by simp only [n1, Out.map, if_neg hne], by simp only [optEnum, if_neg hne, n3, Out.map], trivial⟩
  refine ⟨(if m.id ≠ "" then [("id", m.id)] else []) ++ (("type", t) :: ((if sd = "" then [] else [("side", sd)]) ++ (attrD K.toCodec "value" m.value ++
    (attrD K.toCodec "standardDeviation" m.stdDev ++ attrB "valid" m.valid)))), propElems m.props, ?_, fun i => ?_⟩
  · unfold writeMeas
    simp only [t1, Out.monad_bind_ok]
    revert s1
    cases m.side with
    | none => intro s1; rw [← Out.ok.inj s1]
    | some s => intro s1; simp only at s1 ⊢; rw [s1]; rfl
  · obtain ⟨bt, e1, e2, e3⟩ := props_runs "measurement" i m.props [] hm.props
    refine ⟨bt, e1, fun b hb rest => ?_⟩
    have hu := readUntilEnd_runs (as := (if m.id ≠ "" then [("id", m.id)] else []) ++ (("type", t) :: ((if sd = "" then [] else [("side", sd)]) ++ (attrD K.toCodec "value" m.value ++
      (attrD K.toCodec "standardDeviation" m.stdDev ++ attrB "valid" m.valid))))) i e2 (fun h => by rw [e3 h]; rfl) rest
    obtain ⟨e, tl, hcore⟩ := core_start i "measurement" ((if m.id ≠ "" then [("id", m.id)] else []) ++ (("type", t) :: ((if sd = "" then [] else [("side", sd)]) ++ (attrD K.toCodec "value" m.value ++
      (attrD K.toCodec "standardDeviation" m.stdDev ++ attrB "valid" m.valid))))) bt
    rw [hcore] at hu ⊢
    rw [List.cons_append] at hu ⊢
    have l : ∀ key, lookup key ((if m.id ≠ "" then [("id", m.id)] else []) ++ (("type", t) :: ((if sd = "" then [] else [("side", sd)]) ++ (attrD K.toCodec "value" m.value ++
      (attrD K.toCodec "standardDeviation" m.stdDev ++ attrB "valid" m.valid))))) = (if m.id ≠ "" ∧ "id" = key then some m.id else none).or
        (if "type" = key then some t else (if sd ≠ "" ∧ "side" = key then some sd else none).or ((if "value" = key then (if m.value.isNan then none else some (K.showD m.value)) else none).or
          ((if "standardDeviation" = key then (if m.stdDev.isNan then none else some (K.showD m.stdDev)) else none).or (if "valid" = key then some (if m.valid then "true" else "false") else none)))) := by
      intro key
      rw [lookup_append, lookup_if, lookup_cons, lookup_append, lookup_if', lookup_append, lookup_append, lookup_attrD, lookup_attrD, lookup_attrB]
    generalize (if m.id ≠ "" then [("id", m.id)] else []) ++ (("type", t) :: ((if sd = "" then [] else [("side", sd)]) ++ (attrD K.toCodec "value" m.value ++
      (attrD K.toCodec "standardDeviation" m.stdDev ++ attrB "valid" m.valid)))) = as at hu l ⊢
    have g1 : getS "type" (.start "measurement" as e :: (tl ++ rest)) = .ok t := getS_attr (by rw [l]; simp)
    have g2 : optDOr K.toCodec "value" .nan (.start "measurement" as e :: (tl ++ rest)) = .ok m.value := optDOr_attr (by rw [l]; simp) hm.value
    have g3 : optDOr K.toCodec "standardDeviation" .nan (.start "measurement" as e :: (tl ++ rest)) = .ok m.stdDev := optDOr_attr (by rw [l]; simp) hm.stdDev
    have g4 : getB "valid" (.start "measurement" as e :: (tl ++ rest)) = .ok m.valid := getB_attr (by rw [l]; simp)
    have g5 : optSOr "id" "" (.start "measurement" as e :: (tl ++ rest)) = .ok m.id := by
      by_cases h : m.id = ""
      · rw [h]; exact optSOr_none (by rw [l]; simp [h])
      · exact optSOr_some (by rw [l]; simp [h])
    have g6 : optSOr "side" "" (.start "measurement" as e :: (tl ++ rest)) = .ok sd := by
      by_cases h : sd = ""
      · rw [h]; exact optSOr_none (by rw [l]; simp [h])
      · exact optSOr_some (by rw [l]; simp [h])
    unfold measCb
    rw [g1, g2, g3, g4, g5, g6]
    simp only [localName, Out.monad_bind_ok, if_true, t2, s2, hu, Out.map, List.nil_append, meas_make hm.fits]
    by_cases hv : measReadable m = true
    · simp only [if_pos hv]
      rw [addTo_ok (idOf := fun m : Meas => m.id) hb]
      rfl
    · simp only [if_neg hv, addTo_thrown]
      rfl

/-- **C79.**  Measurements. -/
theorem meas_reading {K : XCodec} {A : Anon} {E : REnv} {ms : List Meas} (hm : ∀ m ∈ ms, MeasOk K (kindOf E.cls) m) (hd : Distinct (ms.map (·.id))) (i : Nat) :
    ∃ body, writeExt K A i (.meas ms) = .ok ([], body) ∧
      ((∀ m ∈ ms, m.valid = true → m.value ≠ .nan) → Reading (elemCmds "measurements" [] body) (readExt K A E .meas) (.ok (.meas ms))) ∧
      ((∃ m ∈ ms, m.valid = true ∧ m.value = .nan) → Reading (elemCmds "measurements" [] body) (readExt K A E .meas) .thrown) := by
  obtain ⟨cs, h1, h2⟩ := list_runs (root := "measurements") (idOf := fun m : Meas => m.id) (p := measReadable) (P := MeasOk K (kindOf E.cls)) (fun m hm => meas_core hm) ms hm hd
  refine ⟨cs, by simp only [writeExt, h1, Out.map], ?_⟩
  have key : ∀ (o : Out (Box Meas)), pushAll measReadable ms Box.empty = o → Reading (elemCmds "measurements" [] cs) (readExt K A E .meas) (o.map fun b => .meas (b.items.map (·.2))) := by
    intro o ho
    refine reading_intro fun i => ?_
    obtain ⟨bt, e1, e2, e3⟩ := h2 i
    refine ⟨bt, e1, fun rest => ?_⟩
    have hr := e3 Box.empty (fun m _ => .inr fun x hx => by cases hx)
    rw [ho] at hr
    have hu := readUntilEnd_runs (as := []) i hr (fun h => by rw [← ho, e2 h]; rfl) rest
    simp only [readExt, hu]
    cases o <;> rfl
  constructor
  · intro h
    obtain ⟨b, hb1, hb2⟩ := pushAll_ok (p := measReadable) (ms := ms) (b := Box.empty) fun m hm => measReadable_iff.2 (h m hm)
    have := key _ hb1
    simp only [Out.map, hb2] at this
    exact this
  · rintro ⟨m, hm, hv, hn⟩
    exact key _ (pushAll_thrown ⟨m, hm, by cases hx : measReadable m with
      | false => rfl
      | true => exact absurd hn (measReadable_iff.1 hx hv)⟩)

/-! ### Discrete measurements -/

/-- The value is not the empty string. -/
def discReadable (m : Disc) : Bool := m.value ≠ some (.string "")

theorem disc_make {k : Kind} {m : Disc} (hf : DFits k m.type m.tapChanger) (ht : m.value.map DVal.vtype = some m.vtype) :
    (DAdder.mk m.id (some m.type) m.tapChanger m.props m.value m.valid).make k = .ok m :=
  dmake_iff.2 ⟨⟨⟨_, rfl, hf⟩, fun h => by simp only at h; rw [h] at ht; cases ht⟩, rfl, rfl, rfl, rfl, rfl, rfl, ht⟩

theorem disc_make_none {k : Kind} {id : String} {t : DType} {c : Option TapChanger} {ps : PropMap.Props} {b : Bool} : (DAdder.mk id (some t) c ps none b).make k = .thrown := by
  cases hm : (DAdder.mk id (some t) c ps none b).make k with
  | ok y => exact absurd rfl (dmake_iff.1 hm).1.hasValue
  | thrown => rfl
  | ub => cases dmake_ub_iff.1 hm

/-- The text of the value, empty when it is not written. -/
theorem value_read {K : XCodec} (hK : K.Integers) (hS : K.readInt "" = .thrown) {k : Kind} {m : Disc} (hm : DiscOk k m) {vt : String} (h2 : ofName vtypes Enums.discreteMeasurementValueType.names vt = .ok m.vtype) :
    ∃ v, discValue K m = .ok (if v = "" then [] else [("value", v)]) ∧ ∀ n as e rest, lookup "valueType" as = some vt → lookup "value" as = (if v ≠ "" then some v else none) →
      readValue K (.start n as e :: rest) = .ok (if discReadable m then m.value else none) := by
  have ht := hm.typed
  cases hv : m.value with
  | none => rw [hv] at ht; cases ht
  | some w =>
    rw [hv] at ht
    simp only [Option.map, Option.some.injEq] at ht
    cases w with
    | boolean b =>
      refine ⟨if b then "true" else "false", ?_, ?_⟩
      · unfold discValue
        simp only [← ht, DVal.vtype, Disc.asBoolean, if_true, hv, Out.map]
        cases b <;> rfl
      · intro n as e rest l1 l2
        unfold readValue
        rw [getS_attr l1]
        simp only [Out.monad_bind_ok, h2, ← ht, DVal.vtype]
        have hne : (if b then "true" else "false") ≠ "" := by cases b <;> decide
        rw [if_pos hne] at l2
        rw [optSOr_some l2, getB_attr l2]
        simp only [Out.monad_bind_ok, if_neg hne, Out.map, discReadable, hv]
        rfl
    | int z =>
      have hz := hm.int z hv
      have hrd := hK.int z hz.1 hz.2
      have hne : K.showI z ≠ "" := by
        intro h
        rw [h, hS] at hrd
        cases hrd
      refine ⟨K.showI z, ?_, ?_⟩
      · unfold discValue
        simp only [← ht, DVal.vtype, Disc.asInt, if_true, hv, Out.map, if_neg hne, attrI]
      · intro n as e rest l1 l2
        unfold readValue
        rw [getS_attr l1]
        simp only [Out.monad_bind_ok, h2, ← ht, DVal.vtype]
        rw [if_pos hne] at l2
        rw [optSOr_some l2]
        simp only [Out.monad_bind_ok, if_neg hne, getInt, getS_attr l2, Out.bind_ok, hrd, Out.map, discReadable, hv]
        rfl
    | string s =>
      refine ⟨s, ?_, ?_⟩
      · unfold discValue
        simp only [← ht, DVal.vtype, Disc.asString, if_true, hv, Out.map]
        by_cases hs : s = "" <;> simp [hs]
      · intro n as e rest l1 l2
        unfold readValue
        rw [getS_attr l1]
        simp only [Out.monad_bind_ok, h2, ← ht, DVal.vtype]
        by_cases hs : s = ""
        · subst hs
          rw [optSOr_none (by simpa using l2)]
          simp [discReadable, hv]
        · rw [if_pos hs] at l2
          rw [optSOr_some l2, getS_attr l2]
          simp [discReadable, hv, hs, Out.map]

theorem disc_core {K : XCodec} (hK : K.Integers) (hS : K.readInt "" = .thrown) {k : Kind} {m : Disc} (hm : DiscOk k m) :
    ∃ as body, writeDisc K m = .ok (elemCmds "discreteMeasurement" as body) ∧ ∀ i, ∃ bt, Emits i body bt ∧ ∀ b : Box Disc, (m.id = "" ∨ ∀ x ∈ b.items, x.2.id ≠ m.id) → ∀ rest,
      discCb K k b (coreToks i "discreteMeasurement" as bt ++ rest) = (if discReadable m then .ok (push b m) else .thrown : Out (Box Disc)).map fun b' => (b', last1 (coreToks i "discreteMeasurement" as bt) ++ rest) := by
  obtain ⟨t, t1, -, t2⟩ := name_rt nodup_tables.2.2.2.2.2.1 (by decide) (mem_dtypes m.type)
  obtain ⟨vt, u1, -, u2⟩ := name_rt nodup_tables.2.2.2.2.2.2.2 (by decide) (mem_vtypes m.vtype)
  obtain ⟨v, w1, w2⟩ := value_read hK hS hm u2
  obtain ⟨sd, s1, s2⟩ : ∃ sd : String, (match m.tapChanger with
      | none => .ok []
      | some s => (nameOf tapChangers Enums.discreteMeasurementTapChanger.names s).map fun n => [("tapChanger", n)] : Out (List (String × String))) = .ok (if sd = "" then [] else [("tapChanger", sd)]) ∧
      optEnum tapChangers Enums.discreteMeasurementTapChanger.names sd = .ok m.tapChanger := by
    cases hs : m.tapChanger with
    | none => exact ⟨"", rfl, rfl⟩
    | some s =>
      obtain ⟨n, n1, n2, n3⟩ := name_rt nodup_tables.2.2.2.2.2.2.1 (by decide) (mem_tapChangers s)
      have hne : n ≠ "" := names_not_empty.2 n n2
      exact ⟨n, by simp only [n1, Out.map, if_neg hne], by simp only [optEnum, if_neg hne, n3, Out.map]⟩
  refine ⟨(if m.id ≠ "" then [("id", m.id)] else []) ++ (("type", t) :: ((if sd = "" then [] else [("tapChanger", sd)]) ++ (("valueType", vt) :: ((if v = "" then [] else [("value", v)]) ++
    attrB "valid" m.valid)))), propElems m.props, ?_, fun i => ?_⟩
  · unfold writeDisc
    simp only [t1, u1, w1, Out.monad_bind_ok]
    revert s1
    cases m.tapChanger with
    | none => intro s1; rw [← Out.ok.inj s1]
    | some s => intro s1; simp only at s1 ⊢; rw [s1]; rfl
  · obtain ⟨bt, e1, e2, e3⟩ := props_runs "discreteMeasurement" i m.props [] hm.props
    refine ⟨bt, e1, fun b hb rest => ?_⟩
    have l : ∀ key, lookup key ((if m.id ≠ "" then [("id", m.id)] else []) ++ (("type", t) :: ((if sd = "" then [] else [("tapChanger", sd)]) ++ (("valueType", vt) :: ((if v = "" then [] else [("value", v)]) ++
        attrB "valid" m.valid))))) = (if m.id ≠ "" ∧ "id" = key then some m.id else none).or
        (if "type" = key then some t else (if sd ≠ "" ∧ "tapChanger" = key then some sd else none).or (if "valueType" = key then some vt else
          (if v ≠ "" ∧ "value" = key then some v else none).or (if "valid" = key then some (if m.valid then "true" else "false") else none))) := by
      intro key
      rw [lookup_append, lookup_if, lookup_cons, lookup_append, lookup_if', lookup_cons, lookup_append, lookup_if', lookup_attrB]
    generalize (if m.id ≠ "" then [("id", m.id)] else []) ++ (("type", t) :: ((if sd = "" then [] else [("tapChanger", sd)]) ++ (("valueType", vt) :: ((if v = "" then [] else [("value", v)]) ++
        attrB "valid" m.valid)))) = as at l ⊢
    have hu := readUntilEnd_runs (as := as) i e2 (fun h => by rw [e3 h]; rfl) rest
    obtain ⟨e, tl, hcore⟩ := core_start i "discreteMeasurement" as bt
    rw [hcore] at hu ⊢
    rw [List.cons_append] at hu ⊢
    have g1 : getS "type" (.start "discreteMeasurement" as e :: (tl ++ rest)) = .ok t := getS_attr (by rw [l]; simp)
    have g2 : readValue K (.start "discreteMeasurement" as e :: (tl ++ rest)) = .ok (if discReadable m then m.value else none) :=
      w2 _ _ _ _ (by rw [l]; simp) (by rw [l]; simp)
    have g4 : getB "valid" (.start "discreteMeasurement" as e :: (tl ++ rest)) = .ok m.valid := getB_attr (by rw [l]; simp)
    have g5 : optSOr "id" "" (.start "discreteMeasurement" as e :: (tl ++ rest)) = .ok m.id := by
      by_cases h : m.id = ""
      · rw [h]; exact optSOr_none (by rw [l]; simp [h])
      · exact optSOr_some (by rw [l]; simp [h])
    have g6 : optSOr "tapChanger" "" (.start "discreteMeasurement" as e :: (tl ++ rest)) = .ok sd := by
      by_cases h : sd = ""
      · rw [h]; exact optSOr_none (by rw [l]; simp [h])
      · exact optSOr_some (by rw [l]; simp [h])
    unfold discCb
    rw [g1, g2, g4, g5, g6]
    simp only [localName, Out.monad_bind_ok, if_true, t2, s2, hu, Out.map, List.nil_append]
    by_cases hv : discReadable m = true
    · simp only [if_pos hv, disc_make hm.fits hm.typed]
      rw [addTo_ok (idOf := fun m : Disc => m.id) hb]
      rfl
    · simp only [if_neg hv, disc_make_none, addTo_thrown]
      rfl

/-- **C79.**  Discrete measurements. -/
theorem disc_reading {K : XCodec} (hK : K.Integers) (hS : K.readInt "" = .thrown) {A : Anon} {E : REnv} {ms : List Disc} (hm : ∀ m ∈ ms, DiscOk (kindOf E.cls) m) (hd : Distinct (ms.map (·.id))) (i : Nat) :
    ∃ body, writeExt K A i (.disc ms) = .ok ([], body) ∧
      ((∀ m ∈ ms, m.value ≠ some (.string "")) → Reading (elemCmds "discreteMeasurements" [] body) (readExt K A E .disc) (.ok (.disc ms))) ∧
      ((∃ m ∈ ms, m.value = some (.string "")) → Reading (elemCmds "discreteMeasurements" [] body) (readExt K A E .disc) .thrown) := by
  obtain ⟨cs, h1, h2⟩ := list_runs (root := "discreteMeasurements") (idOf := fun m : Disc => m.id) (p := discReadable) (P := DiscOk (kindOf E.cls)) (fun m hm => disc_core hK hS hm) ms hm hd
  refine ⟨cs, by simp only [writeExt, h1, Out.map], ?_⟩
  have key : ∀ (o : Out (Box Disc)), pushAll discReadable ms Box.empty = o → Reading (elemCmds "discreteMeasurements" [] cs) (readExt K A E .disc) (o.map fun b => .disc (b.items.map (·.2))) := by
    intro o ho
    refine reading_intro fun i => ?_
    obtain ⟨bt, e1, e2, e3⟩ := h2 i
    refine ⟨bt, e1, fun rest => ?_⟩
    have hr := e3 Box.empty (fun m _ => .inr fun x hx => by cases hx)
    rw [ho] at hr
    have hu := readUntilEnd_runs (as := []) i hr (fun h => by rw [← ho, e2 h]; rfl) rest
    simp only [readExt, hu]
    cases o <;> rfl
  constructor
  · intro h
    obtain ⟨b, hb1, hb2⟩ := pushAll_ok (p := discReadable) (ms := ms) (b := Box.empty) fun m hm => by simpa [discReadable] using h m hm
    have := key _ hb1
    simp only [Out.map, hb2] at this
    exact this
  · rintro ⟨m, hm, hv⟩
    exact key _ (pushAll_thrown ⟨m, hm, by simp [discReadable, hv]⟩)

end Verif.ExtXml
