import Verif.Measure.Model
import Verif.Measure.BoxProps

/-! Property C76: the measurements of an equipment. -/

namespace Verif.Measure

open Verif

/-- What can be measured on an object, as the headers say: nothing on what is not connected; a side exactly on what has several ends, but for the
measurements of type OTHER where it may be left out. -/
structure Fits (k : Kind) (t : MType) (side : Option MSide) : Prop where
  connectable : k = .injection ∨ k = .line ∨ k = .twoWindings ∨ k = .threeWindings
  noSide : k = .injection → side = none
  aSide : k ≠ .injection → t ≠ .other → side ≠ none

/-- What an adder needs, besides an identifier that is not used. -/
structure MAdder.Complete (k : Kind) (a : MAdder) : Prop where
  hasType : ∃ t, a.type = some t ∧ Fits k t a.side
  hasValue : a.valid = true → a.value ≠ .nan

theorem isNan_iff {x : Dbl} : x.isNan = true ↔ x = .nan := by cases x <;> simp [Dbl.isNan]

theorem checkValue_ok {x : Dbl} {b : Bool} : checkValue x b = .ok () ↔ (b = true → x ≠ .nan) := by
  unfold checkValue
  cases b <;> cases x <;> simp [Dbl.isNan]

theorem checkSide_ok {t : MType} {side : Option MSide} {k : Kind} : checkSide t side k = .ok () ↔ (k = .injection → side = none) ∧ (k ≠ .injection → t ≠ .other → side ≠ none) := by
  unfold checkSide
  cases side <;> cases k <;> cases t <;> simp

theorem unit_cases (o : Out Unit) : o = .ok () ∨ o = .thrown ∨ o = .ub := by cases o <;> simp

theorem checkValue_ne {x : Dbl} {b : Bool} : checkValue x b ≠ .ub := by unfold checkValue; split <;> nofun

theorem checkSide_ne {t : MType} {side : Option MSide} {k : Kind} : checkSide t side k ≠ .ub := by
  unfold checkSide
  cases side <;> cases k <;> cases t <;> simp

theorem connectable_iff {k : Kind} : k.connectable = true ↔ (k = .injection ∨ k = .line ∨ k = .twoWindings ∨ k = .threeWindings) := by cases k <;> simp [Kind.connectable]

/-- The adder makes a measurement exactly when it is complete, and it is what the adder was given. -/
theorem make_iff {k : Kind} {a : MAdder} {m : Meas} : a.make k = .ok m ↔
    a.Complete k ∧ a.type = some m.type ∧ a.id = m.id ∧ a.props = m.props ∧ a.side = m.side ∧ a.value = m.value ∧ a.stdDev = m.stdDev ∧ a.valid = m.valid := by
  obtain ⟨id, t, ps, side, v, sd, b⟩ := a
  obtain ⟨mid, mt, mps, mside, mv, msd, mb⟩ := m
  match t with
  | none =>
    refine ⟨nofun, ?_⟩
    rintro ⟨-, h, -⟩
    cases h
  | some t =>
    simp only [MAdder.make]
    constructor
    · intro h
      obtain ⟨u, hv, h⟩ := Out.bind_eq_ok.1 h
      by_cases hk : k.connectable = true
      · rw [if_neg (by simp [hk])] at h
        rcases hs : checkSide t side k with u' | _ | _
        · rw [hs] at h
          cases h
          have := checkSide_ok.1 hs
          exact ⟨⟨⟨_, rfl, connectable_iff.1 hk, this.1, this.2⟩, checkValue_ok.1 hv⟩, rfl, rfl, rfl, rfl, rfl, rfl, rfl⟩
        · rw [hs] at h; cases h
        · rw [hs] at h; cases h
      · rw [if_pos (by simpa using hk)] at h
        cases h
    · rintro ⟨⟨⟨t', ht, hf⟩, hv⟩, h1, h2, h3, h4, h5, h6, h7⟩
      cases ht
      cases h1
      dsimp only at h2 h3 h4 h5 h6 h7 hv hf
      subst h2 h3 h4 h5 h6 h7
      rw [checkValue_ok.2 hv, Out.bind_ok, if_neg (by simp [connectable_iff.2 hf.connectable]), checkSide_ok.2 ⟨hf.noSide, hf.aSide⟩]
      rfl

theorem make_ne {k : Kind} {a : MAdder} : a.make k ≠ .ub := by
  obtain ⟨id, t, ps, side, v, sd, b⟩ := a
  cases t with
  | none => nofun
  | some t =>
    simp only [MAdder.make]
    rcases hv : checkValue v b with u | _ | _
    · rw [Out.bind_ok]
      by_cases hk : k.connectable = true
      · rw [if_neg (by simp [hk])]
        rcases hs : checkSide t side k with u' | _ | _
        · nofun
        · nofun
        · exact absurd hs checkSide_ne
      · rw [if_pos (by simpa using hk)]
        nofun
    · nofun
    · exact absurd hv checkValue_ne

/-- What holds of a measurement whatever was done. -/
def Meas.Good (k : Kind) (m : Meas) : Prop := Fits k m.type m.side

theorem call_named (k : Kind) (o : MOp) : (o.call k).Named (·.id) := by
  cases o with
  | add a => intro m h; exact (make_iff.1 h).2.2.1.symm
  | _ => trivial

theorem call_keepsId (k : Kind) (o : MOp) : (o.call k).KeepsId (·.id) := by
  cases o with
  | add a => trivial
  | remove p => trivial
  | putProperty p n v =>
    intro x y h
    simp only [Measure.putProperty] at h
    by_cases hn : n = ""
    · rw [if_pos hn] at h; cases h
    · rw [if_neg hn] at h; cases h; rfl
  | _ => intro x y h; cases h; rfl

theorem call_good (k : Kind) (o : MOp) : (o.call k).Keeps (Meas.Good k) := by
  cases o with
  | add a =>
    intro m h
    obtain ⟨⟨⟨t, ht, hf⟩, -⟩, h1, -, -, h4, -⟩ := make_iff.1 h
    rw [ht] at h1
    cases h1
    show Fits k m.type m.side
    rw [← h4]
    exact hf
  | remove p => trivial
  | putProperty p n v =>
    intro x y hx h
    simp only [Measure.putProperty] at h
    by_cases hn : n = ""
    · rw [if_pos hn] at h; cases h
    · rw [if_neg hn] at h; cases h; exact hx
  | _ => intro x y hx h; cases h; exact hx

/-- **The measurements of an equipment**, after any sequence of calls: their identifiers are distinct unless empty, they are in the order of their
addition, and each has a side as the equipment wants. -/
theorem measurements_good (k : Kind) (os : List MOp) (s : Box Meas) (h : runM k os = some s) :
    (∀ x ∈ s.items, ∀ y ∈ s.items, x.2.id = y.2.id → x.2.id ≠ "" → x = y) ∧ (s.items.map (·.1)).Pairwise (· < ·) ∧ ∀ x ∈ s.items, Fits k x.2.type x.2.side := by
  have := elements (idOf := fun m : Meas => m.id) (P := Meas.Good k) (cs := os.map (MOp.call k)) (fun c hc => by
    obtain ⟨o, -, rfl⟩ := List.mem_map.1 hc
    exact ⟨call_named k o, call_keepsId k o, call_good k o⟩) h
  exact ⟨this.1, this.2.1, this.2.2.2⟩

/-- **What is there is what was added and not removed**: the calls are those of a register, in which a refused call writes nothing. -/
theorem measurements_register (k : Kind) (os : List MOp) (s : Box Meas) : runM k os = some s ↔ ∃ r, After (·.id) (os.map (MOp.call k)) r ∧ Holds s r :=
  register (fun c hc => by
    obtain ⟨o, -, rfl⟩ := List.mem_map.1 hc
    exact call_named k o) s

/-- **An addition** succeeds exactly when the adder is complete and its identifier is empty or not used; the vector then ends with what the adder was
given, and otherwise an exception leaves it as it was. -/
theorem measurement_added_iff (k : Kind) (os : List MOp) (s : Box Meas) (h : runM k os = some s) (a : MAdder) :
    ((∃ p, (step (·.id) ((MOp.add a).call k) s).1 = .ok p) ↔ a.Complete k ∧ (a.id = "" ∨ ∀ x ∈ s.items, x.2.id ≠ a.id)) ∧
    (¬ (∃ p, (step (·.id) ((MOp.add a).call k) s).1 = .ok p) → step (·.id) ((MOp.add a).call k) s = (.thrown, s)) ∧
    ∀ p, (step (·.id) ((MOp.add a).call k) s).1 = .ok p → ∃ t, a.type = some t ∧
      (step (·.id) ((MOp.add a).call k) s).2.items = s.items ++ [(s.next, ⟨a.id, t, a.props, a.side, a.value, a.stdDev, a.valid⟩)] ∧ ∀ x ∈ s.items, x.1 ≠ s.next := by
  have hc : ∀ c ∈ os.map (MOp.call k), c.Named (fun m : Meas => m.id) ∧ c.KeepsId (fun m : Meas => m.id) := fun c hc => by
    obtain ⟨o, -, rfl⟩ := List.mem_map.1 hc
    exact ⟨call_named k o, call_keepsId k o⟩
  have hlt : ∀ x ∈ s.items, x.1 < s.next := (elements (P := fun _ => True) (fun c hm => ⟨(hc c hm).1, (hc c hm).2, by cases c <;> simp [Call.Keeps]⟩) h).2.2.1
  have hfree : (a.id = "" ∨ ∀ x ∈ s.items, x.2.id ≠ a.id) ↔ ¬ (a.id ≠ "" ∧ (s.find (fun m : Meas => m.id) a.id).isSome = true) := by
    rw [Box.find, List.find?_isSome]
    constructor
    · rintro (h | h) ⟨h1, x, hx, e⟩
      · exact h1 h
      · exact h x hx (by simpa using e)
    · intro h
      by_cases he : a.id = ""
      · exact .inl he
      · exact .inr fun x hx e => h ⟨he, x, hx, by simpa using e⟩
  simp only [MOp.call]
  by_cases hf : a.id = "" ∨ ∀ x ∈ s.items, x.2.id ≠ a.id
  · have ht := hfree.1 hf
    rcases hm : a.make k with m | _ | _
    · obtain ⟨hcm, h1, h2, h3, h4, h5, h6, h7⟩ := make_iff.1 hm
      obtain ⟨p, hp, -, -⟩ := returns_new_iff (idOf := fun m : Meas => m.id) hc h (id := a.id) (x := m) h2.symm (fun hne => by
        cases hh : s.find (fun m : Meas => m.id) a.id with
        | none => rfl
        | some y => exact absurd ⟨hne, by rw [hh]; rfl⟩ ht)
      rw [hp]
      refine ⟨⟨fun _ => ⟨hcm, hf⟩, fun _ => ⟨_, rfl⟩⟩, fun hn => absurd ⟨_, rfl⟩ hn, fun _ _ => ⟨m.type, h1, ?_, fun x hx e => by have := hlt x hx; omega⟩⟩
      rw [h2, h3, h4, h5, h6, h7]
    · rw [step_new ht]
      refine ⟨⟨?_, ?_⟩, fun _ => rfl, ?_⟩
      · rintro ⟨p, hp⟩; cases hp
      · rintro ⟨hcm, -⟩
        obtain ⟨t, ht', -⟩ := hcm.hasType
        have := (make_iff (m := ⟨a.id, t, a.props, a.side, a.value, a.stdDev, a.valid⟩)).2 ⟨hcm, ht', rfl, rfl, rfl, rfl, rfl, rfl⟩
        rw [hm] at this
        cases this
      · rintro p hp; cases hp
    · exact absurd hm make_ne
  · have ht : a.id ≠ "" ∧ (s.find (fun m : Meas => m.id) a.id).isSome = true := by
      by_cases ht : a.id ≠ "" ∧ (s.find (fun m : Meas => m.id) a.id).isSome = true
      · exact ht
      · exact absurd (hfree.2 ht) hf
    rw [step_taken ht]
    refine ⟨⟨?_, fun h => absurd h.2 hf⟩, fun _ => rfl, ?_⟩
    · rintro ⟨p, hp⟩; cases hp
    · rintro p hp; cases hp

/-- **The reference that an addition returns** designates the new measurement exactly when it has an identifier or no other measurement is without one. -/
theorem measurement_returned_iff (k : Kind) (os : List MOp) (s : Box Meas) (h : runM k os = some s) (a : MAdder) (p : Option Nat)
    (hp : (step (·.id) ((MOp.add a).call k) s).1 = .ok p) : p = some s.next ↔ (a.id ≠ "" ∨ ∀ x ∈ s.items, x.2.id ≠ "") := by
  have hc : ∀ c ∈ os.map (MOp.call k), c.Named (fun m : Meas => m.id) ∧ c.KeepsId (fun m : Meas => m.id) := fun c hc => by
    obtain ⟨o, -, rfl⟩ := List.mem_map.1 hc
    exact ⟨call_named k o, call_keepsId k o⟩
  obtain ⟨hcm, hf⟩ := (measurement_added_iff k os s h a).1.1 ⟨p, hp⟩
  obtain ⟨t, ht, hfit⟩ := hcm.hasType
  have hm := (make_iff (m := ⟨a.id, t, a.props, a.side, a.value, a.stdDev, a.valid⟩)).2 ⟨hcm, ht, rfl, rfl, rfl, rfl, rfl, rfl⟩
  obtain ⟨q, hq, hiff, -⟩ := returns_new_iff (idOf := fun m : Meas => m.id) hc h (id := a.id) (x := ⟨a.id, t, a.props, a.side, a.value, a.stdDev, a.valid⟩) rfl (fun hne => by
    rw [Box.find, List.find?_eq_none]
    intro x hx e
    rcases hf with h1 | h1
    · exact hne h1
    · exact h1 x hx (by simpa using e))
  have hq1 : (step (·.id) ((MOp.add a).call k) s).1 = .ok (some q) := by
    show (step (·.id) (.add a.id (a.make k)) s).1 = _
    rw [hm, hq]
  rw [hq1] at hp
  cases hp
  rw [← hiff]
  exact ⟨Option.some.inj, congrArg some⟩

/-- **Properties**: one is put exactly when its name is not empty; it is then the value of its name, and nothing else has changed. -/
theorem property_put (n v : String) (ps : PropMap.Props) : (n = "" → putProperty n v ps = .thrown) ∧
    (n ≠ "" → ∃ ps', putProperty n v ps = .ok ps' ∧ getProperty n ps' = v ∧ ∀ m, m ≠ n → ps'.get? m = ps.get? m) := by
  unfold putProperty
  refine ⟨fun h => if_pos h, fun h => ⟨_, if_neg h, ?_, fun m hm => ?_⟩⟩
  · unfold getProperty PropMap.set
    cases hg : AMap.get? ps n with
    | none => simp only [AMap.get?_emplace, hg, if_true]; rfl
    | some old => simp only [AMap.get?_set, if_true]; rfl
  · unfold PropMap.set
    cases hg : AMap.get? ps n with
    | none => simp only [AMap.get?_emplace, Ne.symm hm, if_false]
    | some old => simp only [AMap.get?_set, Ne.symm hm, if_false]

/-- What a call does to the measurement it is for. -/
def MOp.Writes : MOp → Meas → Meas → Prop
  | .setValue _ x, m, m' => m' = { m with value := x }
  | .setStdDev _ x, m, m' => m' = { m with stdDev := x }
  | .setValid _ b, m, m' => m' = { m with valid := b }
  | .putProperty _ n v, m, m' => n ≠ "" ∧ { m' with props := m.props } = m ∧ getProperty n m'.props = v ∧ ∀ k, k ≠ n → m'.props.get? k = m.props.get? k
  | .removeProperty _ n, m, m' => { m' with props := m.props } = m ∧ m'.props.get? n = none ∧ ∀ k, k ≠ n → m'.props.get? k = m.props.get? k
  | _, _, _ => False

/-- The measurement that a setter is for. -/
def MOp.target : MOp → Option Nat
  | .setValue p _ | .setStdDev p _ | .setValid p _ | .putProperty p _ _ | .removeProperty p _ => some p
  | _ => none

/-- **A setter** changes what it says in the measurement it is for, and nothing else; only an empty property name is refused, and then nothing changes;
for a measurement that was removed it is undefined. -/
theorem measurement_written (k : Kind) (s : Box Meas) (o : MOp) (p : Nat) (ho : o.target = some p) :
    (s.at? p = none → (step (·.id) (o.call k) s).1 = .ub) ∧
    ∀ m, s.at? p = some m → ((∃ v, o = .putProperty p "" v) ∧ step (·.id) (o.call k) s = (.thrown, s)) ∨ ∃ m', o.Writes m m' ∧ step (·.id) (o.call k) s = (.ok none, s.put p m') := by
  cases o with
  | add a => cases ho
  | remove q => cases ho
  | putProperty q n v =>
    cases ho
    refine ⟨fun h => ?_, fun m h => ?_⟩
    · simp only [MOp.call, step, h]
    · by_cases hn : n = ""
      · subst hn
        refine .inl ⟨⟨v, rfl⟩, ?_⟩
        simp only [MOp.call, step, h, (property_put "" v m.props).1 rfl]
        rfl
      · obtain ⟨ps', h1, h2, h3⟩ := (property_put n v m.props).2 hn
        refine .inr ⟨{ m with props := ps' }, ⟨hn, rfl, h2, h3⟩, ?_⟩
        simp only [MOp.call, step, h, h1]
        rfl
  | removeProperty q n =>
    cases ho
    refine ⟨fun h => ?_, fun m h => .inr ⟨{ m with props := m.props.erase n }, ⟨rfl, ?_, fun j hj => ?_⟩, ?_⟩⟩
    · simp only [MOp.call, step, h]
    · show AMap.get? (AMap.erase m.props n) n = none
      simp [AMap.get?_erase]
    · show AMap.get? (AMap.erase m.props n) j = _
      simp [AMap.get?_erase, Ne.symm hj]
    · simp only [MOp.call, step, h]
  | setValue q x | setStdDev q x | setValid q x =>
    cases ho
    refine ⟨fun h => ?_, fun m h => .inr ⟨_, rfl, ?_⟩⟩
    · simp only [MOp.call, step, h]
    · simp only [MOp.call, step, h]

/-- **Looking for an identifier** that is not empty gives the measurement that has it. -/
theorem measurement_found_iff (k : Kind) (os : List MOp) (s : Box Meas) (h : runM k os = some s) (id : String) (hid : id ≠ "") (x : Nat × Meas) :
    s.find (·.id) id = some x ↔ x ∈ s.items ∧ x.2.id = id :=
  found_iff (fun c hc => by
    obtain ⟨o, -, rfl⟩ := List.mem_map.1 hc
    exact ⟨call_named k o, call_keepsId k o⟩) h hid x

/-- **Listing the measurements of a type** gives all of them in order, while the argument exists. -/
theorem measurements_listed (t : MType) (s : Box Meas) : ∃ l, s.listByType (·.type) t true = .ok l ∧ l.Sublist s.items ∧ ∀ x, x ∈ l ↔ x ∈ s.items ∧ x.2.type = t := listed _ t s

/-- Gone through after the end of the expression that gave the type, the listing is undefined as soon as something follows the first measurement of the
type: so it is with `for (auto& m : measurements.getMeasurements(Measurement::Type::CURRENT))`. -/
theorem measurements_listed_late (t : MType) (s : Box Meas) : s.listByType (·.type) t false = .ub ↔
    ∃ a x y b, s.items = a ++ x :: y :: b ∧ (∀ z ∈ a, z.2.type ≠ t) ∧ x.2.type = t := listed_late_iff _ t s

/-- The setters are not used to make a valid measurement without value. -/
def Careful (k : Kind) : List MOp → Box Meas → Prop
  | [], _ => True
  | o :: os, s => (match o with
      | .setValue p x => ∀ m, s.at? p = some m → m.valid = true → x ≠ .nan
      | .setValid p b => ∀ m, s.at? p = some m → b = true → m.value ≠ .nan
      | _ => True) ∧ Careful k os (step (·.id) (o.call k) s).2

theorem at_mem {α : Type} {s : Box α} {p : Nat} {x : α} (h : s.at? p = some x) : (p, x) ∈ s.items := by
  unfold Box.at? at h
  obtain ⟨y, hy, rfl⟩ := Option.map_eq_some_iff.1 h
  have h1 := List.mem_of_find?_eq_some hy
  have h2 : y.1 = p := by have := List.find?_some hy; simpa using this
  rw [← h2]
  exact h1

theorem put_mem {α : Type} {s : Box α} {p : Nat} {z : α} {y : Nat × α} (h : y ∈ (s.put p z).items) : y = (p, z) ∨ y ∈ s.items := by
  obtain ⟨w, hw, e⟩ := List.mem_map.1 h
  by_cases hp : w.1 = p
  · rw [if_pos hp] at e; exact .inl e.symm
  · rw [if_neg hp] at e; subst e; exact .inr hw

theorem edit_mem {α : Type} {idOf : α → String} {s : Box α} {p : Nat} {f : α → Out α} {y : Nat × α} (h : y ∈ (step idOf (.edit p f) s).2.items) :
    y ∈ s.items ∨ ∃ x, s.at? p = some x ∧ f x = .ok y.2 := by
  simp only [step] at h
  cases hx : s.at? p with
  | none => rw [hx] at h; exact .inl h
  | some x =>
    rw [hx] at h
    simp only at h
    cases hf : f x with
    | ok z =>
      rw [hf] at h
      rcases put_mem h with e | e
      · exact .inr ⟨x, rfl, by rw [e]; exact hf⟩
      · exact .inl e
    | thrown => rw [hf] at h; exact .inl h
    | ub => rw [hf] at h; exact .inl h

/-- **Valid measurements have a value**, as long as the setters are used with care; they check nothing (`set_valid_unchecked`, `set_value_unchecked`). -/
theorem valid_has_value_partial (k : Kind) (os : List MOp) (s : Box Meas) (h : runM k os = some s) (hc : Careful k os Box.empty) :
    ∀ x ∈ s.items, x.2.valid = true → x.2.value ≠ .nan := by
  have key : ∀ (os : List MOp) (s0 s : Box Meas), (∀ x ∈ s0.items, x.2.valid = true → x.2.value ≠ .nan) → Careful k os s0 → run (·.id) (os.map (MOp.call k)) s0 = some s →
      ∀ x ∈ s.items, x.2.valid = true → x.2.value ≠ .nan := by
    intro os
    induction os with
    | nil => intro s0 s h0 _ hr; cases hr; exact h0
    | cons o os ih =>
      intro s0 s h0 hca hr
      have hstep : ∀ x ∈ (step (fun m : Meas => m.id) (o.call k) s0).2.items, x.2.valid = true → x.2.value ≠ .nan := by
        cases o with
        | add a =>
          intro y hy hv
          by_cases ht : a.id ≠ "" ∧ (s0.find (fun m : Meas => m.id) a.id).isSome = true
          · simp only [MOp.call, step_taken ht] at hy
            exact h0 y hy hv
          · simp only [MOp.call, step_new ht] at hy
            cases hm : a.make k with
            | thrown => rw [hm] at hy; exact h0 y hy hv
            | ub => rw [hm] at hy; exact h0 y hy hv
            | ok m =>
              have hy' : y ∈ s0.items ++ [(s0.next, m)] := by
                rw [hm] at hy
                simp only at hy
                cases hh : Box.find (fun m : Meas => m.id) a.id ⟨s0.items ++ [(s0.next, m)], s0.next + 1⟩ <;> rw [hh] at hy <;> exact hy
              rcases List.mem_append.1 hy' with e | e
              · exact h0 y e hv
              · rw [List.mem_singleton.1 e] at hv ⊢
                obtain ⟨hcm, -, -, -, -, h5, -, h7⟩ := make_iff.1 hm
                rw [← h5]
                exact hcm.hasValue (by rw [h7]; exact hv)
        | remove p =>
          intro y hy hv
          simp only [MOp.call, step] at hy
          by_cases hp : (s0.at? p).isSome = true
          · rw [if_pos hp] at hy; exact h0 y (List.mem_of_mem_eraseP hy) hv
          · rw [if_neg hp] at hy; exact h0 y hy hv
        | setValue p x =>
          intro y hy hv
          rcases edit_mem hy with e | ⟨m, hm, e⟩
          · exact h0 y e hv
          · rw [← Out.ok.inj e] at hv ⊢
            exact hca.1 m hm hv
        | setStdDev p x =>
          intro y hy hv
          rcases edit_mem hy with e | ⟨m, hm, e⟩
          · exact h0 y e hv
          · rw [← Out.ok.inj e] at hv ⊢
            exact h0 _ (at_mem hm) hv
        | setValid p b =>
          intro y hy hv
          rcases edit_mem hy with e | ⟨m, hm, e⟩
          · exact h0 y e hv
          · rw [← Out.ok.inj e] at hv ⊢
            exact hca.1 m hm hv
        | putProperty p n v =>
          intro y hy hv
          rcases edit_mem hy with e | ⟨m, hm, e⟩
          · exact h0 y e hv
          · simp only [Measure.putProperty] at e
            by_cases hn : n = ""
            · rw [if_pos hn] at e; cases e
            · rw [if_neg hn] at e
              rw [← Out.ok.inj e] at hv ⊢
              exact h0 _ (at_mem hm) hv
        | removeProperty p n =>
          intro y hy hv
          rcases edit_mem hy with e | ⟨m, hm, e⟩
          · exact h0 y e hv
          · rw [← Out.ok.inj e] at hv ⊢
            exact h0 _ (at_mem hm) hv
      rw [List.map_cons, run] at hr
      rcases hs : step (fun m : Meas => m.id) (o.call k) s0 with ⟨r, s1⟩
      rw [hs] at hr hstep
      have hca' : Careful k os s1 := by have := hca.2; rw [hs] at this; exact this
      cases r with
      | ub => cases hr
      | ok a => exact ih s1 s hstep hca' hr
      | thrown => exact ih s1 s hstep hca' hr
  exact key os Box.empty s nofun hc h

/-! ### What the code lets through -/

/-- A measurement of type CURRENT with a side, without identifier. -/
def current1 : MAdder := { MAdder.new with type := some .current, side := some .one, value := .fin 3 }

/-- **Against C76**: with two measurements without identifier, `add` returns the first one (MeasurementAdder.cpp l.35). -/
theorem returns_another : ∃ s, runM .line [.add current1] = some s ∧
    (step (·.id) ((MOp.add { current1 with value := .fin 7 }).call .line) s).1 = .ok (some 0) ∧ s.next = 1 := by
  exact ⟨_, rfl, by decide, rfl⟩

/-- **Against C76**: `setValid` checks nothing (Measurement.cpp l.129-132). -/
theorem set_valid_unchecked : ∃ s, runM .line [.add { current1 with value := .nan, valid := false }, .setValid 0 true] = some s ∧
    ∃ x ∈ s.items, x.2.valid = true ∧ x.2.value = .nan := by
  exact ⟨_, rfl, _, List.mem_singleton.2 rfl, rfl, rfl⟩

/-- **Against C76**: `setValue` checks nothing (Measurement.cpp l.134-137). -/
theorem set_value_unchecked : ∃ s, runM .line [.add current1, .setValue 0 .nan] = some s ∧ ∃ x ∈ s.items, x.2.valid = true ∧ x.2.value = .nan := by
  exact ⟨_, rfl, _, List.mem_singleton.2 rfl, rfl, rfl⟩

/-- **Against C76**: a line can have a measurement on its side THREE (MeasurementValidationUtil.cpp l.32-39). -/
theorem third_side_of_line : ∃ s, runM .line [.add { current1 with side := some .three }] = some s ∧ ∃ x ∈ s.items, x.2.side = some .three := by
  exact ⟨_, rfl, _, List.mem_singleton.2 rfl, rfl⟩

/-- **Against C76**: two measurements of a type listed in a `for` loop. -/
theorem listed_in_loop : ∃ s, runM .line [.add current1, .add current1] = some s ∧ s.listByType (·.type) .current false = .ub := by
  exact ⟨_, rfl, by decide⟩

/-- The hypotheses can be met: identifiers, setters, a removal and a refused addition. -/
example : ∃ s, runM .line [.add { current1 with id := "a" }, .add { current1 with id := "b" }, .add { current1 with id := "a" }, .setValue 1 (.fin 5), .remove 0] = some s ∧
    s.items.map (fun x => (x.1, x.2.id, x.2.value)) = [(1, "b", .fin 5)] ∧ s.next = 2 := by
  exact ⟨_, rfl, by decide, rfl⟩

example : Careful .line [.add { current1 with id := "a" }, .setValue 0 (.fin 5), .setValid 0 false, .setValue 0 .nan] Box.empty := by
  refine ⟨trivial, ?_, ?_, ?_, trivial⟩
  · intro m _ _; nofun
  · intro m _ h; cases h
  · intro m h hv
    have : m.valid = false := by
      have e := Option.some.inj (h.symm.trans (show _ = some _ from rfl))
      exact (congrArg Meas.valid e).trans rfl
    rw [this] at hv
    cases hv

example : (MOp.removeProperty 0 "n").Writes ⟨"a", .other, [("n", "v"), ("o", "w")], none, .nan, .nan, false⟩ ⟨"a", .other, [("o", "w")], none, .nan, .nan, false⟩ :=
  ⟨rfl, rfl, fun k h => by simp [AMap.get?_cons, Ne.symm h]⟩

example : MAdder.Complete .line current1 :=
  ⟨⟨.current, rfl, .inr (.inl rfl), nofun, fun _ _ => nofun⟩, fun _ => nofun⟩

example : (Box.find (α := Meas) (·.id) "b" ⟨[(0, ⟨"a", .other, [], none, .nan, .nan, false⟩), (1, ⟨"b", .other, [], none, .nan, .nan, false⟩)], 2⟩).map (·.1) = some 1 := by decide

end Verif.Measure
