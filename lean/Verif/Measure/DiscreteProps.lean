import Verif.Measure.Props

/-! Property C77: the discrete measurements of an object. -/

namespace Verif.Measure

open Verif

/-- What a discrete measurement may be about, as the headers say: the position of a tap of a transformer with the tap changer it has, of a switch, of
anything else. -/
structure DFits (k : Kind) (t : DType) (c : Option TapChanger) : Prop where
  switch : t = .switchPosition → k = .switch
  tap : t = .tapPosition → (k = .twoWindings ∨ k = .threeWindings) ∧ c ≠ none
  two : k = .twoWindings → ∀ x, c = some x → x = .ratio ∨ x = .phase
  three : k = .threeWindings → ∀ x, c = some x → x ≠ .ratio ∧ x ≠ .phase
  others : k ≠ .twoWindings → k ≠ .threeWindings → c = none

/-- What an adder needs, besides a type and an identifier that is not used: a value, be it valid or not. -/
structure DAdder.Complete (k : Kind) (a : DAdder) : Prop where
  hasType : ∃ t, a.type = some t ∧ DFits k t a.tapChanger
  hasValue : a.value ≠ none

/-- The type of a value. -/
def DVal.vtype : DVal → VType
  | .boolean _ => .boolean
  | .int _ => .int
  | .string _ => .string

theorem checks_ok {t : DType} {c : Option TapChanger} {k : Kind} : (checkType t k = .ok () ∧ checkTapChanger c t k = .ok ()) ↔ DFits k t c := by
  constructor
  · rintro ⟨h1, h2⟩
    refine ⟨?_, ?_, ?_, ?_, ?_⟩ <;> revert h1 h2 <;> unfold checkType checkTapChanger Kind.transformer <;> rcases c with _ | c <;> cases t <;> cases k <;> (try cases c) <;> simp
  · rintro ⟨h1, h2, h3, h4, h5⟩
    revert h1 h2 h3 h4 h5
    unfold checkType checkTapChanger Kind.transformer
    rcases c with _ | c <;> cases t <;> cases k <;> (try cases c) <;> simp

theorem checkType_ne {t : DType} {k : Kind} : checkType t k ≠ .ub := by unfold checkType; repeat' split
                                                                        all_goals nofun

theorem checkTapChanger_ne {t : DType} {c : Option TapChanger} {k : Kind} : checkTapChanger c t k ≠ .ub := by
  unfold checkTapChanger
  repeat' split
  all_goals nofun

/-- The adder makes a discrete measurement exactly when it is complete. -/
theorem dmake_iff {k : Kind} {a : DAdder} {m : Disc} : a.make k = .ok m ↔
    a.Complete k ∧ a.type = some m.type ∧ a.id = m.id ∧ a.props = m.props ∧ a.tapChanger = m.tapChanger ∧ a.value = m.value ∧ a.valid = m.valid ∧ m.value.map DVal.vtype = some m.vtype := by
  obtain ⟨id, ty, c, ps, v, b⟩ := a
  obtain ⟨mid, mt, mc, mps, mvt, mv, mb⟩ := m
  rcases ty with _ | t
  · refine ⟨nofun, ?_⟩
    rintro ⟨-, h, -⟩
    cases h
  · simp only [DAdder.make]
    constructor
    · intro h
      obtain ⟨_, h1, h⟩ := Out.bind_eq_ok.1 h
      obtain ⟨_, h2, h⟩ := Out.bind_eq_ok.1 h
      obtain ⟨_, h3, h⟩ := Out.bind_eq_ok.1 h
      have hf := checks_ok.1 ⟨h1, h2⟩
      rcases v with _ | v
      · cases h
      · cases v <;> cases h <;> exact ⟨⟨⟨_, rfl, hf⟩, nofun⟩, rfl, rfl, rfl, rfl, rfl, rfl, rfl⟩
    · rintro ⟨⟨⟨t', ht, hf⟩, hv⟩, h1, h2, h3, h4, h5, h6, h7⟩
      cases ht
      cases h1
      dsimp only at h2 h3 h4 h5 h6 h7 hv hf
      subst h2 h3 h4 h5 h6
      have := checks_ok.2 hf
      rw [this.1, Out.bind_ok, this.2, Out.bind_ok]
      rcases v with _ | v
      · exact absurd rfl hv
      · cases v <;> cases h7 <;> rfl

/-- Undefined behaviour is for an adder without type. -/
theorem dmake_ub_iff {k : Kind} {a : DAdder} : a.make k = .ub ↔ a.type = none := by
  obtain ⟨id, ty, c, ps, v, b⟩ := a
  rcases ty with _ | t
  · exact ⟨fun _ => rfl, fun _ => rfl⟩
  · refine ⟨?_, nofun⟩
    simp only [DAdder.make]
    rcases h1 : checkType t k with _ | _ | _
    · rw [Out.bind_ok]
      rcases h2 : checkTapChanger c t k with _ | _ | _
      · rw [Out.bind_ok]
        rcases v with _ | v
        · cases b <;> nofun
        · cases v <;> nofun
      · nofun
      · exact absurd h2 checkTapChanger_ne
    · nofun
    · exact absurd h1 checkType_ne

/-- What holds of a discrete measurement whatever was done. -/
def Disc.Good (k : Kind) (m : Disc) : Prop := DFits k m.type m.tapChanger ∧ m.value.map DVal.vtype = some m.vtype

theorem dcall_named (k : Kind) (o : DOp) : (o.call k).Named (·.id) := by
  cases o with
  | add a => intro m h; exact (dmake_iff.1 h).2.2.1.symm
  | _ => trivial

theorem dcall_edit (k : Kind) (o : DOp) : (o.call k).KeepsId (·.id) ∧ (o.call k).Keeps (Disc.Good k) := by
  cases o with
  | add a =>
    refine ⟨trivial, fun m h => ?_⟩
    obtain ⟨⟨⟨t, ht, hf⟩, -⟩, h1, -, -, h4, -, -, h7⟩ := dmake_iff.1 h
    rw [ht] at h1
    cases h1
    refine ⟨?_, h7⟩
    rw [← h4]
    exact hf
  | remove p => exact ⟨trivial, trivial⟩
  | putProperty p n v =>
    have key : ∀ x y : Disc, (Measure.putProperty n v x.props).map (fun ps => { x with props := ps }) = .ok y → ∃ ps, y = { x with props := ps } := by
      intro x y h
      simp only [Measure.putProperty] at h
      by_cases hn : n = ""
      · rw [if_pos hn] at h; cases h
      · rw [if_neg hn] at h; cases h; exact ⟨_, rfl⟩
    exact ⟨fun x y h => by obtain ⟨ps, rfl⟩ := key x y h; rfl, fun x y hx h => by obtain ⟨ps, rfl⟩ := key x y h; exact hx⟩
  | setBoolean p b => exact ⟨fun x y h => by cases h; rfl, fun x y hx h => by cases h; exact ⟨hx.1, rfl⟩⟩
  | setInt p b => exact ⟨fun x y h => by cases h; rfl, fun x y hx h => by cases h; exact ⟨hx.1, rfl⟩⟩
  | setString p b => exact ⟨fun x y h => by cases h; rfl, fun x y hx h => by cases h; exact ⟨hx.1, rfl⟩⟩
  | _ => exact ⟨fun x y h => by cases h; rfl, fun x y hx h => by cases h; exact hx⟩

theorem dcalls (k : Kind) (os : List DOp) : ∀ c ∈ os.map (DOp.call k), c.Named (fun m : Disc => m.id) ∧ c.KeepsId (fun m : Disc => m.id) ∧ c.Keeps (Disc.Good k) := fun c hc => by
  obtain ⟨o, -, rfl⟩ := List.mem_map.1 hc
  exact ⟨dcall_named k o, dcall_edit k o⟩

/-- **The discrete measurements of an object**, after any sequence of calls: their identifiers are distinct unless empty, they are in the order of their
addition, each one is about something the object has, and each one has a value. -/
theorem discrete_good (k : Kind) (os : List DOp) (s : Box Disc) (h : runD k os = some s) :
    (∀ x ∈ s.items, ∀ y ∈ s.items, x.2.id = y.2.id → x.2.id ≠ "" → x = y) ∧ (s.items.map (·.1)).Pairwise (· < ·) ∧ ∀ x ∈ s.items, DFits k x.2.type x.2.tapChanger ∧ x.2.value ≠ none := by
  have := elements (idOf := fun m : Disc => m.id) (P := Disc.Good k) (cs := os.map (DOp.call k)) (dcalls k os) h
  refine ⟨this.1, this.2.1, fun x hx => ⟨(this.2.2.2 x hx).1, fun hn => ?_⟩⟩
  have := (this.2.2.2 x hx).2
  rw [hn] at this
  cases this

/-- **What is there is what was added and not removed.** -/
theorem discrete_register (k : Kind) (os : List DOp) (s : Box Disc) : runD k os = some s ↔ ∃ r, After (·.id) (os.map (DOp.call k)) r ∧ Holds s r :=
  register (fun c hc => (dcalls k os c hc).1) s

/-- **A value is read with its own type, and only with it**: a getter returns something exactly when the value is of its type, it then returns the value;
otherwise it throws. -/
theorem discrete_read_iff (k : Kind) (os : List DOp) (s : Box Disc) (h : runD k os = some s) (x : Nat × Disc) (hx : x ∈ s.items) :
    (∀ b, x.2.asBoolean = .ok b ↔ x.2.value = some (.boolean b)) ∧ (∀ i, x.2.asInt = .ok i ↔ x.2.value = some (.int i)) ∧ (∀ t, x.2.asString = .ok t ↔ x.2.value = some (.string t)) ∧
      x.2.asBoolean ≠ .ub ∧ x.2.asInt ≠ .ub ∧ x.2.asString ≠ .ub := by
  have hg := ((elements (idOf := fun m : Disc => m.id) (P := Disc.Good k) (cs := os.map (DOp.call k)) (dcalls k os) h).2.2.2 x hx).2
  obtain ⟨p, id, t, c, ps, vt, v, b⟩ := x
  rcases v with _ | v
  · cases hg
  · cases v <;> cases hg <;> simp [Disc.asBoolean, Disc.asInt, Disc.asString]

/-- What a call does to the discrete measurement it is for. -/
def DOp.Writes : DOp → Disc → Disc → Prop
  | .setBoolean _ b, m, m' => m' = { m with value := some (.boolean b), vtype := .boolean }
  | .setInt _ i, m, m' => m' = { m with value := some (.int i), vtype := .int }
  | .setString _ t, m, m' => m' = { m with value := some (.string t), vtype := .string }
  | .setValid _ b, m, m' => m' = { m with valid := b }
  | .putProperty _ n v, m, m' => n ≠ "" ∧ { m' with props := m.props } = m ∧ getProperty n m'.props = v ∧ ∀ k, k ≠ n → m'.props.get? k = m.props.get? k
  | .removeProperty _ n, m, m' => { m' with props := m.props } = m ∧ m'.props.get? n = none ∧ ∀ k, k ≠ n → m'.props.get? k = m.props.get? k
  | _, _, _ => False

/-- The discrete measurement that a setter is for. -/
def DOp.target : DOp → Option Nat
  | .setBoolean p _ | .setInt p _ | .setString p _ | .setValid p _ | .putProperty p _ _ | .removeProperty p _ => some p
  | _ => none

/-- **A setter** changes what it says in the discrete measurement it is for, and nothing else; only an empty property name is refused, and then nothing
changes; for a measurement that was removed it is undefined. -/
theorem discrete_written (k : Kind) (s : Box Disc) (o : DOp) (p : Nat) (ho : o.target = some p) :
    (s.at? p = none → (step (·.id) (o.call k) s).1 = .ub) ∧
    ∀ m, s.at? p = some m → ((∃ v, o = .putProperty p "" v) ∧ step (·.id) (o.call k) s = (.thrown, s)) ∨ ∃ m', o.Writes m m' ∧ step (·.id) (o.call k) s = (.ok none, s.put p m') := by
  cases o with
  | add a => cases ho
  | remove q => cases ho
  | putProperty q n v =>
    cases ho
    refine ⟨fun h => ?_, fun m h => ?_⟩
    · simp only [DOp.call, step, h]
    · by_cases hn : n = ""
      · subst hn
        refine .inl ⟨⟨v, rfl⟩, ?_⟩
        simp only [DOp.call, step, h, (property_put "" v m.props).1 rfl]
        rfl
      · obtain ⟨ps', h1, h2, h3⟩ := (property_put n v m.props).2 hn
        refine .inr ⟨{ m with props := ps' }, ⟨hn, rfl, h2, h3⟩, ?_⟩
        simp only [DOp.call, step, h, h1]
        rfl
  | removeProperty q n =>
    cases ho
    refine ⟨fun h => ?_, fun m h => .inr ⟨{ m with props := m.props.erase n }, ⟨rfl, ?_, fun j hj => ?_⟩, ?_⟩⟩
    · simp only [DOp.call, step, h]
    · show AMap.get? (AMap.erase m.props n) n = none
      simp [AMap.get?_erase]
    · show AMap.get? (AMap.erase m.props n) j = _
      simp [AMap.get?_erase, Ne.symm hj]
    · simp only [DOp.call, step, h]
  | setString q t =>
    cases ho
    refine ⟨fun h => ?_, fun m h => .inr ⟨_, rfl, ?_⟩⟩
    · simp only [DOp.call, step, h]
    · simp only [DOp.call, step, h, checkDValue, Option.isNone_some, Bool.false_and, Bool.false_eq_true, if_false]
      rfl
  | setBoolean q x | setInt q x | setValid q x =>
    cases ho
    refine ⟨fun h => ?_, fun m h => .inr ⟨_, rfl, ?_⟩⟩
    · simp only [DOp.call, step, h]
    · simp only [DOp.call, step, h]

/-- **An addition** succeeds exactly when the adder is complete and its identifier is empty or not used; an exception leaves the object as it was; with a
type, nothing is undefined. -/
theorem discrete_added_iff (k : Kind) (os : List DOp) (s : Box Disc) (h : runD k os = some s) (a : DAdder) :
    ((∃ p, (step (·.id) ((DOp.add a).call k) s).1 = .ok p) ↔ a.Complete k ∧ (a.id = "" ∨ ∀ x ∈ s.items, x.2.id ≠ a.id)) ∧
    ((step (·.id) ((DOp.add a).call k) s).1 = .ub ↔ a.type = none ∧ (a.id = "" ∨ ∀ x ∈ s.items, x.2.id ≠ a.id)) ∧
    (¬ (∃ p, (step (·.id) ((DOp.add a).call k) s).1 = .ok p) → (step (·.id) ((DOp.add a).call k) s).2 = s) ∧
    ∀ p, (step (·.id) ((DOp.add a).call k) s).1 = .ok p → ∃ m : Disc, a.type = some m.type ∧ m.id = a.id ∧ m.tapChanger = a.tapChanger ∧ m.props = a.props ∧ m.value = a.value ∧ m.valid = a.valid ∧
      (step (·.id) ((DOp.add a).call k) s).2.items = s.items ++ [(s.next, m)] ∧ (p = some s.next ↔ (a.id ≠ "" ∨ ∀ x ∈ s.items, x.2.id ≠ "")) := by
  have hc : ∀ c ∈ os.map (DOp.call k), c.Named (fun m : Disc => m.id) ∧ c.KeepsId (fun m : Disc => m.id) := fun c hm => ⟨(dcalls k os c hm).1, (dcalls k os c hm).2.1⟩
  have hfree : (a.id = "" ∨ ∀ x ∈ s.items, x.2.id ≠ a.id) ↔ ¬ (a.id ≠ "" ∧ (s.find (fun m : Disc => m.id) a.id).isSome = true) := by
    rw [Box.find, List.find?_isSome]
    constructor
    · rintro (h | h) ⟨h1, x, hx, e⟩
      · exact h1 h
      · exact h x hx (by simpa using e)
    · intro h
      by_cases he : a.id = ""
      · exact .inl he
      · exact .inr fun x hx e => h ⟨he, x, hx, by simpa using e⟩
  simp only [DOp.call]
  by_cases hf : a.id = "" ∨ ∀ x ∈ s.items, x.2.id ≠ a.id
  · have ht := hfree.1 hf
    rcases hm : a.make k with m | _ | _
    · obtain ⟨hcm, h1, h2, h3, h4, h5, h6, h7⟩ := dmake_iff.1 hm
      obtain ⟨p, hp, hiff, -⟩ := returns_new_iff (idOf := fun m : Disc => m.id) hc h (id := a.id) (x := m) h2.symm (fun hne => by
        cases hh : s.find (fun m : Disc => m.id) a.id with
        | none => rfl
        | some y => exact absurd ⟨hne, by rw [hh]; rfl⟩ ht)
      rw [hp]
      refine ⟨⟨fun _ => ⟨hcm, hf⟩, fun _ => ⟨_, rfl⟩⟩, ⟨nofun, fun hh => by rw [hh.1] at h1; cases h1⟩, fun hn => absurd ⟨_, rfl⟩ hn, fun q hq => ⟨m, h1, h2.symm, h4.symm, h3.symm, h5.symm, h6.symm, rfl, ?_⟩⟩
      cases hq
      rw [← hiff]
      exact ⟨Option.some.inj, congrArg some⟩
    · rw [step_new ht]
      refine ⟨⟨?_, ?_⟩, ⟨nofun, fun hh => ?_⟩, fun _ => rfl, ?_⟩
      · rintro ⟨p, hp⟩; cases hp
      · rintro ⟨hcm, -⟩
        obtain ⟨t, ht', -⟩ := hcm.hasType
        cases hv : a.value with
        | none => exact absurd hv hcm.hasValue
        | some v =>
          have := (dmake_iff (m := ⟨a.id, t, a.tapChanger, a.props, v.vtype, a.value, a.valid⟩)).2 ⟨hcm, ht', rfl, rfl, rfl, rfl, rfl, by rw [hv]; rfl⟩
          rw [hm] at this
          cases this
      · have := dmake_ub_iff (k := k).2 hh.1
        rw [hm] at this
        cases this
      · rintro p hp; cases hp
    · have hn := dmake_ub_iff.1 hm
      rw [step_new ht]
      refine ⟨⟨?_, ?_⟩, ⟨fun _ => ⟨hn, hf⟩, fun _ => rfl⟩, fun _ => rfl, ?_⟩
      · rintro ⟨p, hp⟩; cases hp
      · rintro ⟨hcm, -⟩
        obtain ⟨t, ht', -⟩ := hcm.hasType
        rw [hn] at ht'
        cases ht'
      · rintro p hp; cases hp
  · have ht : a.id ≠ "" ∧ (s.find (fun m : Disc => m.id) a.id).isSome = true := by
      by_cases ht : a.id ≠ "" ∧ (s.find (fun m : Disc => m.id) a.id).isSome = true
      · exact ht
      · exact absurd (hfree.2 ht) hf
    rw [step_taken ht]
    refine ⟨⟨?_, fun h => absurd h.2 hf⟩, ⟨nofun, fun h => absurd h.2 hf⟩, fun _ => rfl, ?_⟩
    · rintro ⟨p, hp⟩; cases hp
    · rintro p hp; cases hp

/-- **Looking for an identifier** that is not empty gives the discrete measurement that has it. -/
theorem discrete_found_iff (k : Kind) (os : List DOp) (s : Box Disc) (h : runD k os = some s) (id : String) (hid : id ≠ "") (x : Nat × Disc) :
    s.find (·.id) id = some x ↔ x ∈ s.items ∧ x.2.id = id :=
  found_iff (fun c hc => ⟨(dcalls k os c hc).1, (dcalls k os c hc).2.1⟩) h hid x

/-- **Listing the discrete measurements of a type** gives all of them in order, while the argument exists; afterwards it is undefined as soon as something
follows the first of them. -/
theorem discrete_listed (t : DType) (s : Box Disc) : (∃ l, s.listByType (·.type) t true = .ok l ∧ l.Sublist s.items ∧ ∀ x, x ∈ l ↔ x ∈ s.items ∧ x.2.type = t) ∧
    (s.listByType (·.type) t false = .ub ↔ ∃ a x y b, s.items = a ++ x :: y :: b ∧ (∀ z ∈ a, z.2.type ≠ t) ∧ x.2.type = t) := ⟨listed _ t s, listed_late_iff _ t s⟩

/-! ### What the code lets through -/

/-- The position of a switch, known. -/
def closed : DAdder := { DAdder.new with type := some .switchPosition, value := some (.boolean true) }

/-- **Against C77**: an adder without type reads an uninitialised member (DiscreteMeasurementAdder.hpp l.83). -/
theorem discrete_without_type : (step (·.id) ((DOp.add { DAdder.new with value := some (.int 3) }).call .twoWindings) Box.empty).1 = .ub := by decide

/-- **Against C77**: an invalid discrete measurement without value passes `checkValue`, then is refused by `getValueType`
(DiscreteMeasurementValidationUtil.cpp l.64-82). -/
theorem invalid_without_value : checkDValue none false = .ok () ∧ (step (·.id) ((DOp.add { closed with value := none, valid := false }).call .switch) Box.empty).1 = .thrown := by decide

/-- **Against C77**: the empty string is a value for `setValue` (DiscreteMeasurement.cpp l.166-171), though it is documented that a valid measurement has
one that is not empty (DiscreteMeasurement.hpp l.146-148). -/
theorem empty_string_accepted : ∃ s, runD .switch [.add closed, .setString 0 ""] = some s ∧ ∃ x ∈ s.items, x.2.valid = true ∧ x.2.asString = .ok "" := by
  exact ⟨_, rfl, _, List.mem_singleton.2 rfl, rfl, rfl⟩

/-- **Against C77**: with two discrete measurements without identifier, `add` returns the first one (DiscreteMeasurementAdder.cpp l.37). -/
theorem discrete_returns_another : ∃ s, runD .switch [.add closed] = some s ∧ (step (·.id) ((DOp.add { closed with value := some (.boolean false) }).call .switch) s).1 = .ok (some 0) ∧ s.next = 1 := by
  exact ⟨_, rfl, by decide, rfl⟩

/-- The hypotheses can be met: a tap position of a three windings transformer, set to a string then to an integer. -/
example : ∃ s, runD .threeWindings [.add { DAdder.new with id := "a", type := some .tapPosition, tapChanger := some .ratio2, value := some (.int 3) },
      .add { DAdder.new with id := "b", type := some .tapPosition, tapChanger := some .ratio, value := some (.int 3) }, .setString 0 "low", .setInt 0 4] = some s ∧
    s.items.map (fun x => (x.1, x.2.id, x.2.asInt, x.2.asString)) = [(0, "a", .ok 4, .thrown)] := by
  exact ⟨_, rfl, by decide⟩

example : DAdder.Complete .switch closed := ⟨⟨.switchPosition, rfl, fun _ => rfl, nofun, nofun, nofun, fun _ _ => rfl⟩, nofun⟩

example : DFits .threeWindings .tapPosition (some .phase1) := ⟨nofun, fun _ => ⟨.inr rfl, nofun⟩, nofun, fun _ _ h => (Option.some.inj h) ▸ ⟨nofun, nofun⟩, fun _ h => absurd rfl h⟩

end Verif.Measure
