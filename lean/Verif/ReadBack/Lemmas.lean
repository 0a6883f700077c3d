import Verif.ReadBack.Spec
import Verif.XmlNet.NetProps

/-!
The conditions under which the document of an object is read back (`LoadOk`, …, `NetOk`) are: valid, fits, and its numbers are kept.  Class by class, for C95.
-/

namespace Verif.ReadBack

open Verif Verif.Xml Verif.XmlNet

section
variable {K : XCodec}

theorem kept_nil : Kept K [] := by intro d h; cases h

theorem kept_cons {d : Dbl} {l : List Dbl} : Kept K (d :: l) ↔ K.Keeps d ∧ Kept K l := by simp [Kept]

theorem kept_append {l m : List Dbl} : Kept K (l ++ m) ↔ Kept K l ∧ Kept K m := by
  simp only [Kept, List.mem_append]
  exact ⟨fun h => ⟨fun d hd => h d (.inl hd), fun d hd => h d (.inr hd)⟩, fun h d hd => hd.elim (h.1 d) (h.2 d)⟩

theorem kept_flatMap {α : Type} {l : List α} {f : α → List Dbl} : Kept K (l.flatMap f) ↔ ∀ x ∈ l, Kept K (f x) := by
  simp only [Kept, List.mem_flatMap]
  exact ⟨fun h x hx d hd => h d ⟨x, hx, hd⟩, fun h d hd => by obtain ⟨x, hx, hd⟩ := hd; exact h x hx d hd⟩

theorem kept_option {α : Type} {o : Option α} {f : α → List Dbl} : Kept K (o.toList.flatMap f) ↔ ∀ x, o = some x → Kept K (f x) := by
  rw [kept_flatMap]; simp

theorem num_iff {d : Dbl} : Num K d ↔ IsSet d ∧ K.Keeps d := Iff.rfl

theorem keeps_exact {d : Dbl} (h : K.Keeps d) (hs : IsSet d) : K.toCodec.Exact d := h hs

theorem exact_keeps {d : Dbl} (h : K.toCodec.Exact d) : K.Keeps d := fun _ => h

theorem forall_and_mem {α : Type} {l : List α} {P Q : α → Prop} : (∀ x ∈ l, P x ∧ Q x) ↔ (∀ x ∈ l, P x) ∧ ∀ x ∈ l, Q x :=
  ⟨fun h => ⟨fun x hx => (h x hx).1, fun x hx => (h x hx).2⟩, fun h x hx => ⟨h.1 x hx, h.2 x hx⟩⟩

/-! ### What objects share -/

theorem ident_iff {x : Ident} : IdentOk .none x ↔ IdentValid x ∧ IdentFits x := by
  constructor
  · intro h
    exact ⟨⟨fun a ha => (h.aliases a ha).2, h.nodup, h.types, h.props⟩, fun a ha => (h.aliases a ha).1.2⟩
  · rintro ⟨h, f⟩
    exact ⟨none_head _, fun a ha => ⟨⟨none_inverts _, f a ha⟩, h.ids a ha⟩, h.nodup, h.types, h.props⟩

theorem place_iff {p : Adders.Place} : PlaceOk .none p ↔ PlaceValid p ∧ PlaceFits p := by
  cases p with
  | node n => simp [PlaceOk, PlaceValid, PlaceFits]
  | bus b c => simp [PlaceOk, PlaceValid, PlaceFits, none_inverts]

theorem branchPlace_iff {p : Adders.Place} : BranchPlaceOk .none p ↔ PlaceValid p ∧ BranchFits p := by
  cases p with
  | node n => simp [BranchPlaceOk, PlaceValid, BranchFits]
  | bus b c => simp [BranchPlaceOk, PlaceValid, BranchFits, none_inverts]

theorem term_iff {t : Term} : TermOk K .none t ↔ PlaceValid t.place ∧ PlaceFits t.place ∧ Kept K (termNumbers t) := by
  simp only [termNumbers, kept_cons]
  constructor
  · intro h; exact ⟨(place_iff.1 h.place).1, (place_iff.1 h.place).2, h.p, h.q, kept_nil⟩
  · rintro ⟨a, b, c, d, _⟩; exact ⟨place_iff.2 ⟨a, b⟩, c, d⟩

theorem side_iff {x : Side} : BranchSideOk K .none x ↔ PlaceValid x.term.place ∧ BranchFits x.term.place ∧ Kept K (termNumbers x.term) := by
  simp only [termNumbers, kept_cons]
  constructor
  · intro h; exact ⟨(branchPlace_iff.1 h.place).1, (branchPlace_iff.1 h.place).2, h.p, h.q, kept_nil⟩
  · rintro ⟨a, b, c, d, _⟩; exact ⟨none_inverts _, branchPlace_iff.2 ⟨a, b⟩, c, d⟩

theorem legSide_iff {x : Side} : LegSideOk K .none x ↔ PlaceValid x.term.place ∧ PlaceFits x.term.place ∧ Kept K (termNumbers x.term) :=
  ⟨fun h => term_iff.1 h.term, fun h => ⟨none_inverts _, term_iff.2 h⟩⟩

theorem ref_iff {o : Option Ref} : RefOk .none o ↔ RefFits o :=
  ⟨fun h r hr => (h r hr).1, fun h r hr => ⟨h r hr, none_inverts _⟩⟩

theorem addPoints_sorted : ∀ (xs pre : List Curve.Pt), Curve.Sorted (pre ++ xs) → (∀ x ∈ xs, IsSet x.minQ ∧ IsSet x.maxQ) → Curve.addPoints pre xs = .ok (pre ++ xs) := by
  intro xs
  induction xs with
  | nil => intro pre _ _; rw [List.append_nil]; rfl
  | cons x xs ih =>
    intro pre hs hn
    have hs' : Curve.Sorted (pre ++ [x] ++ xs) := by simpa using hs
    have hpre : ∀ y ∈ pre, Dbl.lt y.p x.p = true := fun y hy => (Curve.sorted_append hs).2 y hy x (List.mem_cons_self ..)
    have hp : IsSet x.p := Curve.sorted_not_nan hs x (by simp)
    obtain ⟨b, c⟩ := hn x (List.mem_cons_self ..)
    have hf : Curve.found x.p pre = false := by
      rw [Curve.not_found]
      exact fun y hy => .inl (hpre y hy)
    have hadd : Curve.addPoint x pre = .ok (pre ++ [x]) := by
      have hp' : x.p.isNan = false := hp
      have b' : x.minQ.isNan = false := b
      have c' : x.maxQ.isNan = false := c
      simp [Curve.addPoint, hp', b', c', hf, insertPt_last hpre]
    rw [Curve.addPoints, hadd, Out.bind_ok, ih (pre ++ [x]) hs' fun u hu => hn u (List.mem_cons_of_mem _ hu)]
    simp

theorem reactive_iff {r : Reactive} : ReactiveOk K r ↔ ReactiveValid r ∧ Kept K (reactiveNumbers r) := by
  cases r with
  | minMax a b =>
    simp only [ReactiveOk, ReactiveValid, reactiveNumbers, kept_cons, Curve.minMax_ok_iff, true_and]
    constructor
    · rintro ⟨h, ea, eb⟩
      obtain ⟨na, nb⟩ := Dbl.not_nan_of_le h
      refine ⟨⟨na, nb, ?_⟩, exact_keeps ea, exact_keeps eb, kept_nil⟩
      cases hl : Dbl.lt b a with
      | false => rfl
      | true => rw [Dbl.not_le_of_lt hl] at h; cases h
    · rintro ⟨⟨na, nb, hl⟩, ka, kb, _⟩
      exact ⟨Dbl.le_of_not_lt nb na hl, ka na, kb nb⟩
  | curve pts =>
    simp only [ReactiveOk, ReactiveValid, reactiveNumbers, kept_flatMap, kept_cons]
    constructor
    · rintro ⟨args, hb, he⟩
      obtain ⟨h1, h2, h3, h4⟩ := Curve.build_spec hb
      exact ⟨⟨h2, h3, h4⟩, fun x hx => ⟨exact_keeps (he x (h1.mem_iff.1 hx)).1, exact_keeps (he x (h1.mem_iff.1 hx)).2.1, exact_keeps (he x (h1.mem_iff.1 hx)).2.2, kept_nil⟩⟩
    · rintro ⟨⟨h2, h3, h4⟩, hk⟩
      refine ⟨pts, ?_, fun x hx => ⟨(hk x hx).1 (Curve.sorted_not_nan h2 x hx), (hk x hx).2.1 (h4 x hx).1, (hk x hx).2.2.1 (h4 x hx).2⟩⟩
      rw [Curve.build, addPoints_sorted pts [] h2 h4, Out.bind_ok, if_neg (by simp only [List.nil_append]; omega), List.nil_append]

theorem limits_iff {o : Option Limits.LL} :
    LimitsOk K o ↔ (∀ l, o = some l → LimitsValid l) ∧ (∀ l, o = some l → LimitsFit l) ∧ Kept K (o.toList.flatMap limitsNumbers) := by
  rw [kept_option]
  constructor
  · intro h
    refine ⟨fun l hl => ?_, fun l hl => ?_, fun l hl => ?_⟩ <;> obtain ⟨w, e, s⟩ := h l hl
    · exact ⟨w.permanent, w.ordered, w.names, fun t ht => ⟨(w.temps t ht).1, (w.temps t ht).2.1⟩⟩
    · exact ⟨s, fun t ht => (w.temps t ht).2.2⟩
    · intro d hd
      rcases List.mem_cons.1 hd with rfl | hd
      · exact e.1
      · obtain ⟨t, ht, rfl⟩ := List.mem_map.1 hd
        exact exact_keeps (e.2 t ht)
  · rintro ⟨hv, hf, hk⟩ l hl
    have v := hv l hl
    have f := hf l hl
    have k := hk l hl
    refine ⟨⟨v.permanent, v.desc, v.names, fun t ht => ⟨(v.temps t ht).1, (v.temps t ht).2, f.durations t ht⟩⟩, ⟨k _ (List.mem_cons_self ..), fun t ht => ?_⟩, f.some⟩
    exact k _ (List.mem_cons_of_mem _ (List.mem_map.2 ⟨t, ht, rfl⟩)) (Dbl.not_nan_of_lt (v.temps t ht).1).2

theorem lims_iff {l : Lims} : LimsOk K l ↔ LimsValid l ∧ LimsFit l ∧ Kept K (limsNumbers l) := by
  simp only [limsNumbers, kept_append]
  constructor
  · intro h
    obtain ⟨a1, a2, a3⟩ := limits_iff.1 h.active
    obtain ⟨b1, b2, b3⟩ := limits_iff.1 h.apparent
    obtain ⟨c1, c2, c3⟩ := limits_iff.1 h.current
    exact ⟨⟨a1, b1, c1⟩, ⟨a2, b2, c2⟩, ⟨⟨a3, b3⟩, c3⟩⟩
  · rintro ⟨⟨a1, b1, c1⟩, f, ⟨⟨a3, b3⟩, c3⟩⟩
    exact ⟨limits_iff.2 ⟨a1, f.active, a3⟩, limits_iff.2 ⟨b1, f.apparent, b3⟩, limits_iff.2 ⟨c1, f.current, c3⟩⟩

theorem rated_iff {s : Dbl} : (s.isNan = true ∨ Dbl.lt 0 s = true) ↔ RatedValid s := by
  unfold RatedValid IsSet
  cases s.isNan <;> simp

theorem voltage_iff {v : Dbl} : VoltageOk v ↔ (IsSet v → Dbl.le 0 v = true) := by
  unfold VoltageOk IsSet
  cases v.isNan <;> simp

theorem range_iff {a b : Dbl} : (a.isNan = false ∧ b.isNan = false ∧ Dbl.lt b a = false) ↔ Dbl.le a b = true := by
  constructor
  · rintro ⟨h1, h2, h3⟩; exact Dbl.le_of_not_lt h2 h1 h3
  · intro h
    refine ⟨(Dbl.not_nan_of_le h).1, (Dbl.not_nan_of_le h).2, ?_⟩
    cases hl : Dbl.lt b a with
    | false => rfl
    | true => rw [Dbl.not_le_of_lt hl] at h; cases h

end

end Verif.ReadBack
