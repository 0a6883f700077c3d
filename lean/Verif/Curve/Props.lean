import Verif.Curve.Model

/-! Property C37 (reactive capability curve interpolation). -/

namespace Verif.Curve

open Verif

/-! ### What the adder builds -/

/-- Points in strictly increasing order of active power, no NaN. -/
def Sorted : List Pt → Prop
  | [] => True
  | x :: xs => x.p.isNan = false ∧ (∀ y ∈ xs, Dbl.lt x.p y.p = true) ∧ Sorted xs

theorem lt_total {a b : Dbl} (ha : a.isNan = false) (hb : b.isNan = false) : Dbl.lt a b = true ∨ a = b ∨ Dbl.lt b a = true := by
  cases a <;> cases b <;> simp_all [Dbl.lt, Dbl.isNan]
  grind

theorem mem_insertPt {x y : Pt} : ∀ {pts : List Pt}, y ∈ insertPt x pts ↔ y = x ∨ y ∈ pts := by
  intro pts
  induction pts with
  | nil => simp [insertPt]
  | cons z zs ih =>
    simp only [insertPt]
    split
    · simp only [List.mem_cons, ih]; grind
    · simp

theorem perm_insertPt (x : Pt) : ∀ pts : List Pt, (insertPt x pts).Perm (x :: pts) := by
  intro pts
  induction pts with
  | nil => exact .refl _
  | cons z zs ih =>
    simp only [insertPt]
    split
    · exact (List.Perm.cons z ih).trans (List.Perm.swap x z zs)
    · exact .refl _

theorem sorted_not_nan : ∀ {pts : List Pt}, Sorted pts → ∀ y ∈ pts, y.p.isNan = false := by
  intro pts
  induction pts with
  | nil => intro _ y hy; cases hy
  | cons z zs ih =>
    intro h y hy
    rcases List.mem_cons.1 hy with rfl | hy
    · exact h.1
    · exact ih h.2.2 y hy

theorem not_found {p : Dbl} {pts : List Pt} : found p pts = false ↔ ∀ y ∈ pts, Dbl.lt y.p p = true ∨ Dbl.lt p y.p = true := by
  simp only [found, List.any_eq_false, Bool.and_eq_true, Bool.not_eq_true', not_and]
  constructor
  · intro h y hy
    have := h y hy
    cases h1 : Dbl.lt y.p p
    · cases h2 : Dbl.lt p y.p
      · exact absurd h2 (this h1)
      · exact .inr rfl
    · exact .inl rfl
  · intro h y hy h1 h2
    rcases h y hy with h | h <;> simp_all

theorem sorted_insertPt {x : Pt} (hx : x.p.isNan = false) : ∀ {pts : List Pt}, Sorted pts → found x.p pts = false → Sorted (insertPt x pts) := by
  intro pts
  induction pts with
  | nil => intro _ _; exact ⟨hx, (fun y hy => by cases hy), trivial⟩
  | cons z zs ih =>
    intro h hf
    rw [not_found] at hf
    simp only [insertPt]
    split
    · rename_i hlt
      refine ⟨h.1, ?_, ih h.2.2 (not_found.2 fun y hy => hf y (List.mem_cons_of_mem _ hy))⟩
      intro y hy
      rcases mem_insertPt.1 hy with rfl | hy
      · exact hlt
      · exact h.2.1 y hy
    · rename_i hlt
      have hxz : Dbl.lt x.p z.p = true := by
        rcases hf z List.mem_cons_self with h' | h'
        · exact absurd h' hlt
        · exact h'
      refine ⟨hx, ?_, h⟩
      intro y hy
      rcases List.mem_cons.1 hy with rfl | hy
      · exact hxz
      · exact Dbl.lt_trans hxz (h.2.1 y hy)

theorem addPoints_spec : ∀ (args pts c : List Pt), Sorted pts → (∀ y ∈ pts, y.minQ.isNan = false ∧ y.maxQ.isNan = false) →
    addPoints pts args = .ok c →
    Sorted c ∧ c.Perm (args ++ pts) ∧ ∀ y ∈ c, y.minQ.isNan = false ∧ y.maxQ.isNan = false := by
  intro args
  induction args with
  | nil => intro pts c hs hn h; cases h; exact ⟨hs, .refl _, hn⟩
  | cons x xs ih =>
    intro pts c hs hn h
    simp only [addPoints] at h
    rcases Out.bind_eq_ok.1 h with ⟨pts', h1, h2⟩
    simp only [addPoint] at h1
    split at h1
    · cases h1
    · rename_i hnan
      split at h1
      · cases h1
      · rename_i hf
        cases h1
        simp only [Bool.or_eq_true, not_or, Bool.not_eq_true] at hnan
        have hn' : ∀ y ∈ insertPt x pts, y.minQ.isNan = false ∧ y.maxQ.isNan = false := by
          intro y hy
          rcases mem_insertPt.1 hy with rfl | hy
          · exact ⟨hnan.1.2, hnan.2⟩
          · exact hn y hy
        rcases ih _ _ (sorted_insertPt hnan.1.1 hs (by simpa using hf)) hn' h2 with ⟨a, b, d⟩
        refine ⟨a, b.trans ?_, d⟩
        exact (List.Perm.append_left xs (perm_insertPt x pts)).trans List.perm_middle

/-- The curve built has exactly the given points, in strictly increasing order of active power, at least two, all values set. -/
theorem build_spec {args c : List Pt} (h : build args = .ok c) :
    c.Perm args ∧ Sorted c ∧ 2 ≤ c.length ∧ ∀ x ∈ c, x.minQ.isNan = false ∧ x.maxQ.isNan = false := by
  simp only [build] at h
  rcases Out.bind_eq_ok.1 h with ⟨pts, h1, h2⟩
  split at h2
  · cases h2
  · cases h2
    have := addPoints_spec args [] c trivial (by intro y hy; cases hy) h1
    refine ⟨by simpa using this.2.1, this.1, by omega, this.2.2⟩

/-- A curve is accepted exactly when there are two points or more, at distinct active powers, without unset value. -/
theorem build_accepts_iff (args : List Pt) :
    (∃ c, build args = .ok c) ↔
      2 ≤ args.length ∧ (∀ x ∈ args, x.p.isNan = false ∧ x.minQ.isNan = false ∧ x.maxQ.isNan = false) ∧
        args.Pairwise (fun x y => x.p ≠ y.p) := by
  have key : ∀ (args pts : List Pt), (∀ y ∈ pts, y.p.isNan = false) →
      ((∃ c, addPoints pts args = .ok c) ↔
        (∀ x ∈ args, x.p.isNan = false ∧ x.minQ.isNan = false ∧ x.maxQ.isNan = false) ∧
        args.Pairwise (fun x y => x.p ≠ y.p) ∧ ∀ x ∈ args, ∀ y ∈ pts, x.p ≠ y.p) := by
    intro args
    induction args with
    | nil => intro pts _; simp [addPoints]
    | cons x xs ih =>
      intro pts hp
      simp only [addPoints, addPoint]
      by_cases hn : (x.p.isNan || x.minQ.isNan || x.maxQ.isNan) = true
      · rw [if_pos hn]
        simp only [Out.bind_thrown]
        refine ⟨fun ⟨_, h⟩ => (by cases h), fun ⟨h, _, _⟩ => ?_⟩
        have := h x List.mem_cons_self
        simp [this] at hn
      · rw [if_neg hn]
        simp only [Bool.or_eq_true, not_or, Bool.not_eq_true] at hn
        cases hf : found x.p pts with
        | true =>
          rw [if_pos rfl]
          simp only [Out.bind_thrown]
          refine ⟨fun ⟨_, h⟩ => (by cases h), fun ⟨_, _, h⟩ => ?_⟩
          exfalso
          have : found x.p pts = false := by
            rw [not_found]
            intro y hy
            rcases lt_total (hp y hy) hn.1.1 with h' | h' | h'
            · exact .inl h'
            · exact absurd h'.symm (h x List.mem_cons_self y hy)
            · exact .inr h'
          rw [this] at hf; cases hf
        | false =>
          simp only [Bool.false_eq_true, if_false, Out.bind_ok]
          rw [ih _ (by intro y hy; rcases mem_insertPt.1 hy with rfl | hy; exact hn.1.1; exact hp y hy)]
          rw [not_found] at hf
          simp only [List.mem_cons, forall_eq_or_imp, List.pairwise_cons, mem_insertPt]
          constructor
          · rintro ⟨a, b, c⟩
            refine ⟨⟨⟨hn.1.1, hn.1.2, hn.2⟩, a⟩, ⟨fun y hy => (c y hy).1.symm, b⟩, ?_, fun y hy z hz => (c y hy).2 z hz⟩
            intro y hy e
            rcases hf y hy with h | h <;> rw [e, Dbl.lt_irrefl] at h <;> cases h
          · rintro ⟨⟨_, a⟩, ⟨b, c⟩, d, e⟩
            exact ⟨a, c, fun y hy => ⟨(b y hy).symm, fun z hz => e y hy z hz⟩⟩
  constructor
  · rintro ⟨c, h⟩
    have hs := build_spec h
    simp only [build] at h
    rcases Out.bind_eq_ok.1 h with ⟨pts, h1, _⟩
    have := (key args [] (by intro y hy; cases hy)).1 ⟨_, h1⟩
    exact ⟨by rw [← hs.1.length_eq]; exact hs.2.2.1, this.1, this.2.1⟩
  · rintro ⟨hl, hn, hp⟩
    rcases (key args [] (by intro y hy; cases hy)).2 ⟨hn, hp, by intro _ _ _ hy; cases hy⟩ with ⟨c, hc⟩
    have := addPoints_spec args [] c trivial (by intro y hy; cases hy) hc
    have hlen := this.2.1.length_eq
    simp at hlen
    exact ⟨c, by simp only [build, hc, Out.bind_ok]; rw [if_neg (by omega)]⟩

example : (build [⟨10, 2, 3⟩, ⟨0, 1, 5⟩, ⟨20, 0, 9⟩]) = .ok [⟨0, 1, 5⟩, ⟨10, 2, 3⟩, ⟨20, 0, 9⟩] := by decide

/-! ### Reading the curve -/

/-- Description of the search: skips the points below `p`. -/
theorem lookup_skip {q : Pt → Dbl} {p : Dbl} : ∀ (pre : List Pt) (rest : List Pt) (prev : Option Pt),
    (∀ x ∈ pre, Dbl.lt x.p p = true) → lookup q p prev (pre ++ rest) = lookup q p (pre.getLast?.or prev) rest := by
  intro pre
  induction pre with
  | nil => intro rest prev _; rfl
  | cons x xs ih =>
    intro rest prev h
    simp only [List.cons_append, lookup, h x List.mem_cons_self, if_true]
    rw [ih rest (some x) (fun y hy => h y (List.mem_cons_of_mem _ hy))]
    cases xs with
    | nil => rfl
    | cons y ys =>
      have : ∃ z, (y :: ys).getLast? = some z := ⟨_, List.getLast?_eq_some_getLast (by simp)⟩
      rcases this with ⟨z, hz⟩
      rw [hz, List.getLast?_cons_cons, hz]; rfl

theorem isEqual_refl (a : Dbl) : isEqual a a = true := by
  simp [isEqual, Dbl.lt_irrefl]

theorem isEqual_of_lt {a b : Dbl} (h : Dbl.lt a b = true) : isEqual b a = false := by
  have := Dbl.not_nan_of_lt h
  simp [isEqual, this.1, this.2, h]

theorem isEqual_nan {a : Dbl} (h : a.isNan = false) : isEqual a .nan = false := by
  have : Dbl.isNan .nan = true := rfl
  simp only [isEqual, h, this, Bool.false_xor, if_true]

theorem sorted_append {pre rest : List Pt} (h : Sorted (pre ++ rest)) :
    Sorted rest ∧ ∀ x ∈ pre, ∀ y ∈ rest, Dbl.lt x.p y.p = true := by
  induction pre with
  | nil => exact ⟨h, by intro x hx; cases hx⟩
  | cons z zs ih =>
    have := ih h.2.2
    refine ⟨this.1, ?_⟩
    intro x hx y hy
    rcases List.mem_cons.1 hx with rfl | hx
    · exact h.2.1 y (List.mem_append_right _ hy)
    · exact this.2 x hx y hy

theorem lookup_at_point {q : Pt → Dbl} {c : List Pt} (hs : Sorted c) {x : Pt} (hx : x ∈ c) : lookup q x.p none c = .ok (q x) := by
  rcases List.append_of_mem hx with ⟨pre, post, rfl⟩
  rw [lookup_skip pre (x :: post) none (fun y hy => (sorted_append hs).2 y hy x List.mem_cons_self)]
  simp [lookup, Dbl.lt_irrefl, isEqual_refl]

theorem lookup_below {q : Pt → Dbl} {x : Pt} {c : List Pt} {p : Dbl} (h : Dbl.lt p x.p = true) : lookup q p none (x :: c) = .ok (q x) := by
  have h1 : Dbl.lt x.p p = false := by
    cases hl : Dbl.lt x.p p with
    | false => rfl
    | true => have := Dbl.lt_trans h hl; rw [Dbl.lt_irrefl] at this; cases this
  simp [lookup, h1, isEqual_of_lt h]

theorem lookup_above {q : Pt → Dbl} {c : List Pt} {p : Dbl} (h : ∀ x ∈ c, Dbl.lt x.p p = true) {x : Pt} (hx : c.getLast? = some x) :
    lookup q p none c = .ok (q x) := by
  have := lookup_skip (q := q) c [] none h
  rw [List.append_nil] at this
  rw [this, hx]; rfl

theorem lookup_between {q : Pt → Dbl} {pre post : List Pt} {a b : Pt} {p : Dbl} (hs : Sorted (pre ++ a :: b :: post))
    (ha : Dbl.lt a.p p = true) (hb : Dbl.lt p b.p = true) :
    lookup q p none (pre ++ a :: b :: post) = interpolate (q a) (q b) a.p b.p p := by
  have e : pre ++ a :: b :: post = (pre ++ [a]) ++ (b :: post) := by simp
  rw [e, lookup_skip (pre ++ [a]) (b :: post) none]
  · have h1 : Dbl.lt b.p p = false := by
      cases hl : Dbl.lt b.p p with
      | false => rfl
      | true => have := Dbl.lt_trans hb hl; rw [Dbl.lt_irrefl] at this; cases this
    simp [lookup, h1, isEqual_of_lt hb]
  · intro y hy
    rcases List.mem_append.1 hy with hy | hy
    · exact Dbl.lt_trans ((sorted_append hs).2 y hy a List.mem_cons_self) ha
    · rw [List.mem_singleton.1 hy]; exact ha

/-- Where an active power lies with respect to a sorted curve. -/
theorem position {c : List Pt} (hs : Sorted c) {p : Dbl} (hp : p.isNan = false) :
    (∃ x ∈ c, x.p = p) ∨ (∀ x ∈ c, Dbl.lt p x.p = true) ∨ (∀ x ∈ c, Dbl.lt x.p p = true) ∨
      ∃ pre a b post, c = pre ++ a :: b :: post ∧ Dbl.lt a.p p = true ∧ Dbl.lt p b.p = true := by
  induction c with
  | nil => exact .inr (.inl (by intro x hx; cases hx))
  | cons x xs ih =>
    rcases lt_total hs.1 hp with h | h | h
    · rcases ih hs.2.2 with ⟨y, hy, e⟩ | h' | h' | ⟨pre, a, b, post, e, h1, h2⟩
      · exact .inl ⟨y, List.mem_cons_of_mem _ hy, e⟩
      · cases xs with
        | nil => exact .inr (.inr (.inl (by intro y hy; rw [List.mem_singleton.1 hy]; exact h)))
        | cons b post => exact .inr (.inr (.inr ⟨[], x, b, post, rfl, h, h' b List.mem_cons_self⟩))
      · exact .inr (.inr (.inl (by
          intro y hy
          rcases List.mem_cons.1 hy with rfl | hy
          · exact h
          · exact h' y hy)))
      · exact .inr (.inr (.inr ⟨x :: pre, a, b, post, by rw [e]; rfl, h1, h2⟩))
    · exact .inl ⟨x, List.mem_cons_self, h⟩
    · refine .inr (.inl ?_)
      intro y hy
      rcases List.mem_cons.1 hy with rfl | hy
      · exact h
      · exact Dbl.lt_trans h (hs.2.1 y hy)

/-- **C37**, at the points: the bounds are the ones of the point. -/
theorem at_points {args c : List Pt} (h : build args = .ok c) {x : Pt} (hx : x ∈ args) :
    getMaxQ c x.p = .ok x.maxQ ∧ getMinQ c x.p = .ok x.minQ := by
  have hb := build_spec h
  have hx : x ∈ c := hb.1.mem_iff.2 hx
  exact ⟨lookup_at_point hb.2.1 hx, lookup_at_point hb.2.1 hx⟩

/-- **C37**, below the range: the bounds are those of the point of least active power. -/
theorem below_range {args c : List Pt} (h : build args = .ok c) {p : Dbl} {x : Pt} (hx : x ∈ args)
    (hmin : ∀ y ∈ args, Dbl.le x.p y.p = true) (hp : Dbl.lt p x.p = true) :
    getMaxQ c p = .ok x.maxQ ∧ getMinQ c p = .ok x.minQ := by
  have hb := build_spec h
  have hxc : x ∈ c := hb.1.mem_iff.2 hx
  cases c with
  | nil => cases hxc
  | cons z zs =>
    have : x = z := by
      rcases List.mem_cons.1 hxc with rfl | hz
      · rfl
      · have h1 := hb.2.1.2.1 x hz
        have h2 := hmin z (hb.1.mem_iff.1 List.mem_cons_self)
        rw [Dbl.not_le_of_lt h1] at h2; cases h2
    subst this
    exact ⟨lookup_below hp, lookup_below hp⟩

/-- **C37**, above the range: the bounds are those of the point of largest active power. -/
theorem above_range {args c : List Pt} (h : build args = .ok c) {p : Dbl} {x : Pt} (hx : x ∈ args)
    (hmax : ∀ y ∈ args, Dbl.le y.p x.p = true) (hp : Dbl.lt x.p p = true) :
    getMaxQ c p = .ok x.maxQ ∧ getMinQ c p = .ok x.minQ := by
  have hb := build_spec h
  have hxc : x ∈ c := hb.1.mem_iff.2 hx
  have hall : ∀ y ∈ c, Dbl.lt y.p p = true := fun y hy => Dbl.lt_of_le_of_lt (hmax y (hb.1.mem_iff.1 hy)) hp
  have hlast : c.getLast? = some x := by
    rcases List.append_of_mem hxc with ⟨pre, post, rfl⟩
    cases post with
    | nil => simp
    | cons y ys =>
      have hs := (sorted_append hb.2.1).1
      have h1 := hs.2.1 y List.mem_cons_self
      have h2 := hmax y (hb.1.mem_iff.1 (by simp))
      rw [Dbl.not_le_of_lt h1] at h2; cases h2
  exact ⟨lookup_above hall hlast, lookup_above hall hlast⟩

/-- `a` and `b` are neighbouring points of the curve around `p`. -/
def Neighbours (args : List Pt) (a b : Pt) (p : Dbl) : Prop :=
  a ∈ args ∧ b ∈ args ∧ Dbl.lt a.p p = true ∧ Dbl.lt p b.p = true ∧ ∀ y ∈ args, Dbl.le y.p a.p = true ∨ Dbl.le b.p y.p = true

theorem neighbours_consecutive {c : List Pt} (hs : Sorted c) {a b : Pt} {p : Dbl} (h : Neighbours c a b p) :
    ∃ pre post, c = pre ++ a :: b :: post := by
  rcases h with ⟨ha, hb, h1, h2, h3⟩
  have hab := Dbl.lt_trans h1 h2
  rcases List.append_of_mem ha with ⟨pre, post, rfl⟩
  have hsp := sorted_append hs
  cases post with
  | nil =>
    rcases List.mem_append.1 hb with hb | hb
    · have := Dbl.lt_trans hab (hsp.2 b hb a List.mem_cons_self)
      rw [Dbl.lt_irrefl] at this; cases this
    · rw [List.mem_singleton.1 hb, Dbl.lt_irrefl] at hab; cases hab
  | cons z zs =>
    have hz := hsp.1.2.1 z List.mem_cons_self
    have : b = z := by
      rcases List.mem_append.1 hb with hb | hb
      · have := Dbl.lt_trans hab (hsp.2 b hb a List.mem_cons_self)
        rw [Dbl.lt_irrefl] at this; cases this
      · rcases List.mem_cons.1 hb with e | hb
        · rw [e, Dbl.lt_irrefl] at hab; cases hab
        · rcases List.mem_cons.1 hb with e | hb
          · exact e
          · have hzb := hsp.1.2.2.2.1 b hb
            rcases h3 z (by simp) with h | h
            · rw [Dbl.not_le_of_lt hz] at h; cases h
            · rw [Dbl.not_le_of_lt hzb] at h; cases h
    subst this
    exact ⟨pre, zs, rfl⟩

/-- A point without infinite value. -/
def Pt.Finite (x : Pt) : Prop := (∃ q, x.p = .fin q) ∧ (∃ q, x.minQ = .fin q) ∧ ∃ q, x.maxQ = .fin q

theorem interpolate_fin {q1 q2 p1 p2 p : Rat} (h : p1 ≠ p2) :
    interpolate (.fin q1) (.fin q2) (.fin p1) (.fin p2) (.fin p) = .ok (.fin (q1 + (q2 - q1) / (p2 - p1) * (p - p1))) := by
  have : p2 + -p1 ≠ 0 := by grind
  simp only [interpolate, Dbl.sub, Dbl.neg, Dbl.add, Dbl.div, this, if_false, Dbl.mul, Rat.sub_eq_add_neg]

/-- The value between two points is on the segment that joins them. -/
theorem segment {q1 q2 p1 p2 p : Rat} (h1 : p1 < p) (h2 : p < p2) :
    let q := q1 + (q2 - q1) / (p2 - p1) * (p - p1)
    (q - q1) * (p2 - p1) = (q2 - q1) * (p - p1) ∧ (q1 ≤ q ∨ q2 ≤ q) ∧ (q ≤ q1 ∨ q ≤ q2) := by
  have hd : p2 - p1 ≠ 0 := by grind
  have hk : (q2 - q1) / (p2 - p1) * (p2 - p1) = q2 - q1 := Rat.div_mul_cancel hd
  revert hk
  generalize (q2 - q1) / (p2 - p1) = k
  intro hk
  refine ⟨by grind, ?_⟩
  have u : 0 ≤ p - p1 := by grind
  have v : 0 ≤ p2 - p := by grind
  rcases Rat.le_total (a := 0) (b := k) with h | h
  · have a := Rat.mul_nonneg h u
    have b := Rat.mul_nonneg h v
    exact ⟨.inl (by grind), .inr (by grind)⟩
  · have h : 0 ≤ -k := by grind
    have a := Rat.mul_nonneg h u
    have b := Rat.mul_nonneg h v
    exact ⟨.inr (by grind), .inl (by grind)⟩

/-- Two segments that do not cross at their ends do not cross in between. -/
theorem segments_ordered {n1 n2 x1 x2 p1 p2 p : Rat} (h1 : p1 < p) (h2 : p < p2) (ha : n1 ≤ x1) (hb : n2 ≤ x2) :
    n1 + (n2 - n1) / (p2 - p1) * (p - p1) ≤ x1 + (x2 - x1) / (p2 - p1) * (p - p1) := by
  have hd : p2 - p1 ≠ 0 := by grind
  have hk : (n2 - n1) / (p2 - p1) * (p2 - p1) = n2 - n1 := Rat.div_mul_cancel hd
  have hl : (x2 - x1) / (p2 - p1) * (p2 - p1) = x2 - x1 := Rat.div_mul_cancel hd
  revert hk hl
  generalize (n2 - n1) / (p2 - p1) = k
  generalize (x2 - x1) / (p2 - p1) = l
  intro hk hl
  have hd' : 0 < p2 - p1 := by grind
  have u : 0 ≤ p - p1 := by grind
  have v : 0 ≤ p2 - p := by grind
  have a := Rat.mul_nonneg (by grind : 0 ≤ x1 - n1) v
  have b := Rat.mul_nonneg (by grind : 0 ≤ x2 - n2) u
  have key : ((x1 + l * (p - p1)) - (n1 + k * (p - p1))) * (p2 - p1) = (x1 - n1) * (p2 - p) + (x2 - n2) * (p - p1) := by grind
  rcases Rat.le_total (a := n1 + k * (p - p1)) (b := x1 + l * (p - p1)) with h | h
  · exact h
  · have c := Rat.mul_nonneg (by grind : 0 ≤ (n1 + k * (p - p1)) - (x1 + l * (p - p1))) (Rat.le_of_lt hd')
    have e : ((n1 + k * (p - p1)) - (x1 + l * (p - p1))) * (p2 - p1) = 0 := by grind
    rcases Rat.mul_eq_zero.1 e with e | e <;> grind

/-- What the property asks of a bound read at `p` between points with values `qa` at `pa` and `qb` at `pb`: on the segment joining them,
    hence between the two values. -/
def OnSegment (pa pb p qa qb q : Rat) : Prop :=
  (q - qa) * (pb - pa) = (qb - qa) * (p - pa) ∧ (qa ≤ q ∨ qb ≤ q) ∧ (q ≤ qa ∨ q ≤ qb)

/-- **C37**, inside the range, partial: between two neighbouring points without infinite value the bounds are on the segments that
    join the points.  Missing: neighbours with an infinite value (`infinite_point_nan`). -/
theorem inside_range_partial {args c : List Pt} (h : build args = .ok c) {a b : Pt} {pa pb na nb xa xb p : Rat}
    (hn : Neighbours args a b (.fin p)) (ha : a = ⟨.fin pa, .fin na, .fin xa⟩) (hb : b = ⟨.fin pb, .fin nb, .fin xb⟩) :
    ∃ n x, getMinQ c (.fin p) = .ok (.fin n) ∧ getMaxQ c (.fin p) = .ok (.fin x) ∧
      OnSegment pa pb p na nb n ∧ OnSegment pa pb p xa xb x := by
  have hbs := build_spec h
  have hnc : Neighbours c a b (.fin p) :=
    ⟨hbs.1.mem_iff.2 hn.1, hbs.1.mem_iff.2 hn.2.1, hn.2.2.1, hn.2.2.2.1, fun y hy => hn.2.2.2.2 y (hbs.1.mem_iff.1 hy)⟩
  rcases neighbours_consecutive hbs.2.1 hnc with ⟨pre, post, rfl⟩
  have h1 : pa < p := by have := hn.2.2.1; rw [ha] at this; simpa [Dbl.lt] using this
  have h2 : p < pb := by have := hn.2.2.2.1; rw [hb] at this; simpa [Dbl.lt] using this
  have hne : pa ≠ pb := by grind
  refine ⟨na + (nb - na) / (pb - pa) * (p - pa), xa + (xb - xa) / (pb - pa) * (p - pa), ?_, ?_, segment h1 h2, segment h1 h2⟩
  · rw [getMinQ, lookup_between hbs.2.1 hn.2.2.1 hn.2.2.2.1, ha, hb]
    exact interpolate_fin hne
  · rw [getMaxQ, lookup_between hbs.2.1 hn.2.2.1 hn.2.2.2.1, ha, hb]
    exact interpolate_fin hne

example : Neighbours [⟨10, 2, 3⟩, ⟨0, 1, 5⟩, ⟨20, 0, 9⟩] ⟨0, 1, 5⟩ ⟨10, 2, 3⟩ 4 := by
  refine ⟨by decide, by decide, by decide, by decide, by decide⟩

/-- Reading a curve never fails, at any active power, and is a number or NaN only with infinite values: without them the bounds are finite
    (`p` NaN reads the first point). -/
theorem reading_total {args c : List Pt} (h : build args = .ok c) (hfin : ∀ x ∈ args, x.Finite) (p : Dbl) :
    (∃ n, getMinQ c p = .ok (.fin n)) ∧ ∃ x, getMaxQ c p = .ok (.fin x) := by
  have hbs := build_spec h
  have hc : ∀ x ∈ c, x.Finite := fun x hx => hfin x (hbs.1.mem_iff.1 hx)
  cases hp : p.isNan with
  | true =>
    cases c with
    | nil => exact absurd hbs.2.2.1 (by simp)
    | cons z zs =>
      have hz := hc z List.mem_cons_self
      have e : p = .nan := by cases p <;> simp_all [Dbl.isNan]
      subst e
      have hlt : Dbl.lt z.p .nan = false := by cases z.p <;> rfl
      have heq : isEqual z.p .nan = false := by
        have := hbs.2.1.1
        exact isEqual_nan this
      rcases hz with ⟨_, ⟨n, hn⟩, ⟨x, hx⟩⟩
      refine ⟨⟨n, ?_⟩, ⟨x, ?_⟩⟩ <;> simp [getMinQ, getMaxQ, lookup, hlt, heq, hn, hx]
  | false =>
    rcases position hbs.2.1 hp with ⟨x, hx, rfl⟩ | h' | h' | ⟨pre, a, b, post, rfl, h1, h2⟩
    · rcases hc x hx with ⟨_, ⟨n, hn⟩, ⟨y, hy⟩⟩
      exact ⟨⟨n, by rw [← hn]; exact lookup_at_point hbs.2.1 hx⟩, ⟨y, by rw [← hy]; exact lookup_at_point hbs.2.1 hx⟩⟩
    · cases c with
      | nil => exact absurd hbs.2.2.1 (by simp)
      | cons z zs =>
        rcases hc z List.mem_cons_self with ⟨_, ⟨n, hn⟩, ⟨y, hy⟩⟩
        have hl := h' z List.mem_cons_self
        exact ⟨⟨n, by rw [← hn]; exact lookup_below hl⟩, ⟨y, by rw [← hy]; exact lookup_below hl⟩⟩
    · cases hl : c.getLast? with
      | none => rw [List.getLast?_eq_none_iff] at hl; subst hl; exact absurd hbs.2.2.1 (by simp)
      | some z =>
        rcases hc z (List.mem_of_getLast? hl) with ⟨_, ⟨n, hn⟩, ⟨y, hy⟩⟩
        exact ⟨⟨n, by rw [← hn]; exact lookup_above h' hl⟩, ⟨y, by rw [← hy]; exact lookup_above h' hl⟩⟩
    · have ha := hc a (by simp)
      have hb := hc b (by simp)
      rcases ha with ⟨⟨pa, ha⟩, ⟨na, hna⟩, ⟨xa, hxa⟩⟩
      rcases hb with ⟨⟨pb, hb⟩, ⟨nb, hnb⟩, ⟨xb, hxb⟩⟩
      have hpp : ∃ q, p = .fin q := by
        rw [ha] at h1; rw [hb] at h2
        cases p <;> simp_all [Dbl.lt]
      rcases hpp with ⟨q, rfl⟩
      have hne : pa ≠ pb := by
        rw [ha] at h1; rw [hb] at h2
        simp only [Dbl.lt, decide_eq_true_eq] at h1 h2
        grind
      have e1 := lookup_between (q := Pt.minQ) hbs.2.1 h1 h2
      have e2 := lookup_between (q := Pt.maxQ) hbs.2.1 h1 h2
      rw [ha, hb, hna, hnb, interpolate_fin hne] at e1
      rw [ha, hb, hxa, hxb, interpolate_fin hne] at e2
      exact ⟨⟨_, e1⟩, ⟨_, e2⟩⟩

/-- **C37**, bounds never inverted, partial: when no point is inverted nor infinite, the bounds read at any active power are not inverted.
    Missing: infinite values. -/
theorem never_inverted_partial {args c : List Pt} (h : build args = .ok c) (hfin : ∀ x ∈ args, x.Finite)
    (hord : ∀ x ∈ args, Dbl.le x.minQ x.maxQ = true) (p : Dbl) :
    ∃ n x, getMinQ c p = .ok n ∧ getMaxQ c p = .ok x ∧ Dbl.le n x = true := by
  have hbs := build_spec h
  have hc : ∀ x ∈ c, x.Finite := fun x hx => hfin x (hbs.1.mem_iff.1 hx)
  have ho : ∀ x ∈ c, Dbl.le x.minQ x.maxQ = true := fun x hx => hord x (hbs.1.mem_iff.1 hx)
  cases hp : p.isNan with
  | true =>
    cases c with
    | nil => exact absurd hbs.2.2.1 (by simp)
    | cons z zs =>
      have e : p = .nan := by cases p <;> simp_all [Dbl.isNan]
      subst e
      have hlt : Dbl.lt z.p .nan = false := by cases z.p <;> rfl
      have heq : isEqual z.p .nan = false := by
        have := hbs.2.1.1
        exact isEqual_nan this
      exact ⟨_, _, by simp only [getMinQ, lookup, hlt, heq]; rfl, by simp only [getMaxQ, lookup, hlt, heq]; rfl, ho z List.mem_cons_self⟩
  | false =>
    rcases position hbs.2.1 hp with ⟨x, hx, rfl⟩ | h' | h' | ⟨pre, a, b, post, rfl, h1, h2⟩
    · exact ⟨_, _, lookup_at_point hbs.2.1 hx, lookup_at_point hbs.2.1 hx, ho x hx⟩
    · cases c with
      | nil => exact absurd hbs.2.2.1 (by simp)
      | cons z zs =>
        have hl := h' z List.mem_cons_self
        exact ⟨_, _, lookup_below hl, lookup_below hl, ho z List.mem_cons_self⟩
    · cases hl : c.getLast? with
      | none => rw [List.getLast?_eq_none_iff] at hl; subst hl; exact absurd hbs.2.2.1 (by simp)
      | some z => exact ⟨_, _, lookup_above h' hl, lookup_above h' hl, ho z (List.mem_of_getLast? hl)⟩
    · have oa := ho a (by simp)
      have ob := ho b (by simp)
      rcases hc a (by simp) with ⟨⟨pa, ha⟩, ⟨na, hna⟩, ⟨xa, hxa⟩⟩
      rcases hc b (by simp) with ⟨⟨pb, hb⟩, ⟨nb, hnb⟩, ⟨xb, hxb⟩⟩
      have e1 := lookup_between (q := Pt.minQ) hbs.2.1 h1 h2
      have e2 := lookup_between (q := Pt.maxQ) hbs.2.1 h1 h2
      rw [ha] at h1 e1 e2; rw [hb] at h2 e1 e2
      have hpp : ∃ q, p = .fin q := by
        cases p <;> simp_all [Dbl.lt]
      rcases hpp with ⟨q, rfl⟩
      simp only [Dbl.lt, decide_eq_true_eq] at h1 h2
      have hne : pa ≠ pb := by grind
      rw [hna, hxa] at oa
      rw [hnb, hxb] at ob
      simp only [Dbl.le, decide_eq_true_eq] at oa ob
      rw [hna, hnb, interpolate_fin hne] at e1
      rw [hxa, hxb, interpolate_fin hne] at e2
      refine ⟨_, _, e1, e2, ?_⟩
      simp only [Dbl.le, decide_eq_true_eq]
      exact segments_ordered h1 h2 oa ob

example : (∀ x ∈ [(⟨10, 2, 3⟩ : Pt), ⟨0, 1, 5⟩, ⟨20, 0, 9⟩], Dbl.le x.minQ x.maxQ = true) := by decide
example : (⟨10, 2, 3⟩ : Pt).Finite := ⟨⟨10, rfl⟩, ⟨2, rfl⟩, ⟨3, rfl⟩⟩

/-- The adder accepts infinite bounds, between which the curve reads NaN. -/
theorem infinite_point_nan :
    ∃ c, build [⟨0, .negInf, .posInf⟩, ⟨10, .negInf, .posInf⟩] = .ok c ∧ getMaxQ c 5 = .ok .nan ∧ getMinQ c 5 = .ok .nan :=
  ⟨_, rfl, by decide +kernel, by decide +kernel⟩

/-- The adder accepts a point with inverted bounds (the check is commented out, ReactiveCapabilityCurveAdder.cpp l.74-77). -/
theorem inverted_point_accepted : ∃ c, build [⟨0, 5, 1⟩, ⟨10, 0, 1⟩] = .ok c ∧ getMinQ c 0 = .ok 5 ∧ getMaxQ c 0 = .ok 1 :=
  ⟨_, rfl, by decide, by decide⟩

/-- The range of active power is the one of the points. -/
theorem p_range {args c : List Pt} (h : build args = .ok c) :
    ∃ lo hi, getMinP c = .ok lo ∧ getMaxP c = .ok hi ∧ (∃ x ∈ args, x.p = lo) ∧ (∃ x ∈ args, x.p = hi) ∧
      ∀ x ∈ args, Dbl.le lo x.p = true ∧ Dbl.le x.p hi = true := by
  have hbs := build_spec h
  have hmem : ∀ x, x ∈ args ↔ x ∈ c := fun x => (hbs.1.mem_iff).symm
  cases hl : c.getLast? with
  | none => rw [List.getLast?_eq_none_iff] at hl; subst hl; exact absurd hbs.2.2.1 (by simp)
  | some z =>
    cases c with
    | nil => cases hl
    | cons y ys =>
      refine ⟨y.p, z.p, rfl, by simp only [getMaxP, hl], ⟨y, (hmem y).2 List.mem_cons_self, rfl⟩, ⟨z, (hmem z).2 (List.mem_of_getLast? hl), rfl⟩, ?_⟩
      intro x hx
      rw [hmem] at hx
      constructor
      · rcases List.mem_cons.1 hx with rfl | hx
        · exact Dbl.le_refl hbs.2.1.1
        · exact Dbl.le_of_lt (hbs.2.1.2.1 x hx)
      · rcases List.append_of_mem hx with ⟨pre, post, e⟩
        rw [e] at hl
        have hs := hbs.2.1
        rw [e] at hs
        have hs := (sorted_append hs).1
        rw [List.getLast?_append] at hl
        have hz : z ∈ x :: post := by
          apply List.mem_of_getLast?
          have : ∃ w, (x :: post).getLast? = some w := ⟨_, List.getLast?_eq_some_getLast (by simp)⟩
          rcases this with ⟨w, hw⟩
          rw [hw] at hl ⊢
          exact hl
        rcases List.mem_cons.1 hz with rfl | hz
        · exact Dbl.le_refl hs.1
        · exact Dbl.le_of_lt (hs.2.1 z hz)

/-- Min/max reactive limits are accepted exactly when set and not inverted. -/
theorem minMax_ok_iff (a b : Dbl) (x : Dbl × Dbl) : buildMinMax a b = .ok x ↔ x = (a, b) ∧ Dbl.le a b = true := by
  simp only [buildMinMax]
  constructor
  · intro h
    split at h
    · cases h
    · rename_i hn
      simp only [Bool.or_eq_true, not_or, Bool.not_eq_true] at hn
      split at h
      · cases h
      · rename_i hl
        cases h
        exact ⟨rfl, Dbl.le_of_not_lt hn.2 hn.1 (by simpa using hl)⟩
  · rintro ⟨rfl, h⟩
    have hn := Dbl.not_nan_of_le h
    have hl : Dbl.lt b a = false := by
      cases hl : Dbl.lt b a with
      | false => rfl
      | true => have := Dbl.not_le_of_lt hl; rw [h] at this; cases this
    simp [hn.1, hn.2, hl]

end Verif.Curve
