import Verif.NetComponents.Model

/-! Property C54: connected and synchronous components of a network. -/

namespace Verif.NetComponents

open Verif

/-! ### Specification -/

/-- Two buses are the ends of a line or of a transformer in service. -/
inductive AcLink (s : Snap) : String → String → Prop
  | line {a b} : (some a, some b) ∈ s.lines → AcLink s a b
  | trafo {a b} : (some a, some b) ∈ s.trafos → AcLink s a b
  | leg12 {a b o} : (some a, some b, o) ∈ s.three → AcLink s a b
  | leg13 {a b o} : (some a, o, some b) ∈ s.three → AcLink s a b
  | leg23 {a b o} : (o, some a, some b) ∈ s.three → AcLink s a b

/-- The same, or of an HVDC line. -/
inductive AnyLink (s : Snap) : String → String → Prop
  | ac {a b} : AcLink s a b → AnyLink s a b
  | dc {a b} : (some a, some b) ∈ s.hvdc → AnyLink s a b

/-- Linked by a chain of links, in either direction. -/
inductive Joined (R : String → String → Prop) (a : String) : String → Prop
  | refl : Joined R a a
  | fwd {b c} : Joined R a b → R b c → Joined R a c
  | bwd {b c} : Joined R a b → R c b → Joined R a c

/-- The snapshot is one of a network: buses have distinct ids and every end in service is at a bus of the view. -/
structure Snap.WF (s : Snap) : Prop where
  nodup : s.buses.Nodup
  ends : ∀ a b, AnyLink s a b → a ∈ s.buses ∧ b ∈ s.buses

/-- What a caller must be told of the components for the links `R`: a number and a size for each bus, the same number for
    two buses exactly when they are joined, the exact size, and number 0 for a component of the largest size. -/
structure Right (s : Snap) (R : String → String → Prop) (comp : String → Option (Nat × Nat)) : Prop where
  total : ∀ b ∈ s.buses, ∃ k z, comp b = some (k, z)
  same : ∀ b ∈ s.buses, ∀ c ∈ s.buses, ((comp b).map Prod.fst = (comp c).map Prod.fst ↔ Joined R b c)
  size : ∀ b ∈ s.buses, ∀ k z, comp b = some (k, z) →
    z = (s.buses.filter (fun c => decide ((comp c).map Prod.fst = some k))).length
  main : ∀ b ∈ s.buses, ∃ m ∈ s.buses, ∃ z k z', comp m = some (0, z) ∧ comp b = some (k, z') ∧ z' ≤ z

/-! ### The adjacency list -/

theorem numberLoop_spec : ∀ (xs : List String) (k : Nat) (m : AMap String Nat), xs.Nodup →
    (∀ (i : Nat) x, xs[i]? = some x → (numberLoop xs k m).get? x = some (k + i)) ∧
    (∀ x, x ∉ xs → (numberLoop xs k m).get? x = m.get? x) := by
  intro xs
  induction xs with
  | nil => intro k m _; exact ⟨fun i x h => (by cases h), fun _ _ => rfl⟩
  | cons y ys ih =>
    intro k m hn
    obtain ⟨h1, h2⟩ := List.nodup_cons.mp hn
    obtain ⟨i1, i2⟩ := ih (k + 1) (m.set y k) h2
    constructor
    · intro i x hx
      cases i with
      | zero =>
        simp at hx; subst hx
        rw [numberLoop, i2 _ h1, AMap.get?_set, if_pos rfl]
        rfl
      | succ i =>
        rw [numberLoop, i1 i x (by simpa using hx)]
        congr 1; omega
    · intro x hx
      rw [List.mem_cons, not_or] at hx
      rw [numberLoop, i2 x hx.2, AMap.get?_set, if_neg (Ne.symm hx.1)]

/-- The numbers given to the buses are their positions. -/
theorem number_iff {xs : List String} (hn : xs.Nodup) {x : String} {i : Nat} :
    (numberLoop xs 0 []).get? x = some i ↔ xs[i]? = some x := by
  obtain ⟨h1, h2⟩ := numberLoop_spec xs 0 [] hn
  constructor
  · intro h
    by_cases hx : x ∈ xs
    · obtain ⟨j, hj⟩ := List.mem_iff_getElem?.mp hx
      have := h1 j x hj
      rw [h] at this
      cases this
      rw [Nat.zero_add]; exact hj
    · rw [h2 x hx] at h; cases h
  · intro h
    have := h1 i x h
    rwa [Nat.zero_add] at this

theorem next_push {adj adj' : Components.Adj} {i j : Nat} (h : push adj i j = .ok adj') :
    adj'.length = adj.length ∧
    ∀ v w, Components.Next adj' v w ↔ Components.Next adj v w ∨ (v = i ∧ w = j) := by
  unfold push at h
  cases hi : adj[i]? with
  | none => rw [hi] at h; cases h
  | some l =>
    rw [hi] at h
    cases h
    have hlt : i < adj.length := (List.getElem?_eq_some_iff.mp hi).1
    refine ⟨List.length_set, ?_⟩
    intro v w
    unfold Components.Next
    rw [List.getElem?_set]
    by_cases e : i = v
    · subst e
      simp only [if_true, hlt, hi, Option.some.injEq]
      constructor
      · rintro ⟨ws, rfl, hw⟩
        rcases List.mem_append.mp hw with hw | hw
        · exact Or.inl ⟨l, rfl, hw⟩
        · exact Or.inr ⟨trivial, by simpa using hw⟩
      · rintro (⟨ws, rfl, hw⟩ | ⟨_, rfl⟩)
        · exact ⟨_, rfl, List.mem_append_left _ hw⟩
        · exact ⟨_, rfl, by simp⟩
    · rw [if_neg e]
      constructor
      · exact Or.inl
      · rintro (h | ⟨rfl, _⟩)
        · exact h
        · exact absurd rfl e

/-- The link between `x` and `y` seen on positions. -/
def At (xs : List String) (R : String → String → Prop) (v w : Nat) : Prop :=
  ∃ x y, R x y ∧ ((xs[v]? = some x ∧ xs[w]? = some y) ∨ (xs[v]? = some y ∧ xs[w]? = some x))

/-- Outcome of a function that adds the links `R` to an adjacency list. -/
def Adds (xs : List String) (R : String → String → Prop) (f : Components.Adj → Out Components.Adj) : Prop :=
  ∀ adj : Components.Adj, adj.length = xs.length → ∃ adj', f adj = .ok adj' ∧ adj'.length = xs.length ∧
    ∀ v w, Components.Next adj' v w ↔ Components.Next adj v w ∨ At xs R v w

theorem adds_bind {xs : List String} {R S T : String → String → Prop} {f g : Components.Adj → Out Components.Adj}
    (hf : Adds xs R f) (hg : Adds xs S g) (hT : ∀ a b, T a b ↔ R a b ∨ S a b) : Adds xs T (fun a => (f a).bind g) := by
  intro adj hadj
  obtain ⟨a1, e1, l1, n1⟩ := hf adj hadj
  obtain ⟨a2, e2, l2, n2⟩ := hg a1 l1
  refine ⟨a2, by simp only [e1, Out.bind]; exact e2, l2, ?_⟩
  intro v w
  rw [n2, n1, or_assoc]
  have : At xs T v w ↔ At xs R v w ∨ At xs S v w := by
    unfold At
    constructor
    · rintro ⟨x, y, h, hp⟩
      rcases (hT x y).mp h with h | h
      · exact Or.inl ⟨x, y, h, hp⟩
      · exact Or.inr ⟨x, y, h, hp⟩
    · rintro (⟨x, y, h, hp⟩ | ⟨x, y, h, hp⟩)
      · exact ⟨x, y, (hT x y).mpr (Or.inl h), hp⟩
      · exact ⟨x, y, (hT x y).mpr (Or.inr h), hp⟩
  rw [this]

theorem adds_addTo {xs : List String} (hn : xs.Nodup) {b1 b2 : Option String}
    (hin : ∀ x y, b1 = some x → b2 = some y → x ∈ xs ∧ y ∈ xs) :
    Adds xs (fun a b => b1 = some a ∧ b2 = some b) (addTo (numberLoop xs 0 []) b1 b2) := by
  intro adj hadj
  cases b1 with
  | none => exact ⟨adj, rfl, hadj, fun v w => ⟨Or.inl, fun h => h.elim id (by rintro ⟨x, y, ⟨h, _⟩, _⟩; cases h)⟩⟩
  | some x =>
    cases b2 with
    | none => exact ⟨adj, rfl, hadj, fun v w => ⟨Or.inl, fun h => h.elim id (by rintro ⟨x, y, ⟨_, h⟩, _⟩; cases h)⟩⟩
    | some y =>
      obtain ⟨hx, hy⟩ := hin x y rfl rfl
      obtain ⟨i, hi⟩ := List.mem_iff_getElem?.mp hx
      obtain ⟨j, hj⟩ := List.mem_iff_getElem?.mp hy
      have hil : i < adj.length := by rw [hadj]; exact (List.getElem?_eq_some_iff.mp hi).1
      have hjl : j < adj.length := by rw [hadj]; exact (List.getElem?_eq_some_iff.mp hj).1
      have e1 : ∃ a1, push adj i j = .ok a1 := ⟨_, by unfold push; rw [List.getElem?_eq_getElem hil]⟩
      obtain ⟨a1, e1⟩ := e1
      obtain ⟨l1, n1⟩ := next_push e1
      have e2 : ∃ a2, push a1 j i = .ok a2 := ⟨_, by unfold push; rw [List.getElem?_eq_getElem (by rw [l1]; exact hjl)]⟩
      obtain ⟨a2, e2⟩ := e2
      obtain ⟨l2, n2⟩ := next_push e2
      refine ⟨a2, ?_, by rw [l2, l1, hadj], ?_⟩
      · simp only [addTo, (number_iff hn).mpr hi, (number_iff hn).mpr hj, e1, Out.bind]
        exact e2
      · intro v w
        rw [n2, n1, or_assoc]
        have inj : ∀ (v i : Nat) x, xs[i]? = some x → (xs[v]? = some x ↔ v = i) := by
          intro v i x hi
          constructor
          · intro h
            have h1 := (number_iff hn).mpr h
            have h2 := (number_iff hn).mpr hi
            rw [h1] at h2; cases h2; rfl
          · rintro rfl; exact hi
        have : At xs (fun a b => some x = some a ∧ some y = some b) v w ↔ (v = i ∧ w = j) ∨ (v = j ∧ w = i) := by
          unfold At
          constructor
          · rintro ⟨x', y', ⟨h1, h2⟩, hp⟩
            cases h1; cases h2
            rw [inj v i x hi, inj w j y hj, inj v j y hj, inj w i x hi] at hp
            exact hp
          · intro hp
            rw [← inj v i x hi, ← inj w j y hj, ← inj v j y hj, ← inj w i x hi] at hp
            exact ⟨x, y, ⟨rfl, rfl⟩, hp⟩
        rw [this]

theorem adds_congr {xs : List String} {R S : String → String → Prop} {f : Components.Adj → Out Components.Adj}
    (hf : Adds xs R f) (h : ∀ a b, S a b ↔ R a b) : Adds xs S f := by
  have : S = R := by funext a b; exact propext (h a b)
  rw [this]; exact hf

theorem adds_addAll {xs : List String} (hn : xs.Nodup) : ∀ (ps : List (Option String × Option String)),
    (∀ x y, (some x, some y) ∈ ps → x ∈ xs ∧ y ∈ xs) →
    Adds xs (fun a b => (some a, some b) ∈ ps) (addAll (numberLoop xs 0 []) ps) := by
  intro ps
  induction ps with
  | nil =>
    intro _ adj hadj
    exact ⟨adj, rfl, hadj, fun v w => ⟨Or.inl, fun h => h.elim id (by rintro ⟨x, y, h, _⟩; cases h)⟩⟩
  | cons p ps ih =>
    intro hin
    refine adds_bind (adds_addTo hn (b1 := p.1) (b2 := p.2) ?_) (ih (fun x y h => hin x y (List.mem_cons_of_mem _ h))) ?_
    · intro x y h1 h2
      refine hin x y ?_
      rw [← h1, ← h2]; exact List.mem_cons_self
    · intro a b
      rw [List.mem_cons]
      constructor
      · rintro (h | h)
        · rw [← h]; exact Or.inl ⟨rfl, rfl⟩
        · exact Or.inr h
      · rintro (⟨h1, h2⟩ | h)
        · left; rw [← h1, ← h2]
        · exact Or.inr h

theorem adds_addThree {xs : List String} (hn : xs.Nodup) : ∀ (ps : List (Option String × Option String × Option String)),
    (∀ x y o, (some x, some y, o) ∈ ps ∨ (some x, o, some y) ∈ ps ∨ (o, some x, some y) ∈ ps → x ∈ xs ∧ y ∈ xs) →
    Adds xs (fun a b => ∃ o, (some a, some b, o) ∈ ps ∨ (some a, o, some b) ∈ ps ∨ (o, some a, some b) ∈ ps)
      (addThree (numberLoop xs 0 []) ps) := by
  intro ps
  induction ps with
  | nil =>
    intro _ adj hadj
    refine ⟨adj, rfl, hadj, fun v w => ⟨Or.inl, fun h => h.elim id ?_⟩⟩
    rintro ⟨x, y, ⟨o, h | h | h⟩, _⟩ <;> cases h
  | cons p ps ih =>
    intro hin
    obtain ⟨b1, b2, b3⟩ := p
    have mem : ∀ {q}, q = (b1, b2, b3) → q ∈ (b1, b2, b3) :: ps := by rintro q rfl; exact List.mem_cons_self
    have k12 := adds_addTo hn (b1 := b1) (b2 := b2) (by
      rintro x y rfl rfl; exact hin x y b3 (Or.inl List.mem_cons_self))
    have k13 := adds_addTo hn (b1 := b1) (b2 := b3) (by
      rintro x y rfl rfl; exact hin x y b2 (Or.inr (Or.inl List.mem_cons_self)))
    have k23 := adds_addTo hn (b1 := b2) (b2 := b3) (by
      rintro x y rfl rfl; exact hin x y b1 (Or.inr (Or.inr List.mem_cons_self)))
    have kr := ih (fun x y o h => hin x y o (h.imp (List.mem_cons_of_mem _) (fun h => h.imp (List.mem_cons_of_mem _)
      (List.mem_cons_of_mem _))))
    refine adds_congr (adds_bind k12 (adds_bind k13 (adds_bind k23 kr (fun _ _ => Iff.rfl)) (fun _ _ => Iff.rfl))
      (fun _ _ => Iff.rfl)) ?_
    intro a b
    simp only [List.mem_cons, Prod.mk.injEq]
    constructor
    · rintro ⟨o, (⟨h1, h2, _⟩ | h) | (⟨h1, _, h2⟩ | h) | (⟨_, h1, h2⟩ | h)⟩
      · exact Or.inl ⟨h1.symm, h2.symm⟩
      · exact Or.inr (Or.inr (Or.inr ⟨o, Or.inl h⟩))
      · exact Or.inr (Or.inl ⟨h1.symm, h2.symm⟩)
      · exact Or.inr (Or.inr (Or.inr ⟨o, Or.inr (Or.inl h)⟩))
      · exact Or.inr (Or.inr (Or.inl ⟨h1.symm, h2.symm⟩))
      · exact Or.inr (Or.inr (Or.inr ⟨o, Or.inr (Or.inr h)⟩))
    · rintro (⟨h1, h2⟩ | ⟨h1, h2⟩ | ⟨h1, h2⟩ | ⟨o, h⟩)
      · exact ⟨b3, Or.inl (Or.inl ⟨h1.symm, h2.symm, rfl⟩)⟩
      · exact ⟨b2, Or.inr (Or.inl (Or.inl ⟨h1.symm, rfl, h2.symm⟩))⟩
      · exact ⟨b1, Or.inr (Or.inr (Or.inl ⟨rfl, h1.symm, h2.symm⟩))⟩
      · exact ⟨o, h.imp Or.inr (fun h => h.imp Or.inr Or.inr)⟩

theorem adds_fillAc {s : Snap} (h : s.WF) : Adds s.buses (AcLink s) (fillAc s (numberLoop s.buses 0 [])) := by
  have k1 := adds_addAll h.nodup s.lines (fun x y hx => h.ends x y (.ac (.line hx)))
  have k2 := adds_addAll h.nodup s.trafos (fun x y hx => h.ends x y (.ac (.trafo hx)))
  have k3 := adds_addThree h.nodup s.three (fun x y o hx => h.ends x y (.ac (by
    rcases hx with hx | hx | hx
    · exact .leg12 hx
    · exact .leg13 hx
    · exact .leg23 hx)))
  refine adds_congr (adds_bind k1 (adds_bind k2 k3 (fun _ _ => Iff.rfl)) (fun _ _ => Iff.rfl)) ?_
  intro a b
  constructor
  · rintro (h | h | h | h | h)
    · exact Or.inl h
    · exact Or.inr (Or.inl h)
    · exact Or.inr (Or.inr ⟨_, Or.inl h⟩)
    · exact Or.inr (Or.inr ⟨_, Or.inr (Or.inl h)⟩)
    · exact Or.inr (Or.inr ⟨_, Or.inr (Or.inr h)⟩)
  · rintro (h | h | ⟨o, h | h | h⟩)
    · exact .line h
    · exact .trafo h
    · exact .leg12 h
    · exact .leg13 h
    · exact .leg23 h

theorem adds_fillAll {s : Snap} (h : s.WF) : Adds s.buses (AnyLink s) (fillAll s (numberLoop s.buses 0 [])) := by
  refine adds_bind (adds_fillAc h) (adds_addAll h.nodup s.hvdc (fun x y hx => h.ends x y (.dc hx))) ?_
  intro a b
  constructor
  · rintro (h | h)
    · exact Or.inl h
    · exact Or.inr h
  · rintro (h | h)
    · exact .ac h
    · exact .dc h

/-! ### One computation -/

theorem joined_iff {xs : List String} {R : String → String → Prop} (hin : ∀ a b, R a b → a ∈ xs ∧ b ∈ xs)
    {adj : Components.Adj} (hlen : adj.length = xs.length) (hnext : ∀ v w, Components.Next adj v w ↔ At xs R v w)
    (hn : xs.Nodup) {v w : Nat} {x y : String} (hx : xs[v]? = some x) (hy : xs[w]? = some y) :
    Components.Path adj v w ↔ Joined R x y := by
  have inj : ∀ (i j : Nat) z, xs[i]? = some z → xs[j]? = some z → i = j := by
    intro i j z hi hj
    have h1 := (number_iff hn).mpr hi
    have h2 := (number_iff hn).mpr hj
    rw [h1] at h2; cases h2; rfl
  constructor
  · intro hp
    induction hp generalizing y with
    | refl => rw [hx] at hy; cases hy; exact .refl
    | step hp hnx ih =>
      obtain ⟨a, b, hR, hor⟩ := (hnext _ _).mp hnx
      rcases hor with ⟨h1, h2⟩ | ⟨h1, h2⟩
      · rw [h2] at hy; cases hy; exact .fwd (ih h1) hR
      · rw [h2] at hy; cases hy; exact .bwd (ih h1) hR
  · intro hj
    induction hj generalizing w with
    | refl => have := inj v w _ hx hy; subst this; exact .refl
    | @fwd b c _ hR ih =>
      obtain ⟨i, hi⟩ := List.mem_iff_getElem?.mp (hin _ _ hR).1
      exact .step (ih hi) ((hnext _ _).mpr ⟨b, c, hR, Or.inl ⟨hi, hy⟩⟩)
    | @bwd b c _ hR ih =>
      obtain ⟨i, hi⟩ := List.mem_iff_getElem?.mp (hin _ _ hR).2
      exact .step (ih hi) ((hnext _ _).mpr ⟨c, b, hR, Or.inr ⟨hi, hy⟩⟩)

theorem zip_get? {xs : List String} {ns : List Nat} (hn : xs.Nodup) (hl : ns.length = xs.length) {i : Nat} {x : String}
    (hx : xs[i]? = some x) : AMap.get? (xs.zip ns) x = ns[i]? := by
  induction xs generalizing ns i with
  | nil => cases hx
  | cons y ys ih =>
    cases ns with
    | nil => simp at hl
    | cons k ks =>
      obtain ⟨h1, h2⟩ := List.nodup_cons.mp hn
      rw [List.zip_cons_cons, AMap.get?_cons]
      cases i with
      | zero => simp at hx; subst hx; simp
      | succ i =>
        simp at hx
        have : y ≠ x := by rintro rfl; exact h1 (List.mem_iff_getElem?.mpr ⟨i, hx⟩)
        rw [if_neg this]
        simp only [List.getElem?_cons_succ]
        exact ih h2 (by simpa using hl) hx

theorem count_zip (xs : List String) : ∀ (ns : List Nat) (k : Nat), xs.Nodup → ns.length = xs.length →
    (xs.filter (fun c => decide (AMap.get? (xs.zip ns) c = some k))).length = ns.count k := by
  have aux : ∀ (ys : List String) (ks : List Nat) (f : String → Option Nat) (k : Nat), ks.length = ys.length →
      (∀ (i : Nat) x, ys[i]? = some x → f x = ks[i]?) →
      (ys.filter (fun c => decide (f c = some k))).length = ks.count k := by
    intro ys
    induction ys with
    | nil => intro ks f k hl _; cases ks <;> simp_all
    | cons y ys ih =>
      intro ks f k hl hf
      cases ks with
      | nil => simp at hl
      | cons q ks =>
        have h0 := hf 0 y rfl
        simp at h0
        have := ih ks f k (by simpa using hl) (fun i x hx => by have := hf (i + 1) x (by simpa using hx); simpa using this)
        rw [List.filter_cons, List.count_cons, h0]
        by_cases e : q = k
        · subst e; simp [this]
        · simp [e, this]
  intro ns k hn hl
  exact aux xs ns _ k hl (fun i x hx => zip_get? hn hl hx)

/-- One computation is right, whatever the order chosen for components of the same size. -/
theorem compute_right {s : Snap} {R : String → String → Prop}
    {fill : Snap → AMap String Nat → Components.Adj → Out Components.Adj} (hn : s.buses.Nodup)
    (hin : ∀ a b, R a b → a ∈ s.buses ∧ b ∈ s.buses) (hfill : Adds s.buses R (fill s (numberLoop s.buses 0 [])))
    {srt : Sorter} (hs : srt.Ok) :
    ∃ c, computeCache fill srt s = .ok c ∧ Right s R (componentOf c) ∧ (s.buses ≠ [] → c.size ≠ []) := by
  obtain ⟨adj, e1, l1, n1⟩ := hfill (List.replicate s.buses.length []) (by simp)
  have hempty : ∀ v w, ¬ Components.Next (List.replicate s.buses.length []) v w := by
    rintro v w ⟨ws, h1, h2⟩
    rw [List.getElem?_replicate] at h1
    split at h1
    · cases h1; cases h2
    · cases h1
  have hnext : ∀ v w, Components.Next adj v w ↔ At s.buses R v w := by
    intro v w; rw [n1]; exact ⟨fun h => h.resolve_left (hempty v w), Or.inr⟩
  have hrange : Components.InRange adj := by
    intro v ws hv w hw
    obtain ⟨x, y, _, hor⟩ := (hnext v w).mp ⟨ws, hv, hw⟩
    rw [l1]
    rcases hor with ⟨_, h⟩ | ⟨_, h⟩ <;> exact (List.getElem?_eq_some_iff.mp h).1
  have hsym : Components.Symmetric adj := by
    intro a b hab
    obtain ⟨x, y, hR, hor⟩ := (hnext a b).mp hab
    exact (hnext b a).mpr ⟨x, y, hR, hor.symm.imp And.symm And.symm⟩
  have hcomp : Components.Compute adj (computeWith srt adj) := by
    unfold Components.Compute computeWith
    cases hse : Components.search adj with
    | ok p => exact ⟨_, hs _ _, rfl⟩
    | thrown => rfl
    | ub => rfl
  obtain ⟨res, hres, hlen, hnum, hcount, hdec⟩ := (Components.components_numbered hrange).2 _ hcomp
  obtain ⟨res', hres', hsame⟩ := Components.components_connected hrange hsym hcomp
  rw [hres] at hres'; cases hres'
  have hzero := Components.component_zero_largest hrange (hres ▸ hcomp)
  have hl : res.number.length = s.buses.length := hlen.trans l1
  have hget : ∀ (i : Nat) x, s.buses[i]? = some x → AMap.get? (s.buses.zip res.number) x = res.number[i]? :=
    fun i x hx => zip_get? hn hl hx
  have hbus : ∀ b ∈ s.buses, ∃ (i k z : Nat), s.buses[i]? = some b ∧ res.number[i]? = some k ∧ res.size[k]? = some z ∧
      componentOf ⟨s.buses.zip res.number, res.size⟩ b = some (k, z) := by
    intro b hb
    obtain ⟨i, hi⟩ := List.mem_iff_getElem?.mp hb
    have hil : i < res.number.length := by rw [hl]; exact (List.getElem?_eq_some_iff.mp hi).1
    have hk : res.number[i]? = some res.number[i] := List.getElem?_eq_getElem hil
    have hkl : res.number[i] < res.size.length := (hnum _).mpr ⟨i, hk⟩
    refine ⟨i, _, _, hi, hk, List.getElem?_eq_getElem hkl, ?_⟩
    unfold componentOf
    simp only [hget i b hi, hk, List.getElem?_eq_getElem hkl]
  have hfst : ∀ b ∈ s.buses, (componentOf ⟨s.buses.zip res.number, res.size⟩ b).map Prod.fst =
      AMap.get? (s.buses.zip res.number) b := by
    intro b hb
    obtain ⟨i, k, z, h1, h2, _, h4⟩ := hbus b hb
    rw [h4, hget i b h1, h2]; rfl
  refine ⟨⟨s.buses.zip res.number, res.size⟩, ?_, ⟨?_, ?_, ?_, ?_⟩, ?_⟩
  · simp only [computeCache, e1, Out.bind, hres, Out.map]
  · intro b hb
    obtain ⟨i, k, z, _, _, _, h⟩ := hbus b hb
    exact ⟨k, z, h⟩
  · intro b hb c hc
    obtain ⟨i, k, z, h1, h2, _, h4⟩ := hbus b hb
    obtain ⟨j, k', z', h1', h2', _, h4'⟩ := hbus c hc
    rw [← joined_iff hin l1 hnext hn h1 h1', ← hsame i j (by rw [l1]; exact (List.getElem?_eq_some_iff.mp h1).1)
      (by rw [l1]; exact (List.getElem?_eq_some_iff.mp h1').1), h4, h4', h2, h2']
    rfl
  · intro b hb k z h
    obtain ⟨i, k0, z0, h1, h2, h3, h4⟩ := hbus b hb
    rw [h4] at h; cases h
    rw [hcount _ _ h3, ← count_zip s.buses res.number k hn hl]
    congr 1
    apply List.filter_congr
    intro c hc
    rw [hfst c hc]
  · intro b hb
    obtain ⟨i, k, z, h1, h2, h3, h4⟩ := hbus b hb
    have h0 : 0 < res.size.length := Nat.lt_of_le_of_lt (Nat.zero_le k) (List.getElem?_eq_some_iff.mp h3).1
    obtain ⟨u, hu⟩ := (hnum 0).mp h0
    have hul : u < s.buses.length := by rw [← hl]; exact (List.getElem?_eq_some_iff.mp hu).1
    have hm : s.buses[u]? = some s.buses[u] := List.getElem?_eq_getElem hul
    refine ⟨s.buses[u], List.mem_iff_getElem?.mpr ⟨u, hm⟩, res.size[0], k, z, ?_, h4, ?_⟩
    · unfold componentOf
      simp only [hget u _ hm, hu, List.getElem?_eq_getElem h0]
    · exact hzero k z _ h3 (List.getElem?_eq_getElem h0)
  · intro hne h0
    cases hb : s.buses with
    | nil => exact hne hb
    | cons b bs =>
      obtain ⟨i, k, z, _, _, h3, _⟩ := hbus b (by rw [hb]; exact List.mem_cons_self)
      rw [show res.size = [] from h0] at h3
      cases h3

/-! ### Histories -/

/-- The network after a history, without the managers. -/
def netAfter : List Op → Snap → Snap
  | [], s => s
  | .topology s' :: ops, _ => netAfter ops s'
  | .hvdc l :: ops, s => netAfter ops { s with hvdc := l }
  | _ :: ops, s => netAfter ops s

/-- Every network met is well formed: the snapshots, and those with other HVDC lines. -/
def SoundFrom : List Op → Snap → Prop
  | [], s => s.WF
  | .topology s' :: ops, s => s.WF ∧ SoundFrom ops s'
  | .hvdc l :: ops, s => s.WF ∧ SoundFrom ops { s with hvdc := l }
  | _ :: ops, s => s.WF ∧ SoundFrom ops s

theorem SoundFrom.here {ops : List Op} {s : Snap} (h : SoundFrom ops s) : s.WF := by
  cases ops with
  | nil => exact h
  | cons op ops => cases op <;> exact h.1

/-- What a manager knows is right. -/
def Good (s : Snap) (R : String → String → Prop) (c : Option Cache) : Prop :=
  ∀ k, c = some k → k.size ≠ [] → Right s R (componentOf k)

theorem updated_right {s : Snap} {R : String → String → Prop}
    {fill : Snap → AMap String Nat → Components.Adj → Out Components.Adj} (hn : s.buses.Nodup)
    (hin : ∀ a b, R a b → a ∈ s.buses ∧ b ∈ s.buses) (hfill : Adds s.buses R (fill s (numberLoop s.buses 0 [])))
    {srt : Sorter} (hs : srt.Ok) {c : Option Cache} (hc : Good s R c) :
    ∃ k, updated fill srt s c = .ok k ∧ Right s R (componentOf k) := by
  obtain ⟨k0, e, h, _⟩ := compute_right hn hin hfill hs
  cases c with
  | none => exact ⟨k0, e, h⟩
  | some k =>
    unfold updated
    by_cases hk : k.size = []
    · simp only [hk, ne_eq, not_true_eq_false, if_false]
      exact ⟨k0, e, h⟩
    · simp only [ne_eq, hk, not_false_eq_true, if_true]
      exact ⟨k, rfl, hc k rfl hk⟩

/-- The synchronous components do not depend on the HVDC lines. -/
theorem acLink_hvdc {s : Snap} {l : List (Option String × Option String)} {a b : String} :
    AcLink { s with hvdc := l } a b ↔ AcLink s a b := by
  constructor <;> rintro (h | h | h | h | h)
  · exact .line h
  · exact .trafo h
  · exact .leg12 h
  · exact .leg13 h
  · exact .leg23 h
  · exact .line h
  · exact .trafo h
  · exact .leg12 h
  · exact .leg13 h
  · exact .leg23 h

/-- After any history, what the manager of synchronous components says is right. -/
theorem synchronous_right {srt : Sorter} (hs : srt.Ok) {ops : List Op} (hw : SoundFrom ops init.snap) :
    ∃ comp, (∀ b, synchronousOf srt (run srt ops init) b = .ok (comp b)) ∧
      Right (netAfter ops init.snap) (AcLink (netAfter ops init.snap)) comp := by
  suffices h : ∀ (ops : List Op) (st : St), SoundFrom ops st.snap → Good st.snap (AcLink st.snap) st.sc →
      (run srt ops st).snap = netAfter ops st.snap ∧ (netAfter ops st.snap).WF ∧
      Good (netAfter ops st.snap) (AcLink (netAfter ops st.snap)) (run srt ops st).sc by
    obtain ⟨h1, h2, h3⟩ := h ops init hw (fun k hk => by cases hk)
    obtain ⟨k, e, hr⟩ := updated_right h2.nodup (fun a b hab => h2.ends a b (.ac hab)) (adds_fillAc h2) hs h3
    refine ⟨componentOf k, ?_, hr⟩
    intro b
    unfold synchronousOf
    rw [h1, e]; rfl
  intro ops
  induction ops with
  | nil => intro st hw hg; exact ⟨rfl, hw, hg⟩
  | cons op ops ih =>
    intro st hw hg
    have hwf := hw.here
    cases op with
    | topology s => exact ih ⟨s, none, none⟩ hw.2 (fun k hk => by cases hk)
    | hvdc l =>
      refine ih { st with snap := { st.snap with hvdc := l } } hw.2 ?_
      intro k hk hne
      have hr := hg k hk hne
      have e : AcLink { st.snap with hvdc := l } = AcLink st.snap := by
        funext a b; exact propext acLink_hvdc
      show Right { st.snap with hvdc := l } (AcLink { st.snap with hvdc := l }) _
      rw [e]
      exact ⟨hr.total, hr.same, hr.size, hr.main⟩
    | askConnected =>
      simp only [run, step, netAfter]
      cases updated fillAll srt st.snap st.cc with
      | ok c => exact ih { st with cc := some c } hw.2 hg
      | thrown => exact ih st hw.2 hg
      | ub => exact ih st hw.2 hg
    | askSynchronous =>
      obtain ⟨k, e, hr⟩ := updated_right hwf.nodup (fun a b hab => hwf.ends a b (.ac hab)) (adds_fillAc hwf) hs hg
      simp only [run, step, netAfter, e]
      exact ih { st with sc := some k } hw.2 (fun k' hk _ => by cases hk; exact hr)

/-- HVDC lines are changed only when nothing is known of the connected components: no query was made since the last
    change of topology. -/
def Fresh : Bool → List Op → Prop
  | _, [] => True
  | _, .topology _ :: ops => Fresh true ops
  | f, .hvdc _ :: ops => f = true ∧ Fresh f ops
  | _, .askConnected :: ops => Fresh false ops
  | f, .askSynchronous :: ops => Fresh f ops

/-- After any history in which no HVDC line is added or removed between a query on the connected components and the next
    change of topology, what the manager of connected components says is right.  The full statement is for every
    history; see `stale_after_hvdc_added` and `stale_after_hvdc_removed`. -/
theorem connected_right_partial {srt : Sorter} (hs : srt.Ok) {ops : List Op} (hw : SoundFrom ops init.snap)
    (hf : Fresh true ops) :
    ∃ comp, (∀ b, connectedOf srt (run srt ops init) b = .ok (comp b)) ∧
      Right (netAfter ops init.snap) (AnyLink (netAfter ops init.snap)) comp := by
  suffices h : ∀ (ops : List Op) (f : Bool) (st : St), SoundFrom ops st.snap → Fresh f ops →
      (f = true → st.cc = none) → Good st.snap (AnyLink st.snap) st.cc →
      (run srt ops st).snap = netAfter ops st.snap ∧ (netAfter ops st.snap).WF ∧
      Good (netAfter ops st.snap) (AnyLink (netAfter ops st.snap)) (run srt ops st).cc by
    obtain ⟨h1, h2, h3⟩ := h ops true init hw hf (fun _ => rfl) (fun k hk => by cases hk)
    obtain ⟨k, e, hr⟩ := updated_right h2.nodup (fun a b hab => h2.ends a b hab) (adds_fillAll h2) hs h3
    refine ⟨componentOf k, ?_, hr⟩
    intro b
    unfold connectedOf
    rw [h1, e]; rfl
  intro ops
  induction ops with
  | nil => intro f st hw _ _ hg; exact ⟨rfl, hw, hg⟩
  | cons op ops ih =>
    intro f st hw hf hcc hg
    have hwf := hw.here
    cases op with
    | topology s => exact ih true ⟨s, none, none⟩ hw.2 hf (fun _ => rfl) (fun k hk => by cases hk)
    | hvdc l =>
      obtain ⟨hft, hf'⟩ := hf
      refine ih f { st with snap := { st.snap with hvdc := l } } hw.2 hf' (fun h => hcc h) ?_
      intro k hk
      rw [show st.cc = none from hcc hft] at hk
      cases hk
    | askConnected =>
      obtain ⟨k, e, hr⟩ := updated_right hwf.nodup (fun a b hab => hwf.ends a b hab) (adds_fillAll hwf) hs hg
      simp only [run, step, netAfter, e]
      exact ih false { st with cc := some k } hw.2 hf (fun h => by cases h) (fun k' hk _ => by cases hk; exact hr)
    | askSynchronous =>
      simp only [run, step, netAfter]
      cases updated fillAc srt st.snap st.sc with
      | ok c => exact ih f { st with sc := some c } hw.2 hf hcc hg
      | thrown => exact ih f st hw.2 hf hcc hg
      | ub => exact ih f st hw.2 hf hcc hg

/-- Two buses in the same synchronous component are in the same connected component, when both are right. -/
theorem synchronous_refines {s : Snap} {cs cc : String → Option (Nat × Nat)} (h1 : Right s (AcLink s) cs)
    (h2 : Right s (AnyLink s) cc) {b c : String} (hb : b ∈ s.buses) (hc : c ∈ s.buses)
    (h : (cs b).map Prod.fst = (cs c).map Prod.fst) : (cc b).map Prod.fst = (cc c).map Prod.fst := by
  refine (h2.same b hb c hc).mpr ?_
  have hj := (h1.same b hb c hc).mp h
  clear h hb hc h1 h2
  induction hj with
  | refl => exact .refl
  | fwd _ hR ih => exact .fwd ih (.ac hR)
  | bwd _ hR ih => exact .bwd ih (.ac hR)

/-! ### Non vacuity and witnesses -/

/-- A sorter: insertion by decreasing size. -/
def insertBy (size : List Nat) (i : Nat) : List Nat → List Nat
  | [] => [i]
  | j :: js => if (size[j]?).getD 0 ≤ (size[i]?).getD 0 then i :: j :: js else j :: insertBy size i js

def sortBy (size : List Nat) : List Nat → List Nat
  | [] => []
  | i :: is => insertBy size i (sortBy size is)

def sorter : Sorter := fun c size => sortBy size (List.range c)

theorem insertBy_perm (size : List Nat) (i : Nat) (l : List Nat) : (insertBy size i l).Perm (i :: l) := by
  induction l with
  | nil => exact .refl _
  | cons j js ih =>
    unfold insertBy
    split
    · exact .refl _
    · exact (ih.cons j).trans (.swap i j js)

theorem insertBy_sorted (size : List Nat) (i : Nat) (l : List Nat)
    (h : l.Pairwise (fun i j => (size[j]?).getD 0 ≤ (size[i]?).getD 0)) :
    (insertBy size i l).Pairwise (fun i j => (size[j]?).getD 0 ≤ (size[i]?).getD 0) := by
  induction l with
  | nil => simp [insertBy]
  | cons j js ih =>
    obtain ⟨h1, h2⟩ := List.pairwise_cons.mp h
    unfold insertBy
    split
    · rename_i hle
      refine List.pairwise_cons.mpr ⟨?_, h⟩
      intro k hk
      rcases List.mem_cons.mp hk with rfl | hk
      · exact hle
      · exact Nat.le_trans (h1 k hk) hle
    · rename_i hle
      refine List.pairwise_cons.mpr ⟨?_, ih h2⟩
      intro k hk
      rcases List.mem_cons.mp ((insertBy_perm size i js).mem_iff.mp hk) with rfl | hk
      · omega
      · exact h1 k hk

theorem sorter_ok : sorter.Ok := by
  intro c size
  have h : ∀ l : List Nat, (sortBy size l).Perm l ∧
      (sortBy size l).Pairwise (fun i j => (size[j]?).getD 0 ≤ (size[i]?).getD 0) := by
    intro l
    induction l with
    | nil => exact ⟨.refl _, .nil⟩
    | cons i is ih =>
      exact ⟨(insertBy_perm size i _).trans (ih.1.cons i), insertBy_sorted size i _ ih.2⟩
  exact h _

/-- Five buses: a line, a three windings transformer with one leg out of service, an HVDC line. -/
def exSnap : Snap :=
  { buses := ["A", "B", "C", "D", "E"],
    lines := [(some "B", some "C"), (some "A", none)],
    trafos := [],
    three := [(some "C", none, some "D")],
    hvdc := [(some "A", some "E")] }

theorem exSnap_wf : exSnap.WF := by
  constructor
  · decide
  · rintro a b (h | h)
    · rcases h with h | h | h | h | h <;> simp [exSnap] at h ⊢ <;> (obtain ⟨rfl, h⟩ := h; simp_all)
    · simp [exSnap] at h ⊢
      obtain ⟨rfl, rfl⟩ := h
      simp

def exOps : List Op := [.topology exSnap, .askSynchronous, .askConnected]

example : SoundFrom exOps init.snap ∧ Fresh true exOps :=
  ⟨⟨⟨by decide, by rintro a b (h | h); (rcases h with h | h | h | h | h <;> cases h); cases h⟩, exSnap_wf, exSnap_wf, exSnap_wf⟩,
    trivial⟩

/-- B, C and D form the main component, of size 3; A and E the other one. -/
example : connectedOf sorter (run sorter exOps init) "D" = .ok (some (0, 3)) ∧
    connectedOf sorter (run sorter exOps init) "B" = .ok (some (0, 3)) ∧
    connectedOf sorter (run sorter exOps init) "A" = .ok (some (1, 2)) ∧
    connectedOf sorter (run sorter exOps init) "E" = .ok (some (1, 2)) ∧
    (synchronousOf sorter (run sorter exOps init) "A").map (Option.map Prod.snd) = .ok (some 1) := by decide

/-- An HVDC line added after a query is not seen: its two ends are told to be in different components. -/
theorem stale_after_hvdc_added :
    let st := run sorter [.topology ⟨["A", "B"], [], [], [], []⟩, .askConnected, .hvdc [(some "A", some "B")]] init
    AnyLink st.snap "A" "B" ∧ connectedOf sorter st "A" = .ok (some (0, 1)) ∧
      connectedOf sorter st "B" = .ok (some (1, 1)) :=
  ⟨.dc List.mem_cons_self, by decide, by decide⟩

/-- An HVDC line removed after a query is still seen. -/
theorem stale_after_hvdc_removed :
    let st := run sorter [.topology ⟨["A", "B"], [], [], [], [(some "A", some "B")]⟩, .askConnected, .hvdc []] init
    (∀ a b, ¬ AnyLink st.snap a b) ∧ connectedOf sorter st "A" = .ok (some (0, 2)) ∧
      connectedOf sorter st "B" = .ok (some (0, 2)) :=
  ⟨(by rintro a b (h | h); (rcases h with h | h | h | h | h <;> cases h); cases h), by decide, by decide⟩

end Verif.NetComponents
