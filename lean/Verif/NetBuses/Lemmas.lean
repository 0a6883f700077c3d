import Verif.NetBuses.Model

/-! Helper lemmas about the buses of the network. -/

namespace Verif.NetBuses

open Verif

/-! ### Addresses -/

/-- Equal addresses mean equal ids. -/
def Fn (rs : List Ref) : Prop := ∀ r ∈ rs, ∀ q ∈ rs, r.2 = q.2 → r.1 = q.1

/-- All addresses are below `a`, and they are not shared by buses with different ids. -/
def Good (rs : List Ref) (a : Nat) : Prop := (∀ r ∈ rs, r.2 < a) ∧ Fn rs

/-- From `rs` to `rs'` only new addresses were taken. -/
def Ext (rs : List Ref) (a : Nat) (rs' : List Ref) (a' : Nat) : Prop :=
  a ≤ a' ∧ ∃ news : List Ref, (∀ r ∈ rs', r ∈ rs ∨ r ∈ news) ∧ (∀ r ∈ news, a ≤ r.2 ∧ r.2 < a') ∧ Fn news

theorem good_of_ext {rs rs' : List Ref} {a a' : Nat} (h : Good rs a) (e : Ext rs a rs' a') : Good rs' a' := by
  obtain ⟨le, news, sub, rng, fn⟩ := e
  refine ⟨fun r hr => ?_, fun r hr q hq e => ?_⟩
  · cases sub r hr with
    | inl h1 => exact Nat.lt_of_lt_of_le (h.1 r h1) le
    | inr h1 => exact (rng r h1).2
  · cases sub r hr with
    | inl h1 =>
      cases sub q hq with
      | inl h2 => exact h.2 r h1 q h2 e
      | inr h2 => have := h.1 r h1; have := (rng q h2).1; omega
    | inr h1 =>
      cases sub q hq with
      | inl h2 => have := h.1 q h2; have := (rng r h1).1; omega
      | inr h2 => exact fn r h1 q h2 e

theorem ext_of_sub {rs rs' : List Ref} {a : Nat} (h : ∀ r ∈ rs', r ∈ rs) : Ext rs a rs' a :=
  ⟨Nat.le_refl a, [], fun r hr => Or.inl (h r hr), by simp, by simp [Fn]⟩

theorem ext_append {x x' y y' : List Ref} {a b c : Nat} (h1 : Ext x a x' b) (h2 : Ext y b y' c) :
    Ext (x ++ y) a (x' ++ y') c := by
  obtain ⟨le1, n1, s1, r1, f1⟩ := h1
  obtain ⟨le2, n2, s2, r2, f2⟩ := h2
  refine ⟨Nat.le_trans le1 le2, n1 ++ n2, fun r hr => ?_, fun r hr => ?_, fun r hr q hq e => ?_⟩
  · rw [List.mem_append] at hr
    cases hr with
    | inl h => cases s1 r h with
      | inl h => exact Or.inl (List.mem_append.2 (Or.inl h))
      | inr h => exact Or.inr (List.mem_append.2 (Or.inl h))
    | inr h => cases s2 r h with
      | inl h => exact Or.inl (List.mem_append.2 (Or.inr h))
      | inr h => exact Or.inr (List.mem_append.2 (Or.inr h))
  · rw [List.mem_append] at hr
    cases hr with
    | inl h => have := r1 r h; omega
    | inr h => have := r2 r h; omega
  · rw [List.mem_append] at hr hq
    cases hr with
    | inl h => cases hq with
      | inl k => exact f1 r h q k e
      | inr k => have := r1 r h; have := r2 q k; omega
    | inr h => cases hq with
      | inl k => have := r2 r h; have := r1 q k; omega
      | inr k => exact f2 r h q k e

theorem allocate_range (xs : List String) : ∀ (a : Nat), ∀ r ∈ allocate xs a, a ≤ r.2 ∧ r.2 < a + xs.length := by
  induction xs with
  | nil => intro a r h; simp [allocate] at h
  | cons x xs ih =>
    intro a r h
    simp only [allocate, List.mem_cons] at h
    cases h with
    | inl h => subst h; simp
    | inr h => have := ih (a + 1) r h; simp; omega

theorem allocate_fn (xs : List String) : ∀ (a : Nat), Fn (allocate xs a) := by
  induction xs with
  | nil => intro a r h; simp [allocate] at h
  | cons x xs ih =>
    intro a r hr q hq e
    simp only [allocate, List.mem_cons] at hr hq
    cases hr with
    | inl h => cases hq with
      | inl k => subst h; subst k; rfl
      | inr k => subst h; have := allocate_range xs (a + 1) q k; simp at e; omega
    | inr h => cases hq with
      | inl k => subst k; have := allocate_range xs (a + 1) r h; simp at e; omega
      | inr k => exact ih (a + 1) r h q k e

/-- A way to list a voltage level that keeps addresses apart and keeps what it lists alive. -/
structure Lister (f : VL → Nat → List Ref × VL × Nat) : Prop where
  ext : ∀ v a, Ext v.refs a (f v a).2.1.refs (f v a).2.2
  kept : ∀ v a r, r ∈ v.refs → r ∈ (f v a).2.1.refs
  listed : ∀ v a r, r ∈ (f v a).1 → r ∈ (f v a).2.1.refs

theorem ext_new {rs rs' : List Ref} {xs : List String} {a : Nat} (h : ∀ r ∈ rs', r ∈ rs ∨ r ∈ allocate xs a) :
    Ext rs a rs' (a + xs.length) :=
  ⟨Nat.le_add_right _ _, allocate xs a, h, allocate_range xs a, allocate_fn xs a⟩

theorem lister_bus : Lister VL.listBus := by
  refine ⟨fun v a => ?_, fun v a r h => ?_, fun v a r h => ?_⟩
  · unfold VL.listBus
    cases hc : v.busCache with
    | some l => exact ext_of_sub (fun r h => h)
    | none =>
      refine ext_new (fun r h => ?_)
      simp only [VL.refs, hc, Option.getD, List.append_nil, List.mem_append] at h ⊢
      rcases h with (h | h) | h
      · exact Or.inl (Or.inl h)
      · exact Or.inr h
      · exact Or.inl (Or.inr h)
  · unfold VL.listBus
    cases hc : v.busCache with
    | some l => exact h
    | none =>
      simp only [VL.refs, hc, Option.getD, List.append_nil, List.mem_append] at h ⊢
      rcases h with h | h
      · exact Or.inl (Or.inl h)
      · exact Or.inr h
  · unfold VL.listBus at h ⊢
    cases hc : v.busCache with
    | some l =>
      rw [hc] at h
      simp only [VL.refs, hc, Option.getD, List.mem_append]
      exact Or.inl (Or.inr h)
    | none =>
      rw [hc] at h
      simp only [VL.refs, Option.getD, List.mem_append]
      exact Or.inl (Or.inr h)

theorem lister_bb : Lister VL.listBB := by
  refine ⟨fun v a => ?_, fun v a r h => ?_, fun v a r h => ?_⟩
  · unfold VL.listBB
    cases hb : v.busBreaker with
    | true => exact ext_of_sub (fun r h => h)
    | false =>
      cases hc : v.bbCache with
      | some l => exact ext_of_sub (fun r h => h)
      | none =>
        refine ext_new (fun r h => ?_)
        simp only [VL.refs, hc, Option.getD, List.append_nil, List.mem_append] at h ⊢
        exact h
  · unfold VL.listBB
    cases hb : v.busBreaker with
    | true => exact h
    | false =>
      cases hc : v.bbCache with
      | some l => exact h
      | none =>
        simp only [VL.refs, hc, Option.getD, List.append_nil, List.mem_append] at h ⊢
        exact Or.inl h
  · unfold VL.listBB at h ⊢
    cases hb : v.busBreaker with
    | true =>
      rw [hb] at h
      simp only [VL.refs, List.mem_append]
      exact Or.inl (Or.inl h)
    | false =>
      rw [hb] at h
      cases hc : v.bbCache with
      | some l =>
        simp only [hc, Bool.false_eq_true, if_false] at h
        simp only [VL.refs, hc, Option.getD, List.mem_append, Bool.false_eq_true, if_false]
        exact Or.inr h
      | none =>
        simp only [hc, Bool.false_eq_true, if_false] at h
        simp only [VL.refs, Option.getD, List.mem_append, Bool.false_eq_true, if_false]
        exact Or.inr h

theorem lister_calculated : Lister VL.listCalculated := by
  refine ⟨fun v a => ?_, fun v a r h => ?_, fun v a r h => ?_⟩
  · unfold VL.listCalculated
    cases v.busBreaker with
    | true => exact ext_of_sub (fun r h => h)
    | false => exact lister_bb.ext v a
  · unfold VL.listCalculated
    cases v.busBreaker with
    | true => exact h
    | false => exact lister_bb.kept v a r h
  · unfold VL.listCalculated at h ⊢
    cases hb : v.busBreaker with
    | true => rw [hb] at h; simp at h
    | false => rw [hb] at h; exact lister_bb.listed v a r h

theorem listAll_ext {f} (hf : Lister f) (vs : List VL) :
    ∀ a, Ext (vs.flatMap VL.refs) a ((listAll f vs a).2.1.flatMap VL.refs) (listAll f vs a).2.2 := by
  induction vs with
  | nil => intro a; exact ext_of_sub (fun r h => h)
  | cons v vs ih =>
    intro a
    simp only [listAll, List.flatMap_cons]
    exact ext_append (hf.ext v a) (ih _)

theorem listAll_kept {f} (hf : Lister f) (vs : List VL) :
    ∀ a, ∀ r ∈ vs.flatMap VL.refs, r ∈ (listAll f vs a).2.1.flatMap VL.refs := by
  induction vs with
  | nil => intro a r h; exact h
  | cons v vs ih =>
    intro a r h
    simp only [listAll, List.flatMap_cons, List.mem_append] at h ⊢
    cases h with
    | inl h => exact Or.inl (hf.kept v a r h)
    | inr h => exact Or.inr (ih _ r h)

theorem listAll_listed {f} (hf : Lister f) (vs : List VL) :
    ∀ a, ∀ r ∈ (listAll f vs a).1, r ∈ (listAll f vs a).2.1.flatMap VL.refs := by
  induction vs with
  | nil => intro a r h; exact h
  | cons v vs ih =>
    intro a r h
    simp only [listAll, List.flatMap_cons, List.mem_append] at h ⊢
    cases h with
    | inl h => exact Or.inl (hf.listed v a r h)
    | inr h => exact Or.inr (ih _ r h)

theorem use_of_mem {n : Net} (g : Good n.refs n.next) {r : Ref} (h : r ∈ n.refs) : n.use r.2 = .ok r.1 := by
  unfold Net.use
  cases hf : n.refs.find? (fun q => q.2 == r.2) with
  | none =>
    have := List.find?_eq_none.1 hf r h
    simp at this
  | some q =>
    have h1 := List.mem_of_find?_eq_some hf
    have h2 := List.find?_some hf
    simp only [beq_iff_eq] at h2
    show Out.ok q.1 = Out.ok r.1
    rw [g.2 q h1 r h h2]

theorem use_mem {n : Net} {a : Nat} {id : String} (h : n.use a = .ok id) : (id, a) ∈ n.refs := by
  unfold Net.use at h
  cases hf : n.refs.find? (fun q => q.2 == a) with
  | none => rw [hf] at h; simp at h
  | some q =>
    rw [hf] at h
    have h1 := List.mem_of_find?_eq_some hf
    have h2 := List.find?_some hf
    simp only [beq_iff_eq] at h2
    simp only [Out.ok.injEq] at h
    rw [← h, ← h2]
    exact h1

/-! ### The map of a bus cache -/

/-- First bus with that id. -/
theorem fill_get? (rs : List Ref) : ∀ (m : AMap String Nat) (id : String),
    (fill rs m).get? id = (m.get? id).or ((rs.find? (fun r => r.1 == id)).map Prod.snd) := by
  induction rs with
  | nil => intro m id; simp [fill]
  | cons r rs ih =>
    intro m id
    rw [fill, ih, AMap.get?_emplace]
    by_cases h : id = r.1
    · subst h
      cases hm : m.get? r.1 <;> simp
    · have h2 : r.1 ≠ id := fun e => h e.symm
      have h' : (r.1 == id) = false := by simp [h2]
      simp [h2, h', List.find?_cons]

/-! ### Changes of one voltage level -/

theorem refs_modify {vls : List VL} {i : Nat} {f : VL → VL} {r : Ref}
    (h : r ∈ (vls.modify i f).flatMap VL.refs) : r ∈ vls.flatMap VL.refs ∨ ∃ v, vls[i]? = some v ∧ r ∈ (f v).refs := by
  rw [List.mem_flatMap] at h
  obtain ⟨w, hw, hr⟩ := h
  obtain ⟨j, hj⟩ := List.mem_iff_getElem?.1 hw
  rw [List.getElem?_modify] at hj
  by_cases e : i = j
  · subst e
    cases hv : vls[i]? with
    | none => simp [hv] at hj
    | some v =>
      simp [hv] at hj
      subst hj
      exact Or.inr ⟨v, rfl, hr⟩
  · simp [e] at hj
    exact Or.inl (List.mem_flatMap.2 ⟨w, List.mem_iff_getElem?.2 ⟨j, hj⟩, hr⟩)

theorem mem_refs_of_getElem? {vls : List VL} {i : Nat} {v : VL} {r : Ref} (h : vls[i]? = some v) (hr : r ∈ v.refs) :
    r ∈ vls.flatMap VL.refs :=
  List.mem_flatMap.2 ⟨v, List.mem_of_getElem? h, hr⟩

/-- Every call keeps the addresses apart. -/
theorem good_step {n : Net} (o : Op) (g : Good n.refs n.next) : Good (step n o).refs (step n o).next := by
  cases o with
  | addVL k =>
    refine good_of_ext g (ext_of_sub (fun r h => ?_))
    simp only [step, Net.refs, List.flatMap_append, List.mem_append, List.flatMap_cons, List.flatMap_nil] at h
    rcases h with h | h
    · exact h
    · simp [VL.refs] at h
  | topology i e wb wbb =>
    refine good_of_ext g (ext_of_sub (fun r h => ?_))
    rcases refs_modify (f := fun v => { v.dropped with equipped := e, wantBus := wb, wantBB := wbb }) h with h | ⟨v, hv, h⟩
    · exact h
    · refine mem_refs_of_getElem? hv ?_
      simp [VL.refs, VL.dropped] at h
      simp [VL.refs, h]
  | silent i wb wbb =>
    refine good_of_ext g (ext_of_sub (fun r h => ?_))
    rcases refs_modify (f := fun v => { v with wantBus := wb, wantBB := wbb }) h with h | ⟨v, hv, h⟩
    · exact h
    · exact mem_refs_of_getElem? hv h
  | addBus i id =>
    refine good_of_ext g (ext_new (xs := [id]) (fun r h => ?_))
    rcases refs_modify (f := fun v => { v with configured := v.configured ++ [(id, n.next)] }) h with h | ⟨v, hv, h⟩
    · exact Or.inl h
    · simp [VL.refs] at h
      rcases h with h | h | h | h
      · exact Or.inl (mem_refs_of_getElem? hv (by simp [VL.refs, h]))
      · exact Or.inr (by simp [allocate, h])
      · exact Or.inl (mem_refs_of_getElem? hv (by simp [VL.refs, h]))
      · exact Or.inl (mem_refs_of_getElem? hv (by simp [VL.refs, h]))
  | removeBus i id =>
    refine good_of_ext g (ext_of_sub (fun r h => ?_))
    rcases refs_modify (f := fun v => { v with configured := v.configured.filter fun r => r.1 != id }) h with h | ⟨v, hv, h⟩
    · exact h
    · refine mem_refs_of_getElem? hv ?_
      simp [VL.refs] at h
      simp [VL.refs]
      rcases h with h | h | h
      · exact Or.inl h.1
      · exact Or.inr (Or.inl h)
      · exact Or.inr (Or.inr h)
  | removeVL i =>
    refine good_of_ext (a' := (step n (.removeVL i)).next) g ?_
    simp only [step]
    cases hv : n.vls[i]? with
    | none => exact ext_of_sub (fun r h => h)
    | some v =>
      have hs : ∀ r ∈ (n.vls.eraseIdx i).flatMap VL.refs, r ∈ n.refs := by
        intro r h
        rw [List.mem_flatMap] at h
        obtain ⟨w, hw, hr⟩ := h
        exact List.mem_flatMap.2 ⟨w, List.mem_of_mem_eraseIdx hw, hr⟩
      cases he : v.equipped <;> simp only [Bool.false_eq_true, if_false, if_true, he] <;> exact ext_of_sub hs
  | overwrite =>
    refine good_of_ext g (ext_of_sub (fun r h => ?_))
    simp only [step, Net.refs, List.mem_flatMap, List.mem_map] at h
    obtain ⟨w, ⟨v, hv, e⟩, hr⟩ := h
    subst e
    refine List.mem_flatMap.2 ⟨v, hv, ?_⟩
    simp [VL.refs, VL.dropped] at hr
    simp [VL.refs, hr]
  | listBus i =>
    simp only [step]
    cases hv : n.vls[i]? with
    | none => exact g
    | some v =>
      refine good_of_ext g ?_
      obtain ⟨le, news, s, rng, fn⟩ := lister_bus.ext v n.next
      refine ⟨le, news, fun r h => ?_, rng, fn⟩
      simp only [Net.refs, List.mem_flatMap] at h
      obtain ⟨w, hw, hr⟩ := h
      rcases List.mem_or_eq_of_mem_set hw with h | h
      · exact Or.inl (List.mem_flatMap.2 ⟨w, h, hr⟩)
      · subst h
        rcases s r hr with h | h
        · exact Or.inl (mem_refs_of_getElem? hv h)
        · exact Or.inr h
  | listBB i =>
    simp only [step]
    cases hv : n.vls[i]? with
    | none => exact g
    | some v =>
      refine good_of_ext g ?_
      obtain ⟨le, news, s, rng, fn⟩ := lister_bb.ext v n.next
      refine ⟨le, news, fun r h => ?_, rng, fn⟩
      simp only [Net.refs, List.mem_flatMap] at h
      obtain ⟨w, hw, hr⟩ := h
      rcases List.mem_or_eq_of_mem_set hw with h | h
      · exact Or.inl (List.mem_flatMap.2 ⟨w, h, hr⟩)
      · subst h
        rcases s r hr with h | h
        · exact Or.inl (mem_refs_of_getElem? hv h)
        · exact Or.inr h
  | busViewBuses => exact good_of_ext g (listAll_ext lister_bus n.vls n.next)
  | busBreakerViewBuses => exact good_of_ext g (listAll_ext lister_bb n.vls n.next)
  | busViewBus id =>
    simp only [step, Net.busViewBus]
    cases n.busView with
    | some m => exact g
    | none => exact good_of_ext g (listAll_ext lister_bus n.vls n.next)
  | busBreakerViewBus id =>
    simp only [step, Net.busBreakerViewBus]
    cases findConfigured id n.vls with
    | some a => exact g
    | none =>
      cases n.busBreakerView with
      | some m => exact g
      | none => exact good_of_ext g (listAll_ext lister_calculated n.vls n.next)

/-! ### The cache of the bus view -/

/-- The bus view of the voltage level is computed, or would be empty. -/
def Settled (v : VL) : Prop := v.busCache.isSome = true ∨ v.equipped = false

/-- A voltage level without equipment has no bus in the bus view. -/
def Empty (v : VL) : Prop := v.equipped = false → v.busCache.getD [] = []

theorem listBus_settled {v : VL} (h : Settled v) (he : Empty v) (a : Nat) :
    (v.listBus a).1 = v.busCache.getD [] := by
  unfold VL.listBus
  cases hc : v.busCache with
  | some l => rfl
  | none =>
    rcases h with h | h
    · rw [hc] at h; cases h
    · simp [VL.idsBus, h, allocate]

theorem listAll_settled {vs : List VL} (h : ∀ v ∈ vs, Settled v ∧ Empty v) :
    ∀ a, (listAll VL.listBus vs a).1 = vs.flatMap (fun v => v.busCache.getD []) := by
  induction vs with
  | nil => intro a; rfl
  | cons v vs ih =>
    intro a
    simp only [listAll, List.flatMap_cons]
    rw [listBus_settled (h v (by simp)).1 (h v (by simp)).2, ih (fun w hw => h w (by simp [hw]))]

theorem empty_listBus {v : VL} (he : Empty v) (a : Nat) : Empty (v.listBus a).2.1 := by
  unfold VL.listBus
  cases hc : v.busCache with
  | some l => exact he
  | none => intro h; simp only at h; simp [VL.idsBus, h, allocate]

theorem listBus_cache (v : VL) (a : Nat) : (v.listBus a).2.1.busCache = some (v.listBus a).1 := by
  unfold VL.listBus
  cases hc : v.busCache with
  | some l => simp [hc]
  | none => rfl

theorem listBB_same (v : VL) (a : Nat) : (v.listBB a).2.1.busCache = v.busCache ∧ (v.listBB a).2.1.equipped = v.equipped := by
  unfold VL.listBB
  cases v.busBreaker <;> cases v.bbCache <;> exact ⟨rfl, rfl⟩

theorem listCalculated_same (v : VL) (a : Nat) :
    (v.listCalculated a).2.1.busCache = v.busCache ∧ (v.listCalculated a).2.1.equipped = v.equipped := by
  unfold VL.listCalculated
  cases v.busBreaker
  · exact listBB_same v a
  · exact ⟨rfl, rfl⟩

theorem listAll_bus {vs : List VL} (h : ∀ v ∈ vs, Empty v) : ∀ a,
    (∀ v ∈ (listAll VL.listBus vs a).2.1, Settled v ∧ Empty v) ∧
    (listAll VL.listBus vs a).2.1.flatMap (fun v => v.busCache.getD []) = (listAll VL.listBus vs a).1 := by
  induction vs with
  | nil => intro a; exact ⟨fun v hv => (by cases hv), rfl⟩
  | cons v vs ih =>
    intro a
    obtain ⟨i1, i2⟩ := ih (fun w hw => h w (by simp [hw])) (v.listBus a).2.2
    refine ⟨fun w hw => ?_, ?_⟩
    · simp only [listAll, List.mem_cons] at hw
      cases hw with
      | inl e => subst e; exact ⟨Or.inl (by rw [listBus_cache]; rfl), empty_listBus (h v (by simp)) a⟩
      | inr e => exact i1 w e
    · simp only [listAll, List.flatMap_cons, listBus_cache, Option.getD_some, i2]

/-- Two lists of voltage levels that agree on what matters to the bus view. -/
theorem listAll_other {f : VL → Nat → List Ref × VL × Nat}
    (hf : ∀ v a, (f v a).2.1.busCache = v.busCache ∧ (f v a).2.1.equipped = v.equipped) {vs : List VL} : ∀ a,
    ((∀ v ∈ vs, Empty v) → ∀ v ∈ (listAll f vs a).2.1, Empty v) ∧
    ((∀ v ∈ vs, Settled v) → ∀ v ∈ (listAll f vs a).2.1, Settled v) ∧
    (listAll f vs a).2.1.flatMap (fun v => v.busCache.getD []) = vs.flatMap (fun v => v.busCache.getD []) := by
  induction vs with
  | nil => intro a; exact ⟨fun _ v hv => (by cases hv), fun _ v hv => (by cases hv), rfl⟩
  | cons v vs ih =>
    intro a
    obtain ⟨i1, i2, i3⟩ := ih (f v a).2.2
    refine ⟨fun h w hw => ?_, fun h w hw => ?_, ?_⟩
    · simp only [listAll, List.mem_cons] at hw
      cases hw with
      | inl e => subst e; unfold Empty; rw [(hf v a).1, (hf v a).2]; exact h v (by simp)
      | inr e => exact i1 (fun w hw => h w (by simp [hw])) w e
    · simp only [listAll, List.mem_cons] at hw
      cases hw with
      | inl e => subst e; unfold Settled; rw [(hf v a).1, (hf v a).2]; exact h v (by simp)
      | inr e => exact i2 (fun w hw => h w (by simp [hw])) w e
    · simp only [listAll, List.flatMap_cons, (hf v a).1, i3]

/-- What is kept about the bus view. -/
structure BInv (n : Net) : Prop where
  empty : ∀ v ∈ n.vls, Empty v
  settled : n.busView ≠ none → ∀ v ∈ n.vls, Settled v
  right : ∀ m, n.busView = some m → ∀ id,
    m.get? id = ((n.vls.flatMap (fun v => v.busCache.getD [])).find? (fun r => r.1 == id)).map Prod.snd

theorem mem_modify {vls : List VL} {i : Nat} {f : VL → VL} {w : VL} (h : w ∈ vls.modify i f) :
    w ∈ vls ∨ ∃ v ∈ vls, w = f v := by
  obtain ⟨j, hj⟩ := List.mem_iff_getElem?.1 h
  rw [List.getElem?_modify] at hj
  cases hv : vls[j]? with
  | none => simp [hv] at hj
  | some v =>
    simp only [hv, Option.map_some, Option.some.injEq] at hj
    by_cases e : i = j
    · simp [e] at hj; exact Or.inr ⟨v, List.mem_of_getElem? hv, hj.symm⟩
    · simp [e] at hj; exact Or.inl (hj ▸ List.mem_of_getElem? hv)

theorem flatMap_modify {vls : List VL} {i : Nat} {f : VL → VL} {g : VL → List Ref} (h : ∀ v, g (f v) = g v) :
    (vls.modify i f).flatMap g = vls.flatMap g := by
  induction vls generalizing i with
  | nil => cases i <;> rfl
  | cons v vs ih =>
    cases i with
    | zero => simp [h]
    | succ i => simp [ih]

theorem binv_modify {n : Net} {f : VL → VL} {i a : Nat} (hb : ∀ v, (f v).busCache = v.busCache)
    (he : ∀ v, (f v).equipped = v.equipped) (h : BInv n) : BInv { n with vls := n.vls.modify i f, next := a } := by
  refine ⟨fun w hw => ?_, fun hn w hw => ?_, fun m hm id => ?_⟩
  · rcases mem_modify hw with hw | ⟨v, hv, e⟩
    · exact h.empty w hw
    · subst e; unfold Empty; rw [hb, he]; exact h.empty v hv
  · rcases mem_modify hw with hw | ⟨v, hv, e⟩
    · exact h.settled hn w hw
    · subst e; unfold Settled; rw [hb, he]; exact h.settled hn v hv
  · show m.get? id = (((n.vls.modify i f).flatMap (fun v => v.busCache.getD [])).find? _).map _
    rw [flatMap_modify (fun v => by rw [hb])]
    exact h.right m hm id

theorem flatMap_set {g : VL → List Ref} : ∀ {vls : List VL} {i : Nat} {v w : VL}, vls[i]? = some v → g w = g v →
    (vls.set i w).flatMap g = vls.flatMap g := by
  intro vls
  induction vls with
  | nil => intro i v w h; simp at h
  | cons u us ih =>
    intro i v w h e
    cases i with
    | zero => simp at h; subst h; simp [e]
    | succ i => simp at h; simp [ih h e]

theorem flatMap_eraseIdx {g : VL → List Ref} : ∀ {vls : List VL} {i : Nat} {v : VL}, vls[i]? = some v → g v = [] →
    (vls.eraseIdx i).flatMap g = vls.flatMap g := by
  intro vls
  induction vls with
  | nil => intro i v h; simp at h
  | cons u us ih =>
    intro i v h e
    cases i with
    | zero => simp at h; subst h; simp [e]
    | succ i => simp at h; simp [ih h e]

theorem binv_none {n : Net} (he : ∀ v ∈ n.vls, Empty v) (h : n.busView = none) : BInv n :=
  ⟨he, fun hn => absurd h hn, fun m hm => by rw [h] at hm; cases hm⟩

theorem binv_step {n : Net} (o : Op) (h : BInv n) : BInv (step n o) := by
  cases o with
  | addVL k =>
    refine ⟨fun v hv => ?_, fun hn v hv => ?_, fun m hm id => ?_⟩
    · simp only [step, List.mem_append, List.mem_singleton] at hv
      rcases hv with hv | hv
      · exact h.empty v hv
      · subst hv; intro _; rfl
    · simp only [step, List.mem_append, List.mem_singleton] at hv
      rcases hv with hv | hv
      · exact h.settled hn v hv
      · subst hv; exact Or.inr rfl
    · simp only [step, List.flatMap_append, List.flatMap_cons, List.flatMap_nil, Option.getD, List.append_nil]
      exact h.right m hm id
  | topology i e wb wbb =>
    refine binv_none (fun w hw => ?_) rfl
    rcases mem_modify (f := fun v => { v.dropped with equipped := e, wantBus := wb, wantBB := wbb }) hw with hw | ⟨v, _, e⟩
    · exact h.empty w hw
    · subst e; intro _; rfl
  | silent i wb wbb => exact binv_modify (a := n.next) (fun _ => rfl) (fun _ => rfl) h
  | addBus i id => exact binv_modify (fun _ => rfl) (fun _ => rfl) h
  | removeBus i id => exact binv_modify (a := n.next) (fun _ => rfl) (fun _ => rfl) h
  | removeVL i =>
    simp only [step]
    cases hv : n.vls[i]? with
    | none => exact h
    | some v =>
      cases he : v.equipped with
      | true =>
        simp only [he, if_true]
        exact binv_none (fun w hw => h.empty w (List.mem_of_mem_eraseIdx hw)) rfl
      | false =>
        simp only [he, Bool.false_eq_true, if_false]
        refine ⟨fun w hw => h.empty w (List.mem_of_mem_eraseIdx hw),
          fun hn w hw => h.settled hn w (List.mem_of_mem_eraseIdx hw), fun m hm id => ?_⟩
        show m.get? id = (((n.vls.eraseIdx i).flatMap (fun v => v.busCache.getD [])).find? _).map _
        rw [flatMap_eraseIdx hv (h.empty v (List.mem_of_getElem? hv) he)]
        exact h.right m hm id
  | overwrite =>
    refine binv_none (fun w hw => ?_) rfl
    simp only [step, List.mem_map] at hw
    obtain ⟨v, _, e⟩ := hw
    subst e; intro _; rfl
  | listBus i =>
    simp only [step]
    cases hv : n.vls[i]? with
    | none => exact h
    | some v =>
      have hm := List.mem_of_getElem? hv
      refine ⟨fun w hw => ?_, fun hn w hw => ?_, fun m hm id => ?_⟩
      · rcases List.mem_or_eq_of_mem_set hw with hw | hw
        · exact h.empty w hw
        · subst hw; exact empty_listBus (h.empty v hm) n.next
      · rcases List.mem_or_eq_of_mem_set hw with hw | hw
        · exact h.settled hn w hw
        · subst hw; exact Or.inl (by rw [listBus_cache]; rfl)
      · show m.get? id = (((n.vls.set i _).flatMap (fun v => v.busCache.getD [])).find? _).map _
        rw [flatMap_set hv]
        · exact h.right m hm id
        · rw [listBus_cache]
          exact listBus_settled (h.settled (by rw [hm]; simp) v (List.mem_of_getElem? hv))
            (h.empty v (List.mem_of_getElem? hv)) n.next
  | listBB i =>
    simp only [step]
    cases hv : n.vls[i]? with
    | none => exact h
    | some v =>
      have hm := List.mem_of_getElem? hv
      have hs := listBB_same v n.next
      refine ⟨fun w hw => ?_, fun hn w hw => ?_, fun m hm id => ?_⟩
      · rcases List.mem_or_eq_of_mem_set hw with hw | hw
        · exact h.empty w hw
        · subst hw; unfold Empty; rw [hs.1, hs.2]; exact h.empty v hm
      · rcases List.mem_or_eq_of_mem_set hw with hw | hw
        · exact h.settled hn w hw
        · subst hw; unfold Settled; rw [hs.1, hs.2]; exact h.settled hn v hm
      · show m.get? id = (((n.vls.set i _).flatMap (fun v => v.busCache.getD [])).find? _).map _
        rw [flatMap_set hv (by rw [hs.1])]
        exact h.right m hm id
  | busViewBuses =>
    obtain ⟨l1, l2⟩ := listAll_bus h.empty n.next
    refine ⟨fun w hw => (l1 w hw).2, fun _ w hw => (l1 w hw).1, fun m hm id => ?_⟩
    show m.get? id = (((listAll VL.listBus n.vls n.next).2.1.flatMap (fun v => v.busCache.getD [])).find? _).map _
    have hn : n.busView ≠ none := by
      intro e; have : n.busView = some m := hm; rw [e] at this; cases this
    rw [l2, listAll_settled (fun v hv => ⟨h.settled hn v hv, h.empty v hv⟩)]
    exact h.right m hm id
  | busBreakerViewBuses =>
    obtain ⟨l1, l2, l3⟩ := listAll_other listBB_same (vs := n.vls) n.next
    refine ⟨l1 h.empty, fun hn => l2 (h.settled hn), fun m hm id => ?_⟩
    show m.get? id = (((listAll VL.listBB n.vls n.next).2.1.flatMap (fun v => v.busCache.getD [])).find? _).map _
    rw [l3]
    exact h.right m hm id
  | busViewBus id =>
    simp only [step, Net.busViewBus]
    cases hb : n.busView with
    | some m => exact h
    | none =>
      obtain ⟨l1, l2⟩ := listAll_bus h.empty n.next
      refine ⟨fun w hw => (l1 w hw).2, fun _ w hw => (l1 w hw).1, fun m hm id => ?_⟩
      show m.get? id = (((listAll VL.listBus n.vls n.next).2.1.flatMap (fun v => v.busCache.getD [])).find? _).map _
      simp only [Option.some.injEq] at hm
      subst hm
      rw [l2, fill_get?]
      simp
  | busBreakerViewBus id =>
    simp only [step, Net.busBreakerViewBus]
    cases findConfigured id n.vls with
    | some a => exact h
    | none =>
      cases hb : n.busBreakerView with
      | some m => exact h
      | none =>
        obtain ⟨l1, l2, l3⟩ := listAll_other listCalculated_same (vs := n.vls) n.next
        refine ⟨l1 h.empty, fun hn => l2 (h.settled hn), fun m hm id => ?_⟩
        show m.get? id = (((listAll VL.listCalculated n.vls n.next).2.1.flatMap (fun v => v.busCache.getD [])).find? _).map _
        rw [l3]
        exact h.right m hm id

/-! ### The cache of the bus/breaker view -/

/-- The calculated buses of the bus/breaker view that the voltage level holds. -/
def held (v : VL) : List Ref := if v.busBreaker then [] else v.bbCache.getD []

/-- The bus/breaker view of the voltage level is computed, or would be empty. -/
def Ready (v : VL) : Prop := v.busBreaker = true ∨ v.bbCache.isSome = true ∨ v.wantBB = []

structure CInv (n : Net) : Prop where
  ready : n.busBreakerView ≠ none → ∀ v ∈ n.vls, Ready v
  right : ∀ m, n.busBreakerView = some m → ∀ id, m.get? id = ((n.vls.flatMap held).find? (fun r => r.1 == id)).map Prod.snd

theorem listCalculated_ready {v : VL} (h : Ready v) (a : Nat) : (v.listCalculated a).1 = held v := by
  unfold VL.listCalculated VL.listBB held
  cases hb : v.busBreaker with
  | true => simp
  | false =>
    cases hc : v.bbCache with
    | some l => simp
    | none =>
      rcases h with h | h | h
      · rw [hb] at h; cases h
      · rw [hc] at h; cases h
      · simp [h, allocate]

theorem listCalculated_self (v : VL) (a : Nat) :
    Ready (v.listCalculated a).2.1 ∧ held (v.listCalculated a).2.1 = (v.listCalculated a).1 := by
  unfold VL.listCalculated VL.listBB
  cases hb : v.busBreaker with
  | true => simp [Ready, held, hb]
  | false =>
    cases hc : v.bbCache with
    | some l => simp [Ready, held, hb, hc]
    | none => simp [Ready, held]

theorem listBB_eq (v : VL) (a : Nat) : (v.listBB a).2 = (v.listCalculated a).2 := by
  unfold VL.listCalculated VL.listBB
  cases v.busBreaker <;> simp

theorem listBB_all (vs : List VL) : ∀ a, (listAll VL.listBB vs a).2 = (listAll VL.listCalculated vs a).2 := by
  induction vs with
  | nil => intro a; rfl
  | cons v vs ih =>
    intro a
    simp only [listAll]
    rw [listBB_eq, ih]

theorem listAll_ready {vs : List VL} (h : ∀ v ∈ vs, Ready v) : ∀ a, (listAll VL.listCalculated vs a).1 = vs.flatMap held := by
  induction vs with
  | nil => intro a; rfl
  | cons v vs ih =>
    intro a
    simp only [listAll, List.flatMap_cons]
    rw [listCalculated_ready (h v (by simp)), ih (fun w hw => h w (by simp [hw]))]

theorem listAll_calc (vs : List VL) : ∀ a,
    (∀ v ∈ (listAll VL.listCalculated vs a).2.1, Ready v) ∧
    (listAll VL.listCalculated vs a).2.1.flatMap held = (listAll VL.listCalculated vs a).1 := by
  induction vs with
  | nil => intro a; exact ⟨fun v hv => (by cases hv), rfl⟩
  | cons v vs ih =>
    intro a
    obtain ⟨i1, i2⟩ := ih (v.listCalculated a).2.2
    have hs := listCalculated_self v a
    refine ⟨fun w hw => ?_, ?_⟩
    · simp only [listAll, List.mem_cons] at hw
      cases hw with
      | inl e => subst e; exact hs.1
      | inr e => exact i1 w e
    · simp only [listAll, List.flatMap_cons, hs.2, i2]

theorem listBus_same (v : VL) (a : Nat) : held (v.listBus a).2.1 = held v ∧ (Ready v → Ready (v.listBus a).2.1) := by
  unfold VL.listBus
  cases v.busCache <;> exact ⟨rfl, fun h => h⟩

theorem listAll_bus_same (vs : List VL) : ∀ a,
    ((∀ v ∈ vs, Ready v) → ∀ v ∈ (listAll VL.listBus vs a).2.1, Ready v) ∧
    (listAll VL.listBus vs a).2.1.flatMap held = vs.flatMap held := by
  induction vs with
  | nil => intro a; exact ⟨fun _ v hv => (by cases hv), rfl⟩
  | cons v vs ih =>
    intro a
    obtain ⟨i1, i2⟩ := ih (v.listBus a).2.2
    refine ⟨fun h w hw => ?_, ?_⟩
    · simp only [listAll, List.mem_cons] at hw
      cases hw with
      | inl e => subst e; exact (listBus_same v a).2 (h v (by simp))
      | inr e => exact i1 (fun w hw => h w (by simp [hw])) w e
    · simp only [listAll, List.flatMap_cons, (listBus_same v a).1, i2]

/-- The change concerns a node/breaker voltage level. -/
def Op.touches (n : Net) : Op → Prop
  | .topology i _ _ _ => ∃ v, n.vls[i]? = some v ∧ v.busBreaker = false
  | .silent i _ _ => ∃ v, n.vls[i]? = some v ∧ v.busBreaker = false
  | .removeVL i => ∃ v, n.vls[i]? = some v ∧ v.busBreaker = false
  | _ => False

theorem cinv_none {n : Net} (h : n.busBreakerView = none) : CInv n :=
  ⟨fun hn => absurd h hn, fun m hm => by rw [h] at hm; cases hm⟩

theorem cinv_modify {n : Net} {f : VL → VL} {i a : Nat} {b : Option (AMap String Nat)}
    (hc : ∀ v, n.vls[i]? = some v → held (f v) = held v ∧ (Ready v → Ready (f v))) (h : CInv n) :
    CInv { n with vls := n.vls.modify i f, next := a, busView := b } := by
  have key : ∀ (vs : List VL) (i : Nat), (∀ v, vs[i]? = some v → held (f v) = held v ∧ (Ready v → Ready (f v))) →
      (vs.modify i f).flatMap held = vs.flatMap held ∧ ((∀ v ∈ vs, Ready v) → ∀ v ∈ vs.modify i f, Ready v) := by
    intro vs
    induction vs with
    | nil => intro i _; cases i <;> exact ⟨rfl, fun _ v hv => (by cases hv)⟩
    | cons v vs ih =>
      intro i hc
      cases i with
      | zero =>
        have := hc v rfl
        refine ⟨by simp [this.1], fun h w hw => ?_⟩
        simp only [List.modify_zero_cons, List.mem_cons] at hw
        cases hw with
        | inl e => subst e; exact this.2 (h v (by simp))
        | inr e => exact h w (by simp [e])
      | succ i =>
        obtain ⟨k1, k2⟩ := ih i (fun w hw => hc w (by simpa using hw))
        refine ⟨by simp [k1], fun h w hw => ?_⟩
        simp only [List.modify_succ_cons, List.mem_cons] at hw
        cases hw with
        | inl e => subst e; exact h w (by simp)
        | inr e => exact k2 (fun u hu => h u (by simp [hu])) w e
  obtain ⟨k1, k2⟩ := key n.vls i hc
  refine ⟨fun hn => k2 (h.ready hn), fun m hm id => ?_⟩
  show m.get? id = (((n.vls.modify i f).flatMap held).find? _).map _
  rw [k1]
  exact h.right m hm id

theorem cinv_step {n : Net} (o : Op) (h : CInv n) (hq : n.busBreakerView ≠ none → ¬ o.touches n) : CInv (step n o) := by
  by_cases hn : n.busBreakerView = none
  · -- nothing cached before: only a lookup fills it
    cases o with
    | busBreakerViewBus id =>
      simp only [step, Net.busBreakerViewBus]
      cases findConfigured id n.vls with
      | some a => exact h
      | none =>
        rw [hn]
        obtain ⟨l1, l2⟩ := listAll_calc n.vls n.next
        refine ⟨fun _ => l1, fun m hm id => ?_⟩
        show m.get? id = (((listAll VL.listCalculated n.vls n.next).2.1.flatMap held).find? _).map _
        simp only [Option.some.injEq] at hm
        subst hm
        rw [l2, fill_get?]
        simp
    | removeVL i =>
      refine cinv_none ?_
      simp only [step]
      cases hv : n.vls[i]? with
      | none => exact hn
      | some v => cases he : v.equipped <;> simp only [he, Bool.false_eq_true, if_false, if_true] <;> exact hn
    | listBus i =>
      refine cinv_none ?_
      simp only [step]
      cases hv : n.vls[i]? <;> exact hn
    | listBB i =>
      refine cinv_none ?_
      simp only [step]
      cases hv : n.vls[i]? <;> exact hn
    | busViewBus id =>
      refine cinv_none ?_
      simp only [step, Net.busViewBus]
      cases hv : n.busView <;> exact hn
    | overwrite => exact cinv_none rfl
    | addVL k => exact cinv_none hn
    | topology i e wb wbb => exact cinv_none hn
    | silent i wb wbb => exact cinv_none hn
    | addBus i id => exact cinv_none hn
    | removeBus i id => exact cinv_none hn
    | busViewBuses => exact cinv_none hn
    | busBreakerViewBuses => exact cinv_none hn
  · have hq := hq hn
    cases o with
    | addVL k =>
      refine ⟨fun hn v hv => ?_, fun m hm id => ?_⟩
      · simp only [step, List.mem_append, List.mem_singleton] at hv
        rcases hv with hv | hv
        · exact h.ready hn v hv
        · subst hv; exact Or.inr (Or.inr rfl)
      · have e : held ⟨k, false, [], [], [], none, none⟩ = [] := by cases k <;> rfl
        simp only [step, List.flatMap_append, List.flatMap_cons, List.flatMap_nil, e, List.append_nil]
        exact h.right m hm id
    | topology i e wb wbb =>
      refine cinv_modify (a := n.next) (b := none) (fun v hv => ?_) h
      cases hb : v.busBreaker with
      | false => exact absurd ⟨v, hv, hb⟩ hq
      | true => exact ⟨by simp [held, VL.dropped, hb], fun _ => Or.inl (by simp [VL.dropped, hb])⟩
    | silent i wb wbb =>
      refine cinv_modify (a := n.next) (b := n.busView) (fun v hv => ?_) h
      cases hb : v.busBreaker with
      | false => exact absurd ⟨v, hv, hb⟩ hq
      | true => exact ⟨by simp [held, hb], fun _ => Or.inl rfl⟩
    | addBus i id => exact cinv_modify (b := n.busView) (fun v _ => ⟨rfl, fun h => h⟩) h
    | removeBus i id => exact cinv_modify (a := n.next) (b := n.busView) (fun v _ => ⟨rfl, fun h => h⟩) h
    | removeVL i =>
      simp only [step]
      cases hv : n.vls[i]? with
      | none => exact h
      | some v =>
        cases hb : v.busBreaker with
        | false => exact absurd ⟨v, hv, hb⟩ hq
        | true =>
          have hr : ∀ n' : Net, n'.vls = n.vls.eraseIdx i → n'.busBreakerView = n.busBreakerView → CInv n' := by
            intro n' e1 e2
            refine ⟨fun hn w hw => ?_, fun m hm id => ?_⟩
            · rw [e1] at hw; rw [e2] at hn
              exact h.ready hn w (List.mem_of_mem_eraseIdx hw)
            · rw [e1, flatMap_eraseIdx hv (by simp [held, hb])]
              exact h.right m (e2 ▸ hm) id
          cases he : v.equipped <;> simp only [he, Bool.false_eq_true, if_false, if_true] <;> exact hr _ rfl rfl
    | overwrite => exact cinv_none rfl
    | listBus i =>
      simp only [step]
      cases hv : n.vls[i]? with
      | none => exact h
      | some v =>
        have hs := listBus_same v n.next
        refine ⟨fun hn w hw => ?_, fun m hm id => ?_⟩
        · rcases List.mem_or_eq_of_mem_set hw with hw | hw
          · exact h.ready hn w hw
          · subst hw; exact hs.2 (h.ready hn v (List.mem_of_getElem? hv))
        · show m.get? id = (((n.vls.set i _).flatMap held).find? _).map _
          rw [flatMap_set hv hs.1]
          exact h.right m hm id
    | listBB i =>
      simp only [step]
      cases hv : n.vls[i]? with
      | none => exact h
      | some v =>
        have hs := listCalculated_self v n.next
        have hr := listCalculated_ready (h.ready hn v (List.mem_of_getElem? hv)) n.next
        simp only [listBB_eq]
        refine ⟨fun hn w hw => ?_, fun m hm id => ?_⟩
        · rcases List.mem_or_eq_of_mem_set hw with hw | hw
          · exact h.ready hn w hw
          · subst hw; exact hs.1
        · show m.get? id = (((n.vls.set i _).flatMap held).find? _).map _
          rw [flatMap_set hv (by rw [hs.2, hr])]
          exact h.right m hm id
    | busViewBuses =>
      obtain ⟨l1, l2⟩ := listAll_bus_same n.vls n.next
      refine ⟨fun hn => l1 (h.ready hn), fun m hm id => ?_⟩
      show m.get? id = (((listAll VL.listBus n.vls n.next).2.1.flatMap held).find? _).map _
      rw [l2]; exact h.right m hm id
    | busBreakerViewBuses =>
      obtain ⟨l1, l2⟩ := listAll_calc n.vls n.next
      refine ⟨fun hn w hw => ?_, fun m hm id => ?_⟩
      · simp only [step, Net.busBreakerViewBuses, listBB_all] at hw
        exact l1 w hw
      · show m.get? id = (((listAll VL.listBB n.vls n.next).2.1.flatMap held).find? _).map _
        rw [listBB_all, l2, listAll_ready (h.ready hn)]
        exact h.right m hm id
    | busViewBus id =>
      simp only [step, Net.busViewBus]
      cases hb : n.busView with
      | some m => exact h
      | none =>
        obtain ⟨l1, l2⟩ := listAll_bus_same n.vls n.next
        refine ⟨fun hn => l1 (h.ready hn), fun m hm id => ?_⟩
        show m.get? id = (((listAll VL.listBus n.vls n.next).2.1.flatMap held).find? _).map _
        rw [l2]; exact h.right m hm id
    | busBreakerViewBus id =>
      simp only [step, Net.busBreakerViewBus]
      cases findConfigured id n.vls with
      | some a => exact h
      | none =>
        cases hb : n.busBreakerView with
        | some m => exact h
        | none => exact absurd hb hn

/-! ### Configured buses -/

theorem findConfigured_some {id : String} {a : Nat} : ∀ {vs : List VL}, findConfigured id vs = some a →
    ∃ v ∈ vs, v.busBreaker = true ∧ (id, a) ∈ v.configured := by
  intro vs
  induction vs with
  | nil => intro h; simp [findConfigured] at h
  | cons v vs ih =>
    intro h
    unfold findConfigured at h
    cases hb : v.busBreaker with
    | false =>
      simp only [hb, Bool.false_eq_true, if_false] at h
      obtain ⟨w, hw, k⟩ := ih h
      exact ⟨w, by simp [hw], k⟩
    | true =>
      simp only [hb, if_true] at h
      cases hf : v.configured.find? (fun r => r.1 == id) with
      | none =>
        rw [hf] at h
        obtain ⟨w, hw, k⟩ := ih h
        exact ⟨w, by simp [hw], k⟩
      | some r =>
        rw [hf] at h
        have h1 := List.mem_of_find?_eq_some hf
        have h2 := List.find?_some hf
        simp only [beq_iff_eq, Option.some.injEq] at h2 h
        exact ⟨v, by simp, hb, by rw [← h2, ← h]; exact h1⟩

theorem findConfigured_none {id : String} : ∀ {vs : List VL}, findConfigured id vs = none →
    ∀ v ∈ vs, v.busBreaker = true → ∀ r ∈ v.configured, r.1 ≠ id := by
  intro vs
  induction vs with
  | nil => intro h v hv; cases hv
  | cons w vs ih =>
    intro h v hv hb r hr e
    unfold findConfigured at h
    cases hv with
    | head =>
      simp only [hb, if_true] at h
      cases hf : w.configured.find? (fun r => r.1 == id) with
      | none => have := List.find?_eq_none.1 hf r hr; simp [e] at this
      | some q => rw [hf] at h; cases h
    | tail _ hv =>
      split at h
      · cases h
      · exact ih h v hv hb r hr e

/-- What the bus/breaker view lists. -/
theorem mem_listBB (vs : List VL) : ∀ a r, r ∈ (listAll VL.listBB vs a).1 ↔
    (∃ v ∈ vs, v.busBreaker = true ∧ r ∈ v.configured) ∨ r ∈ (listAll VL.listCalculated vs a).1 := by
  induction vs with
  | nil => intro a r; simp [listAll]
  | cons v vs ih =>
    intro a r
    simp only [listAll, List.mem_append]
    rw [listBB_eq, ih]
    cases hb : v.busBreaker with
    | true => simp [VL.listBB, VL.listCalculated, hb, or_assoc]
    | false =>
      have : (v.listBB a).1 = (v.listCalculated a).1 := by simp [VL.listCalculated, hb]
      simp only [this, List.mem_cons, exists_eq_or_imp, hb, Bool.false_eq_true, false_and, false_or, or_left_comm]

end Verif.NetBuses
