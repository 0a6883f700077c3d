import Verif.LimitSet.Spec

/-! Lemmas for the limits of an equipment. -/

namespace Verif.LimitSet

open Verif Verif.Limits

theorem rank_inj {a b : Kind} (h : a.rank = b.rank) : a = b := by cases a <;> cases b <;> simp [Kind.rank] at h ⊢

/-- Keys in increasing order. -/
def Sorted (h : Holder) : Prop := h.Pairwise fun a b => a.1.rank < b.1.rank

theorem find_put (k k' : Kind) (o : Obj) : ∀ h : Holder, Sorted h → (h.put k o).find k' = if k = k' then some o else h.find k'
  | [], _ => by simp [Holder.put, Holder.find]
  | (a, x) :: r, hs => by
    have hs' := List.pairwise_cons.mp hs
    have ih := find_put k k' o r hs'.2
    unfold Holder.put
    by_cases h1 : k.rank < a.rank
    · rw [if_pos h1]; simp only [Holder.find]
    · rw [if_neg h1]
      by_cases h2 : k = a
      · subst h2
        rw [if_pos rfl]; simp only [Holder.find]
        by_cases h3 : k = k' <;> simp [h3]
      · rw [if_neg h2]; simp only [Holder.find, ih]
        by_cases h3 : a = k'
        · subst h3; simp [h2]
        · simp [h3]

theorem find_erase (k k' : Kind) : ∀ h : Holder, (h.erase k).find k' = if k = k' then none else h.find k'
  | [] => by simp [Holder.erase, Holder.find]
  | (a, x) :: r => by
    have ih := find_erase k k' r
    unfold Holder.erase at ih ⊢
    by_cases h1 : a = k
    · subst h1
      simp only [List.filter_cons, decide_true, Bool.not_true, Bool.false_eq_true, if_false, ih, Holder.find]
      by_cases h2 : a = k' <;> simp [h2]
    · simp only [List.filter_cons, h1, decide_false, Bool.not_false, if_true, Holder.find, ih]
      by_cases h2 : a = k'
      · subst h2; simp [Ne.symm h1]
      · simp [h2]

theorem mem_put {k : Kind} {o : Obj} {p : Kind × Obj} : ∀ {h : Holder}, p ∈ h.put k o → p = (k, o) ∨ p ∈ h
  | [], hp => by simp [Holder.put] at hp; exact .inl hp
  | (a, x) :: r, hp => by
    unfold Holder.put at hp
    split at hp
    · rcases List.mem_cons.mp hp with h | h
      · exact .inl h
      · exact .inr h
    · split at hp
      · rcases List.mem_cons.mp hp with h | h
        · exact .inl h
        · exact .inr (List.mem_cons_of_mem _ h)
      · rcases List.mem_cons.mp hp with h | h
        · exact .inr (by rw [h]; exact List.mem_cons_self)
        · rcases mem_put h with h | h
          · exact .inl h
          · exact .inr (List.mem_cons_of_mem _ h)

theorem sorted_put (k : Kind) (o : Obj) : ∀ h : Holder, Sorted h → Sorted (h.put k o)
  | [], _ => by simp [Holder.put, Sorted]
  | (a, x) :: r, hs => by
    have hs' := List.pairwise_cons.mp hs
    unfold Holder.put
    by_cases h1 : k.rank < a.rank
    · rw [if_pos h1]
      refine List.pairwise_cons.mpr ⟨?_, hs⟩
      intro p hp
      rcases List.mem_cons.mp hp with h | h
      · subst h; exact h1
      · exact Nat.lt_trans h1 (hs'.1 p h)
    · rw [if_neg h1]
      by_cases h2 : k = a
      · subst h2; rw [if_pos rfl]
        exact List.pairwise_cons.mpr ⟨hs'.1, hs'.2⟩
      · rw [if_neg h2]
        refine List.pairwise_cons.mpr ⟨?_, sorted_put k o r hs'.2⟩
        intro p hp
        rcases mem_put hp with h | h
        · subst h
          have : k.rank ≠ a.rank := fun e => h2 (rank_inj e)
          simp only at *; omega
        · exact hs'.1 p h

theorem sorted_erase (k : Kind) (h : Holder) (hs : Sorted h) : Sorted (h.erase k) := List.Pairwise.filter _ hs

theorem mem_iff_find {k : Kind} {o : Obj} : ∀ {h : Holder}, Sorted h → ((k, o) ∈ h ↔ h.find k = some o)
  | [], _ => by simp [Holder.find]
  | (a, x) :: r, hs => by
    have hs' := List.pairwise_cons.mp hs
    have ih := mem_iff_find (k := k) (o := o) hs'.2
    simp only [Holder.find, List.mem_cons, Prod.mk.injEq]
    by_cases h1 : a = k
    · subst h1
      simp only [true_and, if_pos, Option.some.injEq]
      constructor
      · rintro (h | h)
        · exact h.symm
        · have := hs'.1 _ h; simp at this
      · intro h; exact .inl h.symm
    · rw [if_neg h1, ← ih]
      constructor
      · rintro (h | h)
        · exact absurd h.1.symm h1
        · exact h
      · exact .inr

theorem find_none {k : Kind} : ∀ {h : Holder}, (∀ p ∈ h, p.1 ≠ k) → h.find k = none
  | [], _ => rfl
  | (a, x) :: r, hp => by
    have h1 : a ≠ k := hp (a, x) List.mem_cons_self
    simp only [Holder.find, if_neg h1]
    exact find_none fun p h => hp p (List.mem_cons_of_mem _ h)

theorem filterMap_congr' {α β} {f g : α → Option β} : ∀ {l : List α}, (∀ a ∈ l, f a = g a) → l.filterMap f = l.filterMap g
  | [], _ => rfl
  | a :: l, h => by
    rw [List.filterMap_cons, List.filterMap_cons, h a List.mem_cons_self,
      filterMap_congr' fun b hb => h b (List.mem_cons_of_mem _ hb)]

theorem listing_keys : ∀ (ks : List Kind) (h : Holder), Sorted h → ks.Pairwise (fun a b => a.rank < b.rank) → (∀ p ∈ h, p.1 ∈ ks) →
    h.map (·.2) = ks.filterMap fun k => h.find k
  | [], h, _, _, hm => by
    cases h with
    | nil => rfl
    | cons p r => exact absurd (hm p List.mem_cons_self) (by simp)
  | k :: ks, [], _, _, _ => by simp [Holder.find]
  | k :: ks, (a, x) :: r, hs, hk, hm => by
    have hk' := List.pairwise_cons.mp hk
    have hs' := List.pairwise_cons.mp hs
    by_cases h1 : a = k
    · subst h1
      have ih := listing_keys ks r hs'.2 hk'.2 (fun p hp => by
        have := hs'.1 p hp
        rcases List.mem_cons.mp (hm p (List.mem_cons_of_mem _ hp)) with h | h
        · simp only [h] at this; omega
        · exact h)
      rw [List.filterMap_cons]
      simp only [Holder.find, if_true, List.map_cons, ih, List.cons.injEq, true_and]
      apply filterMap_congr'
      intro k' hk''
      have : a ≠ k' := fun e => by have := hk'.1 k' hk''; rw [e] at this; omega
      simp [this]
    · have ha : a ∈ ks := by
        rcases List.mem_cons.mp (hm (a, x) List.mem_cons_self) with h | h
        · exact absurd h h1
        · exact h
      have hlt := hk'.1 a ha
      have hn : Holder.find k ((a, x) :: r) = none := find_none fun p hp e => by
        rcases List.mem_cons.mp hp with h | h
        · subst h; exact h1 e
        · have := hs'.1 p h; rw [e] at this; simp only at this; omega
      have ih := listing_keys ks ((a, x) :: r) hs hk'.2 (fun p hp => by
        rcases List.mem_cons.mp (hm p hp) with h | h
        · exfalso
          rcases List.mem_cons.mp hp with h' | h'
          · subst h'; exact h1 h
          · have := hs'.1 p h'; rw [h] at this; simp only at this; omega
        · exact h)
      rw [List.filterMap_cons, hn, ih]

/-- A sorted holder that has no limits of the voltage is told by the three others. -/
theorem listing {h : Holder} (hs : Sorted h) (hv : ∀ p ∈ h, p.1 ≠ .voltage) : h.map (·.2) = kinds.filterMap fun k => h.find k :=
  listing_keys kinds h hs (by simp [kinds, Kind.rank]) (fun p hp => by have := hv p hp; cases h' : p.1 <;> simp_all [kinds])

/-- What is under a key on a side. -/
def at' (w : Eqp) (side : Nat) (k : Kind) : Option Obj := (w.sides[side]?).bind fun h => h.find k

theorem placeIn_some {n : Nat} : ∀ {i : Nat} {hs : List Holder} {j k o}, placeIn n i hs = some (j, k, o) →
    ∃ h, i ≤ j ∧ hs[j - i]? = some h ∧ (k, o) ∈ h ∧ o.id = n
  | _, [], _, _, _, e => by cases e
  | i, h :: hs, j, k, o, e => by
    simp only [placeIn] at e
    cases hf : h.find? (fun p => p.2.id == n) with
    | some p =>
      rw [hf] at e; simp only [Option.some.injEq, Prod.mk.injEq] at e
      obtain ⟨rfl, rfl, rfl⟩ := e
      exact ⟨h, Nat.le_refl _, by simp, List.mem_of_find?_eq_some hf, by simpa using List.find?_some hf⟩
    | none =>
      rw [hf] at e
      obtain ⟨h', h1, h2, h3, h4⟩ := placeIn_some e
      refine ⟨h', by omega, ?_, h3, h4⟩
      have : j - i = (j - (i + 1)) + 1 := by omega
      rw [this, List.getElem?_cons_succ]; exact h2

theorem placeIn_none {n : Nat} : ∀ {i : Nat} {hs : List Holder}, placeIn n i hs = none → ∀ h ∈ hs, ∀ p ∈ h, p.2.id ≠ n
  | _, [], _ => by simp
  | i, h :: hs, e => by
    simp only [placeIn] at e
    cases hf : h.find? (fun p => p.2.id == n) with
    | some p => rw [hf] at e; cases e
    | none =>
      rw [hf] at e
      have ih := placeIn_none e
      intro h' hh p hp
      rcases List.mem_cons.mp hh with h1 | h1
      · subst h1
        have := List.find?_eq_none.mp hf p hp
        simpa using this
      · exact ih h' h1 p hp

/-- What holds of an equipment after any history. -/
structure Inv (n : Nat) (h : List Fact) (w : Eqp) : Prop where
  len : w.sides.length = n
  sorted : ∀ hd ∈ w.sides, Sorted hd
  cls : ∀ {i k o}, at' w i k = some o → o.cls = k ∧ k ≠ .voltage ∧ o.id < w.next
  uniq : ∀ {i k o j l p}, at' w i k = some o → at' w j l = some p → o.id = p.id → i = j ∧ k = l
  tie : ∀ i k, (at' w i k).map (fun o => (o.id, o.ll)) = latest i k h
  old : ∀ i k m ll, Fact.added i k m ll ∈ h → m < w.next

theorem at_fresh (n i : Nat) (k : Kind) : at' (fresh n) i k = none := by
  simp only [at', fresh, List.getElem?_replicate]
  split <;> rfl

theorem inv_fresh (n : Nat) : Inv n [] (fresh n) where
  len := by simp [fresh]
  sorted := by intro hd h; simp [fresh] at h; rw [h.2]; simp [Sorted]
  cls := by intro i k o h; rw [at_fresh] at h; cases h
  uniq := by intro i k o j l p h; rw [at_fresh] at h; cases h
  tie := by intro i k; rw [at_fresh]; rfl
  old := by intro i k m ll h; cases h

theorem place_some {n : Nat} {h : List Fact} {w : Eqp} (hi : Inv n h w) {m j k o} (e : place w m = some (j, k, o)) : at' w j k = some o ∧ o.id = m := by
  obtain ⟨hd, _, h2, h3, h4⟩ := placeIn_some e
  simp only [Nat.sub_zero] at h2
  refine ⟨?_, h4⟩
  simp only [at', h2, Option.bind_some]
  exact (mem_iff_find (hi.sorted hd (List.mem_of_getElem? h2))).mp h3

theorem place_none {n : Nat} {h : List Fact} {w : Eqp} (hi : Inv n h w) {m : Nat} (e : place w m = none) {j k o} (ha : at' w j k = some o) :
    o.id ≠ m := by
  simp only [at'] at ha
  cases hs : w.sides[j]? with
  | none => rw [hs] at ha; cases ha
  | some hd =>
    rw [hs] at ha; simp only [Option.bind_some] at ha
    have hm := List.mem_of_getElem? hs
    exact placeIn_none e hd hm (k, o) ((mem_iff_find (hi.sorted hd hm)).mpr ha)

/-- What a defined call does to the places. -/
inductive Does (w : Eqp) : Fact → Eqp → Prop where
  | nothing : Does w .nothing w
  | added {w' : Eqp} (side : Nat) (k : Kind) (ll : LL) (hk : k ≠ .voltage) (len : w'.sides.length = w.sides.length)
      (sorted : ∀ hd ∈ w'.sides, Sorted hd) (next : w'.next = w.next + 1) (hs : side < w.sides.length)
      (hat : ∀ i l, at' w' i l = if side = i ∧ k = l then some ⟨w.next, k, ll⟩ else at' w i l) : Does w (.added side k w.next ll) w'
  | removed {w' : Eqp} (side : Nat) (k : Kind) (o : Obj) (ho : at' w side k = some o) (len : w'.sides.length = w.sides.length)
      (sorted : ∀ hd ∈ w'.sides, Sorted hd) (next : w'.next = w.next)
      (hat : ∀ i l, at' w' i l = if side = i ∧ k = l then none else at' w i l) : Does w (.removed o.id) w'
  | changed {w' : Eqp} (side : Nat) (k : Kind) (o : Obj) (x : Dbl) (ho : at' w side k = some o) (len : w'.sides.length = w.sides.length)
      (sorted : ∀ hd ∈ w'.sides, Sorted hd) (next : w'.next = w.next)
      (hat : ∀ i l, at' w' i l = if side = i ∧ k = l then some { o with ll := { o.ll with permanent := x } } else at' w i l) :
      Does w (.changed o.id x) w'

theorem at_modify (w : Eqp) (side : Nat) (f : Holder → Holder) (nx i : Nat) (l : Kind) :
    at' ⟨w.sides.modify side f, nx⟩ i l = (w.sides[i]?).bind fun h => (if side = i then f h else h).find l := by
  simp only [at', List.getElem?_modify]
  cases w.sides[i]? <;> simp

theorem sorted_modify {w : Eqp} (hs : ∀ hd ∈ w.sides, Sorted hd) (side : Nat) (f : Holder → Holder) (hf : ∀ h, Sorted h → Sorted (f h)) :
    ∀ hd ∈ w.sides.modify side f, Sorted hd := by
  intro hd hm
  obtain ⟨i, hi⟩ := List.mem_iff_getElem?.mp hm
  rw [List.getElem?_modify] at hi
  cases hx : w.sides[i]? with
  | none => rw [hx] at hi; cases hi
  | some h0 =>
    rw [hx] at hi
    simp only [Option.map_eq_map, Option.map_some, Option.some.injEq] at hi
    have h1 := hs h0 (List.mem_of_getElem? hx)
    rw [← hi]
    split
    · exact hf _ h1
    · exact h1

theorem set_eq_modify {α} (l : List α) (i : Nat) (a b : α) (f : α → α) (h : l[i]? = some a) (hf : f a = b) : l.set i b = l.modify i f := by
  apply List.ext_getElem?
  intro j
  rw [List.getElem?_modify, List.getElem?_set]
  by_cases hij : i = j
  · subst hij
    have : i < l.length := by
      rcases Nat.lt_or_ge i l.length with h1 | h1
      · exact h1
      · rw [List.getElem?_eq_none h1] at h; cases h
    simp only [h, this, if_true, Option.map_eq_map, Option.map_some, hf]
  · simp [hij]

theorem step_does {n : Nat} {h : List Fact} {w : Eqp} (hi : Inv n h w) (o : Op) (hu : (step w o).1 ≠ .ub) :
    Does w (fact o (step w o).1) (step w o).2 := by
  cases o with
  | add side k p ts =>
    simp only [step, add] at hu ⊢
    cases hs : w.sides[side]? with
    | none => simp only [hs]; exact .nothing
    | some hd =>
      simp only [hs] at hu ⊢
      by_cases hk : k = .voltage
      · simp only [hk, if_true]; exact .nothing
      · simp only [hk, if_false] at hu ⊢
        cases ha : Limits.add p ts with
        | thrown => simp only; exact .nothing
        | ub => rw [ha] at hu; simp at hu
        | ok ll =>
          have hll : ll = ⟨p, ts⟩ := by
            simp only [Limits.add] at ha
            split at ha
            · cases ha
            · split at ha
              · simpa using ha.symm
              · cases ha
          subst hll
          have hset : w.sides.set side (hd.put k ⟨w.next, k, ⟨p, ts⟩⟩) = w.sides.modify side (Holder.put k ⟨w.next, k, ⟨p, ts⟩⟩) :=
            set_eq_modify _ _ _ _ _ hs rfl
          simp only [fact]
          refine .added side k ⟨p, ts⟩ hk (by simp) ?_ rfl ?_ ?_
          · simp only [hset]; exact sorted_modify hi.sorted side _ (fun h hh => sorted_put _ _ h hh)
          · rcases Nat.lt_or_ge side w.sides.length with h1 | h1
            · exact h1
            · rw [List.getElem?_eq_none h1] at hs; cases hs
          · intro i l
            rw [hset, at_modify]
            by_cases h1 : side = i
            · subst h1
              simp only [hs, Option.bind_some, if_true, true_and, at']
              exact find_put _ _ _ _ (hi.sorted hd (List.mem_of_getElem? hs))
            · simp only [h1, if_false, false_and]; rfl
  | remove m =>
    simp only [step, remove] at hu ⊢
    cases hp : place w m with
    | none => rw [hp] at hu; simp at hu
    | some q =>
      obtain ⟨j, k, o⟩ := q
      obtain ⟨h1, rfl⟩ := place_some hi hp
      have hc := (hi.cls h1).1
      simp only [fact]
      refine .removed j k o h1 (by simp) (sorted_modify hi.sorted j _ (fun h hh => sorted_erase _ h hh)) rfl ?_
      intro i l
      rw [at_modify]
      by_cases h2 : j = i
      · subst h2
        simp only [at'] at h1 ⊢
        cases hs : w.sides[j]? with
        | none => rw [hs] at h1; cases h1
        | some hd => simp only [Option.bind_some, if_true, true_and, find_erase, hc]
      · simp only [h2, if_false, false_and]; rfl
  | setPermanent m x =>
    simp only [step, setPermanent] at hu ⊢
    cases hp : place w m with
    | none => rw [hp] at hu; simp at hu
    | some q =>
      obtain ⟨j, k, o⟩ := q
      obtain ⟨h1, rfl⟩ := place_some hi hp
      simp only [Limits.setPermanentLimit]
      cases hx : Dbl.le x 0 with
      | true => simp only [if_true]; exact .nothing
      | false =>
        simp only [fact, Bool.false_eq_true, if_false]
        refine .changed j k o x h1 (by simp) (sorted_modify hi.sorted j _ (fun h hh => sorted_put _ _ h hh)) rfl ?_
        intro i l
        rw [at_modify]
        by_cases h2 : j = i
        · subst h2
          simp only [at'] at h1 ⊢
          cases hs : w.sides[j]? with
          | none => rw [hs] at h1; cases h1
          | some hd =>
            simp only [Option.bind_some, if_true, true_and]
            exact find_put _ _ _ _ (hi.sorted hd (List.mem_of_getElem? hs))
        · simp only [h2, if_false, false_and]; rfl

theorem inv_does {n : Nat} {h : List Fact} {w w' : Eqp} {f : Fact} (hi : Inv n h w) (hd : Does w f w') : Inv n (f :: h) w' := by
  cases hd with
  | nothing =>
    exact ⟨hi.len, hi.sorted, hi.cls, hi.uniq, hi.tie, fun i k m ll hm => by
      rcases List.mem_cons.mp hm with e | e
      · cases e
      · exact hi.old i k m ll e⟩
  | added side k ll hk len sorted next hs hat =>
    refine ⟨by rw [len, hi.len], sorted, ?_, ?_, ?_, ?_⟩
    · intro i l o ho
      rw [hat] at ho
      split at ho
      · rename_i h1; cases ho; exact ⟨h1.2, h1.2 ▸ hk, by simp only [next]; omega⟩
      · have := hi.cls ho; exact ⟨this.1, this.2.1, by omega⟩
    · intro i l o j l' p ho hp e
      rw [hat] at ho hp
      split at ho
      · rename_i h1
        split at hp
        · rename_i h2; exact ⟨h1.1.symm.trans h2.1, h1.2.symm.trans h2.2⟩
        · cases ho; have := (hi.cls hp).2.2; simp only at e; omega
      · split at hp
        · cases hp; have := (hi.cls ho).2.2; simp only at e; omega
        · exact hi.uniq ho hp e
    · intro i l
      rw [hat]
      simp only [latest]
      split
      · rfl
      · exact hi.tie i l
    · intro i l m ll' hm
      rcases List.mem_cons.mp hm with e | e
      · cases e; omega
      · have := hi.old i l m ll' e; omega
  | removed side k o ho len sorted next hat =>
    refine ⟨by rw [len, hi.len], sorted, ?_, ?_, ?_, ?_⟩
    · intro i l o' h1
      rw [hat] at h1
      split at h1
      · cases h1
      · rw [next]; exact hi.cls h1
    · intro i l o' j l' p h1 h2 e
      rw [hat] at h1 h2
      split at h1
      · cases h1
      · split at h2
        · cases h2
        · exact hi.uniq h1 h2 e
    · intro i l
      rw [hat]
      simp only [latest, ← hi.tie]
      split
      · rename_i h1; obtain ⟨rfl, rfl⟩ := h1; simp [ho, Option.filter]
      · rename_i h1
        cases hx : at' w i l with
        | none => rfl
        | some p =>
          have : p.id ≠ o.id := fun e => h1 (by have := hi.uniq ho hx e.symm; exact this)
          simp [this, Option.filter]
    · intro i l m ll' hm
      rcases List.mem_cons.mp hm with e | e
      · cases e
      · rw [next]; exact hi.old i l m ll' e
  | changed side k o x ho len sorted next hat =>
    refine ⟨by rw [len, hi.len], sorted, ?_, ?_, ?_, ?_⟩
    · intro i l o' h1
      rw [hat] at h1
      rw [next]
      split at h1
      · rename_i h2; obtain ⟨rfl, rfl⟩ := h2; cases h1; exact hi.cls (o := o) ho
      · exact hi.cls h1
    · intro i l o' j l' p h1 h2 e
      rw [hat] at h1 h2
      split at h1
      · rename_i h3; obtain ⟨rfl, rfl⟩ := h3
        split at h2
        · rename_i h4; exact h4
        · cases h1; exact hi.uniq ho h2 e
      · split at h2
        · rename_i h4; obtain ⟨rfl, rfl⟩ := h4; cases h2; exact hi.uniq h1 ho e
        · exact hi.uniq h1 h2 e
    · intro i l
      rw [hat]
      simp only [latest, ← hi.tie]
      split
      · rename_i h1; obtain ⟨rfl, rfl⟩ := h1; simp [ho]
      · rename_i h1
        cases hx : at' w i l with
        | none => rfl
        | some p =>
          have : p.id ≠ o.id := fun e => h1 (by have := hi.uniq ho hx e.symm; exact this)
          simp [this]
    · intro i l m ll' hm
      rcases List.mem_cons.mp hm with e | e
      · cases e
      · rw [next]; exact hi.old i l m ll' e

theorem reach_inv {n : Nat} {h : List Fact} {w : Eqp} (hr : Reach n h w) : Inv n h w := by
  induction hr with
  | init => exact inv_fresh n
  | step o _ hu ih => exact inv_does ih (step_does ih o hu)

end Verif.LimitSet
