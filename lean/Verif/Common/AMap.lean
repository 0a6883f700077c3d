/-!
`std::map` / `std::unordered_map` as association lists.

Only the documented map behaviour is used (lookup, insert, erase, membership).  Keys occur at most once in
the lists built by these operations (`NodupKeys`), which is proved, not assumed.  Iteration order is the
list order; where the C++ iteration order matters the model says which order is used.
-/

namespace Verif

/-- Association list used as a finite map. -/
abbrev AMap (κ : Type u) (ν : Type v) := List (κ × ν)

namespace AMap

variable {κ : Type u} {ν : Type v} [DecidableEq κ]

/-- `m.find(k)`: value bound to `k`. -/
def get? (m : AMap κ ν) (k : κ) : Option ν :=
  match m with
  | [] => none
  | (k', v) :: r => if k' = k then some v else get? r k

/-- `m.erase(k)`. -/
def erase (m : AMap κ ν) (k : κ) : AMap κ ν :=
  m.filter (fun p => !decide (p.1 = k))

/-- `m[k] = v`. -/
def set (m : AMap κ ν) (k : κ) (v : ν) : AMap κ ν :=
  match m with
  | [] => [(k, v)]
  | (k', v') :: r => if k' = k then (k, v) :: r else (k', v') :: set r k v

/-- `m.emplace(k, v)` / `m.insert({k, v})`: does nothing when the key is there. -/
def emplace (m : AMap κ ν) (k : κ) (v : ν) : AMap κ ν :=
  match m.get? k with
  | some _ => m
  | none => m ++ [(k, v)]

/-- Keys of the map. -/
def keys (m : AMap κ ν) : List κ := m.map Prod.fst

/-- Every key is bound once. -/
def NodupKeys (m : AMap κ ν) : Prop := (m.map Prod.fst).Nodup

@[simp] theorem get?_nil (k : κ) : AMap.get? ([] : AMap κ ν) k = none := rfl

theorem get?_cons (k' : κ) (v : ν) (r : AMap κ ν) (k : κ) :
    AMap.get? ((k', v) :: r) k = if k' = k then some v else AMap.get? r k := rfl

theorem get?_erase (m : AMap κ ν) (k k' : κ) :
    (m.erase k).get? k' = if k = k' then none else m.get? k' := by
  induction m with
  | nil => simp [erase]
  | cons p r ih =>
    obtain ⟨a, b⟩ := p
    by_cases h : a = k
    · have : AMap.erase ((a, b) :: r) k = AMap.erase r k := by simp [erase, h]
      rw [this, ih]
      subst h
      by_cases h2 : a = k' <;> simp [get?_cons, h2]
    · have : AMap.erase ((a, b) :: r) k = (a, b) :: AMap.erase r k := by simp [erase, h]
      rw [this, get?_cons, ih, get?_cons]
      by_cases h2 : a = k'
      · subst h2
        simp [Ne.symm h]
      · simp [h2]

theorem get?_set (m : AMap κ ν) (k k' : κ) (v : ν) :
    (m.set k v).get? k' = if k = k' then some v else m.get? k' := by
  induction m with
  | nil => simp [set, get?_cons]
  | cons p r ih =>
    obtain ⟨a, b⟩ := p
    unfold set
    by_cases h : a = k
    · subst h
      simp only [if_true, get?_cons]
      by_cases h2 : a = k' <;> simp [h2]
    · simp only [h, if_false, get?_cons, ih]
      by_cases h2 : a = k'
      · subst h2; simp [Ne.symm h]
      · simp [h2]

theorem get?_append (m n : AMap κ ν) (k : κ) :
    AMap.get? (m ++ n) k = (m.get? k).or (n.get? k) := by
  induction m with
  | nil => simp
  | cons p r ih =>
    obtain ⟨a, b⟩ := p
    simp only [List.cons_append, get?_cons, ih]
    by_cases h : a = k <;> simp [h]

theorem get?_emplace (m : AMap κ ν) (k k' : κ) (v : ν) :
    (m.emplace k v).get? k' =
      if k = k' then some ((m.get? k).getD v) else m.get? k' := by
  unfold emplace
  cases h : m.get? k with
  | some w =>
    by_cases h2 : k = k'
    · subst h2; simp [h]
    · simp [h2]
  | none =>
    simp only [get?_append, get?_cons, get?_nil]
    by_cases h2 : k = k'
    · subst h2; simp [h]
    · simp [h2]

theorem get?_eq_none_iff (m : AMap κ ν) (k : κ) :
    m.get? k = none ↔ k ∉ m.map Prod.fst := by
  induction m with
  | nil => simp
  | cons p r ih =>
    obtain ⟨a, b⟩ := p
    rw [get?_cons]
    by_cases h : a = k
    · simp [h]
    · simp [h, ih, Ne.symm h]

theorem mem_of_get? {m : AMap κ ν} {k : κ} {v : ν} (h : m.get? k = some v) : (k, v) ∈ m := by
  induction m with
  | nil => simp at h
  | cons p r ih =>
    obtain ⟨a, b⟩ := p
    rw [get?_cons] at h
    by_cases h2 : a = k
    · subst h2; simp at h; subst h; simp
    · simp [h2] at h; simp [ih h]

theorem get?_of_mem {m : AMap κ ν} (hn : m.NodupKeys) {k : κ} {v : ν} (h : (k, v) ∈ m) :
    m.get? k = some v := by
  induction m with
  | nil => simp at h
  | cons p r ih =>
    obtain ⟨a, b⟩ := p
    rw [get?_cons]
    have hn' : a ∉ r.map Prod.fst ∧ (r.map Prod.fst).Nodup := by
      unfold NodupKeys at hn
      rw [List.map_cons] at hn
      exact List.nodup_cons.mp hn
    rcases List.mem_cons.mp h with h | h
    · cases h; simp
    · have hne : a ≠ k := by
        intro he; subst he
        exact hn'.1 (List.mem_map_of_mem (f := Prod.fst) h)
      simp [hne]
      exact ih hn'.2 h

theorem mem_iff_get? {m : AMap κ ν} (hn : m.NodupKeys) {k : κ} {v : ν} :
    (k, v) ∈ m ↔ m.get? k = some v :=
  ⟨get?_of_mem hn, mem_of_get?⟩

omit [DecidableEq κ] in
@[simp] theorem nodupKeys_nil : NodupKeys ([] : AMap κ ν) := by simp [NodupKeys]

theorem nodupKeys_erase {m : AMap κ ν} (h : m.NodupKeys) (k : κ) : (m.erase k).NodupKeys := by
  unfold NodupKeys erase at *
  exact h.sublist (List.Sublist.map _ List.filter_sublist)

theorem keys_set (m : AMap κ ν) (k : κ) (v : ν) :
    (m.set k v).map Prod.fst = if k ∈ m.map Prod.fst then m.map Prod.fst else m.map Prod.fst ++ [k] := by
  induction m with
  | nil => simp [set]
  | cons p r ih =>
    obtain ⟨a, b⟩ := p
    unfold set
    by_cases h : a = k
    · simp [h]
    · simp only [h, if_false, List.map_cons, ih]
      by_cases h2 : k ∈ r.map Prod.fst
      · simp only [h2, if_true, List.mem_cons, or_true]
      · have : ¬ k ∈ (a :: r.map Prod.fst) := by
          simp only [List.mem_cons, not_or]
          exact ⟨Ne.symm h, h2⟩
        simp only [h2, this, if_false, List.cons_append]

theorem nodupKeys_set {m : AMap κ ν} (h : m.NodupKeys) (k : κ) (v : ν) : (m.set k v).NodupKeys := by
  unfold NodupKeys at *
  rw [keys_set]
  split
  · exact h
  · rename_i hk
    rw [List.nodup_append]
    refine ⟨h, by simp, ?_⟩
    intro a ha b hb
    simp only [List.mem_singleton] at hb
    subst hb
    intro hab; subst hab; exact hk ha

theorem nodupKeys_emplace {m : AMap κ ν} (h : m.NodupKeys) (k : κ) (v : ν) :
    (m.emplace k v).NodupKeys := by
  unfold emplace
  split
  · exact h
  · rename_i hk
    have hk' := (get?_eq_none_iff m k).mp hk
    unfold NodupKeys at *
    rw [List.map_append, List.nodup_append]
    refine ⟨h, by simp, ?_⟩
    intro a ha b hb
    simp only [List.map_cons, List.map_nil, List.mem_singleton] at hb
    subst hb
    intro hab; subst hab; exact hk' ha

end AMap

end Verif
