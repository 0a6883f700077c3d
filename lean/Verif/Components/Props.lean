import Verif.Components.Lemmas

/-! C17: numbering of connected components. -/

namespace Verif.Components

open Verif

/-- The search followed by any admissible sort, in terms of the numbers found by the search. -/
theorem finish_ok {adj : Adj} {c : Nat} {st : St} (h : Inv adj c st) (hall : ∀ v, v < adj.length → st.M v)
    {ordered : List Nat} (ho : SortedBySize c st.size ordered) :
    ∃ (res : Result) (pos : Nat → Nat), finish c st ordered = .ok res ∧ res.number.length = adj.length ∧ res.size.length = c ∧
      (∀ k, k < c → pos k < c) ∧ (∀ k k', k < c → k' < c → pos k = pos k' → k = k') ∧
      (∀ i, i < c → ∃ k, k < c ∧ pos k = i) ∧
      (∀ (u k : Nat), st.num[u]? = some (some k) → res.number[u]? = some (pos k)) ∧
      (∀ k, k < c → res.size[pos k]? = st.size[k]?) ∧
      res.size.Pairwise (fun a b => b ≤ a) := by
  obtain ⟨hperm, hsort⟩ := ho
  have hcle : c ≤ adj.length := by have := h.cc; omega
  have hmem : ∀ k, k ∈ ordered ↔ k < c := fun k => by rw [hperm.mem_iff]; simp
  have hnd : ordered.Nodup := hperm.nodup_iff.mpr List.nodup_range
  have hlen : ordered.length = c := by rw [hperm.length_eq]; simp
  -- position
  have hget : ∀ k, k < c → ∃ t : Nat, t < c ∧ ordered[t]? = some k := by
    intro k hk
    obtain ⟨t, ht, e⟩ := List.mem_iff_getElem.mp ((hmem k).mpr hk)
    exact ⟨t, by omega, by rw [List.getElem?_eq_getElem ht, e]⟩
  have hord : ∀ (t : Nat) k, ordered[t]? = some k → (assign ordered 0 (List.replicate c 0))[k]? = some t := by
    intro t k ht
    have := assign_get (i := 0) (ord := List.replicate c 0) hnd (fun k hk => by simpa using (hmem k).mp hk) t k ht
    simpa using this
  let ord := assign ordered 0 (List.replicate c 0)
  have hordlen : ord.length = c := by simp [ord, assign_length]
  let pos : Nat → Nat := fun k => (ord[k]?).getD 0
  have hpos : ∀ (t : Nat) k, ordered[t]? = some k → pos k = t := by
    intro t k ht; simp only [pos, ord, hord t k ht, Option.getD_some]
  have hordpos : ∀ k, k < c → ord[k]? = some (pos k) := by
    intro k hk
    obtain ⟨t, _, ht⟩ := hget k hk
    rw [hpos t k ht]; exact hord t k ht
  have hposlt : ∀ k, k < c → pos k < c := by
    intro k hk
    obtain ⟨t, h1, ht⟩ := hget k hk
    rw [hpos t k ht]; exact h1
  have hinj : ∀ k k', k < c → k' < c → pos k = pos k' → k = k' := by
    intro k k' hk hk' he
    obtain ⟨t, _, ht⟩ := hget k hk
    obtain ⟨t', _, ht'⟩ := hget k' hk'
    rw [hpos t k ht, hpos t' k' ht'] at he
    subst he
    rw [ht] at ht'; cases ht'; rfl
  have hsurj : ∀ i, i < c → ∃ k, k < c ∧ pos k = i := by
    intro i hi
    have : i < ordered.length := by omega
    refine ⟨ordered[i], (hmem _).mp (List.getElem_mem this), hpos i _ (List.getElem?_eq_getElem this)⟩
  have htl : (st.size.take c).length = c := by rw [List.length_take, h.good.lsize]; omega
  have hol : ((st.size ++ List.replicate (c - st.size.length) 0).take c).length = c := by
    rw [List.length_take, List.length_append, h.good.lsize]; omega
  obtain ⟨sz, e1, l1, a1, _⟩ := resizeLoop_ok (compSize := st.size.take c) (ord := ord) (ks := ordered)
    (out := (st.size ++ List.replicate (c - st.size.length) 0).take c)
    (fun k hk => by rw [htl]; exact (hmem k).mp hk)
    (fun k hk => ⟨pos k, hordpos k ((hmem k).mp hk), by rw [hol]; exact hposlt k ((hmem k).mp hk)⟩)
    (fun k hk k' hk' he => by
      have hk := (hmem k).mp hk
      have hk' := (hmem k').mp hk'
      rw [hordpos k hk, hordpos k' hk'] at he
      exact hinj k k' hk hk' (by simpa using he))
  obtain ⟨nb, e2, l2, a2⟩ := renumber_ok (ord := ord) (num := st.num) (by
    intro x hx
    obtain ⟨u, hu, e⟩ := List.mem_iff_getElem.mp hx
    obtain ⟨k, hk⟩ := hall u (by rw [← h.good.lnum]; exact hu)
    rw [List.getElem?_eq_getElem hu, e] at hk
    simp only [Option.some.injEq] at hk
    exact ⟨k, hk, by rw [hordlen]; exact h.lt u k (by rw [List.getElem?_eq_getElem hu, e, hk])⟩)
  have hszpos : ∀ k, k < c → sz[pos k]? = st.size[k]? := by
    intro k hk
    rw [a1 k ((hmem k).mpr hk) (pos k) (hordpos k hk), List.getElem?_take, if_pos hk]
  refine ⟨⟨nb, sz⟩, pos, ?_, ?_, ?_, hposlt, hinj, hsurj, ?_, hszpos, ?_⟩
  · unfold finish
    simp only []
    rw [show resizeLoop (st.size.take c) (assign ordered 0 (List.replicate c 0)) ordered _ = .ok sz from e1, Out.bind_ok,
      show renumber (assign ordered 0 (List.replicate c 0)) st.num = .ok nb from e2]
    rfl
  · simp only []; rw [l2, h.good.lnum]
  · simp only []; rw [l1, hol]
  · intro u k hu
    simp only []
    rw [a2 u k hu, hordpos k (h.lt u k hu)]
  · simp only []
    rw [List.pairwise_iff_getElem]
    intro i j hi hj hij
    rw [l1, hol] at hi hj
    have hio : i < ordered.length := by omega
    have hjo : j < ordered.length := by omega
    have := (List.pairwise_iff_getElem.mp hsort) i j hio hjo hij
    have gi := hszpos ordered[i] ((hmem _).mp (List.getElem_mem hio))
    have gj := hszpos ordered[j] ((hmem _).mp (List.getElem_mem hjo))
    rw [hpos i _ (List.getElem?_eq_getElem hio)] at gi
    rw [hpos j _ (List.getElem?_eq_getElem hjo)] at gj
    rw [← gi, ← gj, List.getElem?_eq_getElem (by rw [l1, hol]; exact hj), List.getElem?_eq_getElem (by rw [l1, hol]; exact hi)] at this
    simpa using this

theorem count_eq_of_get {α β : Type} [BEq α] [LawfulBEq α] [BEq β] [LawfulBEq β] (xs : List α) : ∀ (ys : List β) (a : α) (b : β),
    xs.length = ys.length → (∀ i : Nat, xs[i]? = some a ↔ ys[i]? = some b) → xs.count a = ys.count b := by
  induction xs with
  | nil => intro ys a b h _; cases ys <;> simp_all
  | cons x xs ih =>
    intro ys a b h hi
    cases ys with
    | nil => simp at h
    | cons y ys =>
      have h0 := hi 0
      have := ih ys a b (by simpa using h) (fun i => by simpa using hi (i + 1))
      simp only [List.count_cons, this]
      simp only [List.getElem?_cons_zero, Option.some.injEq] at h0
      by_cases hx : x = a
      · simp [hx, h0.mp hx]
      · have hy : y ≠ b := fun hh => hx (h0.mpr hh)
        simp [hx, hy]

/-- C17 (every adjacency list whose entries are vertices): the computation ends normally whatever `std::sort` does with
    equal sizes, every vertex gets a number, the numbers used are exactly `0 .. size.length-1`, `size[k]` is the number of
    vertices numbered `k`, and the sizes decrease. -/
theorem components_numbered {adj : Adj} (hr : InRange adj) :
    (∃ r, Compute adj r) ∧
    ∀ r, Compute adj r → ∃ res, r = .ok res ∧ res.number.length = adj.length ∧
      (∀ k, k < res.size.length ↔ ∃ u : Nat, res.number[u]? = some k) ∧
      (∀ (k : Nat) s, res.size[k]? = some s → s = res.number.count k) ∧
      res.size.Pairwise (fun a b => b ≤ a) := by
  obtain ⟨c, st, e, h, hall, _⟩ := search_ok hr
  constructor
  · let ordered := (List.range c).mergeSort (fun i j => decide ((st.size[j]?).getD 0 ≤ (st.size[i]?).getD 0))
    refine ⟨finish c st ordered, ?_⟩
    unfold Compute
    rw [e]
    refine ⟨ordered, ⟨List.mergeSort_perm _ _, ?_⟩, rfl⟩
    have := List.pairwise_mergeSort (le := fun i j : Nat => decide ((st.size[j]?).getD 0 ≤ (st.size[i]?).getD 0))
      (fun a b c => by simp; omega) (fun a b => by simp; omega) (List.range c)
    exact this.imp (fun hh => by simpa using hh)
  · intro r hrr
    unfold Compute at hrr
    rw [e] at hrr
    obtain ⟨ordered, ho, rfl⟩ := hrr
    obtain ⟨res, pos, f, l1, l2, p1, p2, p3, n1, s1, dec⟩ := finish_ok h hall ho
    have hnum : ∀ (u : Nat) i, res.number[u]? = some i → ∃ k, st.num[u]? = some (some k) ∧ k < c ∧ pos k = i := by
      intro u i hu
      have hlt : u < adj.length := by rw [← l1]; exact (List.getElem?_eq_some_iff.mp hu).1
      obtain ⟨k, hk⟩ := hall u hlt
      have := n1 u k hk
      rw [hu] at this
      exact ⟨k, hk, h.lt u k hk, by simpa using this.symm⟩
    refine ⟨res, f, l1, ?_, ?_, dec⟩
    · intro i
      rw [l2]
      constructor
      · intro hi
        obtain ⟨k, hk, rfl⟩ := p3 i hi
        obtain ⟨u, hu⟩ := h.all k hk
        exact ⟨u, n1 u k hu⟩
      · rintro ⟨u, hu⟩
        obtain ⟨k, _, hk, rfl⟩ := hnum u i hu
        exact p1 k hk
    · intro i s hs
      have hi : i < c := by rw [← l2]; exact (List.getElem?_eq_some_iff.mp hs).1
      obtain ⟨k, hk, rfl⟩ := p3 i hi
      rw [s1 k hk] at hs
      rw [h.good.exact k s hs]
      apply count_eq_of_get
      · rw [l1, h.good.lnum]
      · intro u
        constructor
        · intro hu; exact n1 u k hu
        · intro hu
          obtain ⟨k', hk', hk'c, he⟩ := hnum u _ hu
          rw [p2 k' k hk'c hk he] at hk'; exact hk'

/-- C17 (adjacency lists of undirected graphs): same number exactly when linked by a path. -/
theorem components_connected {adj : Adj} (hr : InRange adj) (hs : Symmetric adj) {r : Out Result} (hc : Compute adj r) :
    ∃ res, r = .ok res ∧ ∀ u v, u < adj.length → v < adj.length →
      (res.number[u]? = res.number[v]? ↔ Path adj u v) := by
  obtain ⟨c, st, e, h, hall, hconst⟩ := search_ok hr
  unfold Compute at hc
  rw [e] at hc
  obtain ⟨ordered, ho, rfl⟩ := hc
  obtain ⟨res, pos, f, l1, l2, p1, p2, p3, n1, s1, dec⟩ := finish_ok h hall ho
  refine ⟨res, f, ?_⟩
  intro u v hu hv
  obtain ⟨k, hk⟩ := hall u hu
  obtain ⟨k', hk'⟩ := hall v hv
  rw [n1 u k hk, n1 v k' hk']
  have hC := hconst hs
  constructor
  · intro he
    have := p2 k k' (h.lt u k hk) (h.lt v k' hk') (by simpa using he)
    subst this
    obtain ⟨r, hr'⟩ := h.conn k (h.lt u k hk)
    exact Path.trans (Path.symm hs (hr' u hk)) (hr' v hk')
  · intro hp
    have : ∀ w, Path adj u w → st.num[w]? = some (some k) := by
      intro w hw
      induction hw with
      | refl => exact hk
      | step _ hn ih => exact hC _ _ ih _ hn
    have := this v hp
    rw [hk'] at this
    simp only [Option.some.injEq] at this
    rw [this]

/-- Component 0 is a largest one. -/
theorem component_zero_largest {adj : Adj} (hr : InRange adj) {res : Result} (hc : Compute adj (.ok res)) :
    ∀ (k : Nat) s s0, res.size[k]? = some s → res.size[0]? = some s0 → s ≤ s0 := by
  obtain ⟨res', e, _, _, _, dec⟩ := (components_numbered hr).2 _ hc
  cases e
  intro k s s0 hk h0
  obtain ⟨hkl, hk⟩ := List.getElem?_eq_some_iff.mp hk
  obtain ⟨h0l, h0⟩ := List.getElem?_eq_some_iff.mp h0
  by_cases hk0 : k = 0
  · subst hk0; omega
  · have := (List.pairwise_iff_getElem.mp dec) 0 k h0l hkl (by omega)
    omega

/-- Vertices 0 and 3 alone with each other, 1-2-4 a triangle with a repeated entry, 5 isolated with a self loop. -/
def sample : Adj := [[3], [2, 2, 4], [1, 1, 4], [0], [1, 2], [5]]

instance (adj : Adj) : Decidable (InRange adj) :=
  decidable_of_iff (∀ ws ∈ adj, ∀ w ∈ ws, w < adj.length)
    ⟨fun h _ _ he w hw => h _ (List.mem_of_getElem? he) w hw,
     fun h ws hws w hw => by
      obtain ⟨i, hi, e⟩ := List.mem_iff_getElem.mp hws
      exact h i ws (by rw [List.getElem?_eq_getElem hi, e]) w hw⟩

example : InRange sample ∧ search sample = .ok (3, ⟨[some 0, some 1, some 1, some 0, some 1, some 2], [2, 3, 1, 0, 0, 0]⟩) ∧
    Compute sample (.ok ⟨[1, 0, 0, 1, 0, 2], [3, 2, 1]⟩) := by
  refine ⟨by decide, by decide, ?_⟩
  have : search sample = .ok (3, ⟨[some 0, some 1, some 1, some 0, some 1, some 2], [2, 3, 1, 0, 0, 0]⟩) := by decide
  unfold Compute
  rw [this]
  exact ⟨[1, 0, 2], ⟨by decide, by decide⟩, by decide⟩

example : Symmetric sample := by
  rintro a b ⟨ws, h1, h2⟩
  have ha : a < 6 := (List.getElem?_eq_some_iff.mp h1).1
  have : a = 0 ∨ a = 1 ∨ a = 2 ∨ a = 3 ∨ a = 4 ∨ a = 5 := by omega
  rcases this with rfl | rfl | rfl | rfl | rfl | rfl <;>
    (cases h1; simp only [List.mem_cons, List.not_mem_nil, or_false] at h2
     rcases h2 with rfl | rfl | rfl <;> exact ⟨_, rfl, by decide⟩)

/-- The symmetry is needed: with a one-way entry the numbers follow the order of the vertices. -/
example : search [[], [0]] = .ok (2, ⟨[some 0, some 1], [1, 1]⟩) ∧ search [[1], []] = .ok (1, ⟨[some 0, some 0], [2, 0]⟩) := by
  decide

end Verif.Components
