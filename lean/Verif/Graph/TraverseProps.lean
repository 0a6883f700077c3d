import Verif.Graph.TraverseLemmas

/-!
C15: a traversal terminates and visits exactly the vertices reachable through accepted edges.
-/

namespace Verif.Graph

open Verif

variable {ν ε : Type}

/-- The caller's `encountered` vector marks the vertex. -/
def Enc (enc : List Bool) (u : Nat) : Prop := enc[u]? = some true

/-- C15: from a live vertex the traversal ends normally (no endless recursion, no access out of range); afterwards the
    encountered vertices are those that already were and exactly the vertices reachable from the start by edges accepted
    by the callback without entering a vertex already encountered. -/
theorem traverse_visits_reachable {g : G ν ε} (h : Reached g) (acc : Nat → Nat → Nat → Bool) {v : Nat}
    (hv : g.vertexExists v = true) {enc : List Bool} (hlen : enc.length = g.vertices.length) :
    ∃ st, g.traverse acc v enc = .ok st ∧ st.enc.length = g.vertices.length ∧
      ∀ u, Enc st.enc u ↔ Enc enc u ∨ Reach (StepR g acc) (Enc enc) v u := by
  obtain ⟨adj, e1, hadj⟩ := adjacency_ok h.wf
  have hv' : g.vertexAt v ≠ none := Option.isSome_iff_ne_none.mp hv
  have hlt : v < (TSt.mk enc []).enc.length := by show v < enc.length; rw [hlen]; exact vertexAt_lt hv'
  obtain ⟨st, r1, r2⟩ := traverseRec_post h.wf acc hadj (g.vertices.length + 1) v ⟨enc, []⟩ hv' hlen (by
    have := List.count_le_length (a := false) (l := ((TSt.mk enc []).mark v).enc)
    rw [len_mark] at this
    have h2 : (TSt.mk enc []).enc.length = g.vertices.length := hlen
    omega)
  refine ⟨st, ?_, ?_, ?_⟩
  · unfold G.traverse
    simp only [hv, Bool.not_true, Bool.false_eq_true, if_false]
    rw [e1]; exact r1
  · rw [r2.len, len_mark]; exact hlen
  · intro u
    have hm : ∀ x, ((TSt.mk enc []).mark v).M x ↔ x = v ∨ Enc enc x := fun x => M_mark hlt
    constructor
    · intro hu
      by_cases h0 : ((TSt.mk enc []).mark v).M u
      · rcases (hm u).mp h0 with rfl | h0
        · exact Or.inr .refl
        · exact Or.inl h0
      · exact Or.inr ((r2.reach u hu h0).mono (fun x hx => (hm x).mpr (Or.inr hx)))
    · rintro (hu | hu)
      · exact r2.mono u ((hm u).mpr (Or.inr hu))
      · have aux : st.M u ∧ (u = v ∨ ¬ Enc enc u) := by
          induction hu with
          | refl => exact ⟨r2.mono v ((hm v).mpr (Or.inl rfl)), Or.inl rfl⟩
          | @step a b _ hab hb ih =>
            refine ⟨?_, Or.inr hb⟩
            by_cases hav : a = v
            · subst hav
              obtain ⟨e, he, ed, k1, k2, k3⟩ := (occ_facts g acc a).2 b hab
              exact r2.here e he ed k1 b k2 k3
            · refine r2.closed a ih.1 ?_ b hab
              intro hh
              rcases (hm a).mp hh with hh | hh
              · exact hav hh
              · rcases ih.2 with h2 | h2
                · exact hav h2
                · exact h2 hh
        exact aux.1

/-- C15: the calls made to the callback.  Each call is for a live edge and its own two end points, from a vertex visited
    by this traversal (the start or a vertex accepted by an earlier or later call) towards a vertex that was not
    encountered; the accepted vertices are pairwise distinct, and are exactly the vertices newly encountered (besides the
    start); the callback was asked about every edge from a visited vertex to a vertex left aside. -/
theorem traverse_calls {g : G ν ε} (h : Reached g) (acc : Nat → Nat → Nat → Bool) {v : Nat}
    (hv : g.vertexExists v = true) {enc : List Bool} (hlen : enc.length = g.vertices.length) {st : TSt}
    (hst : g.traverse acc v enc = .ok st) :
    (∀ c ∈ st.log, (∃ ed, g.edgeAt c.edge = some ed ∧ Joins ed c.src c.dst) ∧ c.go = acc c.src c.edge c.dst ∧
      Reach (StepR g acc) (Enc enc) v c.src ∧ ¬ Enc enc c.dst ∧ c.dst ≠ v) ∧
    ((st.log.filter Call.go).map Call.dst).Nodup ∧
    (∀ u, u ∈ (st.log.filter Call.go).map Call.dst ↔ Enc st.enc u ∧ ¬ Enc enc u ∧ u ≠ v) ∧
    (∀ u, Reach (StepR g acc) (Enc enc) v u → ∀ e ed w, g.edgeAt e = some ed → Joins ed u w → ¬ Enc st.enc w →
      (⟨u, e, w, acc u e w⟩ : Call) ∈ st.log) := by
  obtain ⟨adj, e1, hadj⟩ := adjacency_ok h.wf
  have hv' : g.vertexAt v ≠ none := Option.isSome_iff_ne_none.mp hv
  have hlt : v < (TSt.mk enc []).enc.length := by show v < enc.length; rw [hlen]; exact vertexAt_lt hv'
  obtain ⟨st1, r1, r2⟩ := traverseRec_post h.wf acc hadj (g.vertices.length + 1) v ⟨enc, []⟩ hv' hlen (by
    have := List.count_le_length (a := false) (l := ((TSt.mk enc []).mark v).enc)
    rw [len_mark] at this
    have h2 : (TSt.mk enc []).enc.length = g.vertices.length := hlen
    omega)
  have hst1 : st1 = st := by
    unfold G.traverse at hst
    simp only [hv, Bool.not_true, Bool.false_eq_true, if_false] at hst
    rw [e1, Out.bind_ok, r1] at hst
    exact Out.ok.inj hst
  subst hst1
  have hm : ∀ x, ((TSt.mk enc []).mark v).M x ↔ x = v ∨ Enc enc x := fun x => M_mark hlt
  have hvis : ∀ u, Reach (StepR g acc) (Enc enc) v u → Enc st1.enc u ∧ (u = v ∨ ¬ Enc enc u) := by
    intro u hu
    obtain ⟨st2, q1, _, q3⟩ := traverse_visits_reachable h acc hv hlen
    rw [hst] at q1; cases q1
    refine ⟨(q3 u).mpr (Or.inr hu), ?_⟩
    cases hu with
    | refl => exact Or.inl rfl
    | step _ _ hn => exact Or.inr hn
  have hasked : ∀ u, Reach (StepR g acc) (Enc enc) v u → ∀ e ed w, g.edgeAt e = some ed → Joins ed u w →
      ¬ Enc st1.enc w → (⟨u, e, w, acc u e w⟩ : Call) ∈ st1.log := by
    intro u hu e ed w hed hj hw
    have : Asked acc st1 u e w := by
      by_cases huv : u = v
      · subst huv
        refine r2.askedHere e (mem_occ.mpr ⟨ed, hed, ?_⟩) ed hed w hj
        rcases hj with h | h
        · exact Or.inl h.1
        · exact Or.inr h.1
      · obtain ⟨k1, k2⟩ := hvis u hu
        refine r2.asked u k1 ?_ e ed hed w hj
        rw [hm]
        rintro (h | h)
        · exact huv h
        · rcases k2 with k2 | k2
          · exact huv k2
          · exact k2 h
    rcases this with h | h
    · exact absurd h hw
    · exact h
  obtain ⟨calls, l1, l2, l3, l4⟩ := r2.log
  have l1' : st1.log = calls := by rw [l1]; rfl
  rw [l1'] at hasked ⊢
  refine ⟨?_, l3, ?_, hasked⟩
  · intro c hc
    obtain ⟨k1, k2, k3, k4⟩ := l2 c hc
    refine ⟨k1, k2, ?_, fun hh => k4 ((hm _).mpr (Or.inr hh)), fun hh => k4 ((hm _).mpr (Or.inl hh))⟩
    rcases k3 with k3 | ⟨k3, k5⟩
    · rw [k3]; exact .refl
    · exact (r2.reach _ k3 k5).mono (fun x hx => (hm x).mpr (Or.inr hx))
  · intro u
    rw [l4, hm]
    constructor
    · rintro ⟨h1, h2⟩; exact ⟨h1, fun hh => h2 (Or.inr hh), fun hh => h2 (Or.inl hh)⟩
    · rintro ⟨h1, h2, h3⟩
      refine ⟨h1, ?_⟩
      rintro (hh | hh)
      · exact h3 hh
      · exact h2 hh

/-- From an unknown vertex the traversal throws. -/
theorem traverse_unknown {g : G ν ε} (acc : Nat → Nat → Nat → Bool) {v : Nat} (hv : g.vertexExists v = false)
    (enc : List Bool) : g.traverse acc v enc = .thrown := by
  unfold G.traverse; simp [hv]

/-- C15 without previously encountered vertices. -/
theorem traverseFrom_reachable {g : G ν ε} (h : Reached g) (acc : Nat → Nat → Nat → Bool) {v : Nat}
    (hv : g.vertexExists v = true) :
    ∃ st, g.traverseFrom acc v = .ok st ∧
      ∀ u, Enc st.enc u ↔ Reach (StepR g acc) (fun _ => False) v u := by
  obtain ⟨st, h1, _, h3⟩ := traverse_visits_reachable h acc hv (enc := List.replicate g.vertices.length false) (by simp)
  have hE : ∀ u, ¬ Enc (List.replicate g.vertices.length false) u := by
    intro u hu
    unfold Enc at hu
    rw [List.getElem?_replicate] at hu
    split at hu <;> simp at hu
  refine ⟨st, h1, fun u => ?_⟩
  rw [h3]
  constructor
  · rintro (hh | hh)
    · exact absurd hh (hE u)
    · exact hh.mono (fun x hx => hx.elim)
  · intro hh
    exact Or.inr (hh.mono (fun x hx => absurd hx (hE x)))

/-- A path of edges with a cycle, a self loop, a hole and a separate vertex; edge 4 is refused by the callback. -/
def tSample : G Nat Nat := run {} [.addVertexIfNotPresent 6, .addVertexIfNotPresent 0, .addVertexIfNotPresent 1,
  .addVertexIfNotPresent 2, .addVertexIfNotPresent 4, .addEdge 0 1 none, .addEdge 2 1 none, .addEdge 2 0 none,
  .addEdge 1 1 none, .addEdge 1 4 none]

def tAcc : Nat → Nat → Nat → Bool := fun _ e _ => e != 4

example : tSample.traverseFrom tAcc 0 =
    .ok ⟨[true, true, true, false, false, false, false],
      [⟨0, 0, 1, true⟩, ⟨1, 1, 2, true⟩, ⟨1, 4, 4, false⟩]⟩ := by decide

example : ∃ st, tSample.traverseFrom tAcc 0 = .ok st ∧
    ∀ u, Enc st.enc u ↔ Reach (StepR tSample tAcc) (fun _ => False) 0 u :=
  traverseFrom_reachable ⟨_, rfl⟩ tAcc (by decide)

end Verif.Graph
