import Verif.Graph.TraverseProps

/-!
C16: the path search returns exactly the simple paths to the first accepted vertex, each once, shortest first.
-/

namespace Verif.Graph

open Verif

variable {ν ε : Type}

/-- `Walk g cancel v es ws`: starting at `v`, the edges `es` lead through the vertices `ws` in this order; no edge is
    cancelled. -/
inductive Walk (g : G ν ε) (cancel : Option ε → Bool) : Nat → List Nat → List Nat → Prop
  | nil (v : Nat) : Walk g cancel v [] []
  | cons {v w e : Nat} {ed : Edge ε} {es ws : List Nat} :
      g.edgeAt e = some ed → cancel ed.obj = false → Joins ed v w → Walk g cancel w es ws →
      Walk g cancel v (e :: es) (w :: ws)

/-- The vertex is accepted by `pathComplete`. -/
def Accepted (g : G ν ε) (complete : Option ν → Bool) (u : Nat) : Prop :=
  ∃ o, g.vertexAt u = some o ∧ complete o = true

/-- The paths to find: no vertex twice, no cancelled edge, ends at an accepted vertex, no accepted vertex before. -/
def IsPath (g : G ν ε) (complete : Option ν → Bool) (cancel : Option ε → Bool) (v : Nat) (p : List Nat) : Prop :=
  ∃ ws w, Walk g cancel v p (ws ++ [w]) ∧ (v :: (ws ++ [w])).Nodup ∧
    (∀ u ∈ ws, ¬ Accepted g complete u) ∧ Accepted g complete w

/-! ### Helper lemmas -/

/-- Same with forbidden vertices. -/
def PathAvoid (g : G ν ε) (complete : Option ν → Bool) (cancel : Option ε → Bool) (M : Nat → Prop) (v : Nat)
    (p : List Nat) : Prop :=
  ∃ ws w, Walk g cancel v p (ws ++ [w]) ∧ (v :: (ws ++ [w])).Nodup ∧ (∀ u ∈ ws ++ [w], ¬ M u) ∧
    (∀ u ∈ ws, ¬ Accepted g complete u) ∧ Accepted g complete w

/-- First edge of a path. -/
def Ext (g : G ν ε) (complete : Option ν → Bool) (cancel : Option ε → Bool) (M : Nat → Prop) (v e : Nat)
    (q : List Nat) : Prop :=
  ∃ ed w, g.edgeAt e = some ed ∧ cancel ed.obj = false ∧ Joins ed v w ∧ ¬ M w ∧
    ((Accepted g complete w ∧ q = []) ∨ (¬ Accepted g complete w ∧ PathAvoid g complete cancel M w q))

theorem pathAvoid_iff {g : G ν ε} {complete : Option ν → Bool} {cancel : Option ε → Bool} {M : Nat → Prop} {v : Nat}
    (hv : M v) {p : List Nat} :
    PathAvoid g complete cancel M v p ↔ ∃ e q, p = e :: q ∧ Ext g complete cancel M v e q := by
  constructor
  · rintro ⟨ws, w, hw, hn, hM, hno, hacc⟩
    cases ws with
    | nil =>
      cases hw with
      | cons h1 h2 h3 h4 =>
        cases h4
        exact ⟨_, _, rfl, _, w, h1, h2, h3, hM w (by simp), Or.inl ⟨hacc, rfl⟩⟩
    | cons x ws =>
      cases hw with
      | cons h1 h2 h3 h4 =>
        refine ⟨_, _, rfl, _, x, h1, h2, h3, hM x (by simp), Or.inr ⟨hno x (by simp), ws, w, h4, ?_, ?_, ?_, hacc⟩⟩
        · exact (List.nodup_cons.mp hn).2
        · intro u hu; exact hM u (by simp at hu ⊢; exact Or.inr hu)
        · intro u hu; exact hno u (List.mem_cons_of_mem _ hu)
  · rintro ⟨e, q, rfl, ed, w, h1, h2, h3, h4, h5⟩
    have hvw : v ≠ w := by rintro rfl; exact h4 hv
    rcases h5 with ⟨h5, rfl⟩ | ⟨h5, ws, x, k1, k2, k3, k4, k5⟩
    · exact ⟨[], w, .cons h1 h2 h3 (.nil w), by simp [hvw], by simpa using h4, by simp, h5⟩
    · refine ⟨w :: ws, x, .cons h1 h2 h3 k1, ?_, ?_, ?_, k5⟩
      · rw [List.nodup_cons]
        refine ⟨?_, k2⟩
        intro hm
        rcases List.mem_cons.mp hm with hm | hm
        · exact hvw hm
        · exact k3 v hm hv
      · intro u hu
        rcases List.mem_cons.mp hu with rfl | hu
        · exact h4
        · exact k3 u hu
      · intro u hu
        rcases List.mem_cons.mp hu with rfl | hu
        · exact h5
        · exact k4 u hu

theorem Enc_set {enc : List Bool} {v u : Nat} (hv : v < enc.length) : Enc (enc.set v true) u ↔ u = v ∨ Enc enc u :=
  M_mark (st := ⟨enc, []⟩) hv

theorem pathLoop_ok {g : G ν ε} (hwf : WF g) {complete : Option ν → Bool} {cancel : Option ε → Bool}
    {adj : List (List Nat)} {n : Nat} (v : Nat) (path : List Nat) (enc : List Bool) (hlen : enc.length = g.vertices.length)
    (hv : Enc enc v) (hn : enc.count false ≤ n)
    (ih : ∀ w path' , g.vertexAt w ≠ none → (enc.set w true).count false < n → ∃ raw,
      pathsRec g complete cancel adj n w path' enc = .ok raw ∧ raw.Nodup ∧
      ∀ p, p ∈ raw ↔ ∃ q, p = path' ++ q ∧ PathAvoid g complete cancel (Enc enc) w q)
    (es : List Nat) :
    Touch g v es →
    (∀ e, 2 ≤ es.count e → ∃ ed, g.edgeAt e = some ed ∧ ed.v1 = v ∧ ed.v2 = v) →
    ∃ raw, pathLoop g complete cancel (pathsRec g complete cancel adj n) v path enc es = .ok raw ∧ raw.Nodup ∧
      ∀ p, p ∈ raw ↔ ∃ e q, e ∈ es ∧ p = path ++ (e :: q) ∧ Ext g complete cancel (Enc enc) v e q := by
  induction es with
  | nil => intro _ _; exact ⟨[], rfl, by simp, by simp⟩
  | cons e es ih2 =>
    intro ht hdup
    obtain ⟨raw2, s1, s2, s3⟩ := ih2 (fun e' he' => ht e' (List.mem_cons_of_mem _ he')) (by
      intro e' he'
      apply hdup e'
      have := List.count_le_count_cons (a := e') (b := e) (l := es)
      omega)
    obtain ⟨ed, hed, hend⟩ := ht e (by simp)
    obtain ⟨hl1, hl2⟩ := hwf.ends e ed hed
    -- results through the edge to `w`
    have hTry : ∀ w, g.vertexAt w ≠ none → ∃ raw, tryEdge g complete (pathsRec g complete cancel adj n) path enc e w = .ok raw ∧
        raw.Nodup ∧ (Enc enc w → raw = []) ∧
        ∀ p, p ∈ raw ↔ ∃ q, p = path ++ (e :: q) ∧ ¬ Enc enc w ∧
          ((Accepted g complete w ∧ q = []) ∨ (¬ Accepted g complete w ∧ PathAvoid g complete cancel (Enc enc) w q)) := by
      intro w hlw
      have hlt : w < enc.length := by rw [hlen]; exact vertexAt_lt hlw
      unfold tryEdge
      cases hb : enc[w]? with
      | none => rw [List.getElem?_eq_none_iff] at hb; omega
      | some b =>
        cases b with
        | true =>
          have : Enc enc w := hb
          exact ⟨[], rfl, by simp, fun _ => rfl, by simp [this]⟩
        | false =>
          have hnw : ¬ Enc enc w := M_false (st := ⟨enc, []⟩) hb
          obtain ⟨obj, hobj⟩ := Option.ne_none_iff_exists'.mp hlw
          simp only [hobj]
          by_cases hc : complete obj = true
          · have hA : Accepted g complete w := ⟨obj, hobj, hc⟩
            rw [if_pos hc]
            refine ⟨_, rfl, by simp, fun hh => absurd hh hnw, fun p => ?_⟩
            simp only [List.mem_singleton]
            constructor
            · rintro rfl; exact ⟨[], rfl, hnw, Or.inl ⟨hA, rfl⟩⟩
            · rintro ⟨q, rfl, _, h | h⟩
              · rw [h.2]
              · exact absurd hA h.1
          · have hA : ¬ Accepted g complete w := by
              rintro ⟨o, ho, hco⟩; rw [hobj] at ho; cases ho; exact hc hco
            rw [if_neg hc]
            have hcnt := count_mark (st := ⟨enc, []⟩) hlt hnw
            have hcnt' : (enc.set w true).count false + 1 = enc.count false := hcnt
            obtain ⟨raw, r1, r2, r3⟩ := ih w (path ++ [e]) hlw (by omega)
            refine ⟨raw, r1, r2, fun hh => absurd hh hnw, fun p => ?_⟩
            rw [r3]
            constructor
            · rintro ⟨q, rfl, hq⟩
              exact ⟨q, by simp, hnw, Or.inr ⟨hA, hq⟩⟩
            · rintro ⟨q, rfl, _, h | h⟩
              · exact absurd h.1 hA
              · exact ⟨q, by simp, h.2⟩
    -- an edge that is not cancelled, whose other end is `w`
    have hGo : cancel ed.obj = false → ∀ w, g.vertexAt w ≠ none → Joins ed v w → (∀ w', Joins ed v w' → ¬ Enc enc w' → w' = w) →
        ∃ raw, (tryEdge g complete (pathsRec g complete cancel adj n) path enc e w).bind
          (fun ps => (pathLoop g complete cancel (pathsRec g complete cancel adj n) v path enc es).map (fun qs => ps ++ qs))
            = .ok raw ∧ raw.Nodup ∧
          ∀ p, p ∈ raw ↔ ∃ e' q, e' ∈ e :: es ∧ p = path ++ (e' :: q) ∧ Ext g complete cancel (Enc enc) v e' q := by
      intro hnc w hlw hj huniq
      obtain ⟨raw1, t1, t2, t3, t4⟩ := hTry w hlw
      refine ⟨raw1 ++ raw2, by rw [t1, Out.bind_ok, s1]; rfl, ?_, ?_⟩
      · rw [List.nodup_append]
        refine ⟨t2, s2, ?_⟩
        intro x hx y hy hxy
        subst hxy
        obtain ⟨q, rfl, hnw, _⟩ := (t4 x).mp hx
        obtain ⟨e', q', he', heq, _⟩ := (s3 _).mp hy
        have : e = e' := by
          have := List.append_cancel_left heq
          exact (List.cons.inj this).1
        subst this
        have hcnt : 2 ≤ (e :: es).count e := by
          rw [List.count_cons_self]
          have := List.count_pos_iff.mpr he'
          omega
        obtain ⟨ed', hed', a1, a2⟩ := hdup e hcnt
        rw [hed] at hed'; cases hed'
        apply hnw
        rcases hj with ⟨_, h⟩ | ⟨_, h⟩
        · rw [← h, a2]; exact hv
        · rw [← h, a1]; exact hv
      · intro p
        rw [List.mem_append, t4, s3]
        constructor
        · rintro (⟨q, rfl, h1, h2⟩ | ⟨e', q, h1, h2, h3⟩)
          · exact ⟨e, q, by simp, rfl, ed, w, hed, hnc, hj, h1, h2⟩
          · exact ⟨e', q, List.mem_cons_of_mem _ h1, h2, h3⟩
        · rintro ⟨e', q, h1, h2, h3⟩
          rcases List.mem_cons.mp h1 with rfl | h1
          · left
            obtain ⟨ed', w', k1, k2, k3, k4, k5⟩ := h3
            rw [hed] at k1; cases k1
            have hw := huniq w' k3 k4
            subst hw
            exact ⟨q, h2, k4, k5⟩
          · exact Or.inr ⟨e', q, h1, h2, h3⟩
    unfold pathLoop
    rw [hed]
    simp only []
    by_cases hc : cancel ed.obj = true
    · rw [if_pos hc]
      refine ⟨raw2, s1, s2, fun p => ?_⟩
      rw [s3]
      constructor
      · rintro ⟨e', q, h1, h2, h3⟩; exact ⟨e', q, List.mem_cons_of_mem _ h1, h2, h3⟩
      · rintro ⟨e', q, h1, h2, h3⟩
        rcases List.mem_cons.mp h1 with rfl | h1
        · obtain ⟨ed', w', k1, k2, _⟩ := h3
          rw [hed] at k1; cases k1
          rw [hc] at k2; cases k2
        · exact ⟨e', q, h1, h2, h3⟩
    · rw [if_neg hc]
      have hnc : cancel ed.obj = false := by simpa using hc
      by_cases h2 : v = ed.v2
      · rw [if_pos h2]
        refine hGo hnc ed.v1 hl1 (Or.inr ⟨h2.symm, rfl⟩) ?_
        intro w' hj hnw
        rcases hj with ⟨a, b⟩ | ⟨a, b⟩
        · exfalso; apply hnw; rw [← b, ← h2]; exact hv
        · exact b.symm
      · rw [if_neg h2]
        have h1 : v = ed.v1 := by
          rcases hend with h | h
          · exact h.symm
          · exact absurd h.symm h2
        rw [if_pos h1]
        refine hGo hnc ed.v2 hl2 (Or.inl ⟨h1.symm, rfl⟩) ?_
        intro w' hj hnw
        rcases hj with ⟨a, b⟩ | ⟨a, b⟩
        · exact b.symm
        · exact absurd a.symm h2

theorem pathsRec_ok {g : G ν ε} (hwf : WF g) {complete : Option ν → Bool} {cancel : Option ε → Bool}
    {adj : List (List Nat)} (hadj : AdjOk g adj) (n : Nat) : ∀ (v : Nat) (path : List Nat) (enc : List Bool),
    g.vertexAt v ≠ none → enc.length = g.vertices.length → (enc.set v true).count false < n →
    ∃ raw, pathsRec g complete cancel adj n v path enc = .ok raw ∧ raw.Nodup ∧
      ∀ p, p ∈ raw ↔ ∃ q, p = path ++ q ∧ PathAvoid g complete cancel (Enc enc) v q := by
  induction n with
  | zero => intro v path enc _ _ h; omega
  | succ n ih =>
    intro v path enc hv hlen hn
    unfold pathsRec
    have hex : g.vertexExists v = true := Option.isSome_iff_ne_none.mpr hv
    simp only [hex, Bool.not_true, Bool.false_eq_true, if_false]
    rw [adj_get hadj hv]
    simp only []
    have hlt : v < enc.length := by rw [hlen]; exact vertexAt_lt hv
    obtain ⟨raw, r1, r2, r3⟩ := pathLoop_ok (complete := complete) (cancel := cancel) (adj := adj) (n := n) hwf v path (enc.set v true) (by simp [hlen])
      ((Enc_set hlt).mpr (Or.inl rfl)) (by omega)
      (fun w path' hw hc => ih w path' (enc.set v true) hw (by simp [hlen]) hc)
      (occ 0 g.edges v) (fun e he => mem_occ.mp he) (by
        intro e he
        rw [count_occ] at he
        simp only [Nat.not_lt_zero, if_false, Nat.sub_zero] at he
        have he' : 2 ≤ endsOn (g.edgeAt e) v := he
        cases hg : g.edgeAt e with
        | none => rw [hg] at he'; simp [endsOn] at he'
        | some ed =>
          rw [hg] at he'
          refine ⟨ed, rfl, ?_⟩
          by_cases c1 : ed.v1 = v <;> by_cases c2 : ed.v2 = v <;> simp [endsOn, c1, c2] at he' ⊢)
    refine ⟨raw, r1, r2, fun p => ?_⟩
    rw [r3]
    have hsame : ∀ q, PathAvoid g complete cancel (Enc (enc.set v true)) v q ↔ PathAvoid g complete cancel (Enc enc) v q := by
      intro q
      constructor
      · rintro ⟨ws, w, k1, k2, k3, k4, k5⟩
        exact ⟨ws, w, k1, k2, fun u hu hh => k3 u hu ((Enc_set hlt).mpr (Or.inr hh)), k4, k5⟩
      · rintro ⟨ws, w, k1, k2, k3, k4, k5⟩
        refine ⟨ws, w, k1, k2, fun u hu hh => ?_, k4, k5⟩
        rcases (Enc_set hlt).mp hh with rfl | hh
        · exact (List.nodup_cons.mp k2).1 hu
        · exact k3 u hu hh
    constructor
    · rintro ⟨e, q, h1, h2, h3⟩
      refine ⟨e :: q, h2, (hsame _).mp ?_⟩
      exact (pathAvoid_iff ((Enc_set hlt).mpr (Or.inl rfl))).mpr ⟨e, q, rfl, h3⟩
    · rintro ⟨q', h2, h3⟩
      obtain ⟨e, q, rfl, hE⟩ := (pathAvoid_iff ((Enc_set hlt).mpr (Or.inl rfl))).mp ((hsame _).mpr h3)
      refine ⟨e, q, ?_, h2, hE⟩
      obtain ⟨ed, w, k1, _, k3, _⟩ := hE
      refine mem_occ.mpr ⟨ed, k1, ?_⟩
      rcases k3 with k | k
      · exact Or.inl k.1
      · exact Or.inr k.1

theorem rawPaths_ok {g : G ν ε} (h : Reached g) (complete : Option ν → Bool) (cancel : Option ε → Bool) {v : Nat}
    (hv : g.vertexExists v = true) :
    ∃ raw, g.rawPaths complete cancel v = .ok raw ∧ raw.Nodup ∧ ∀ p, p ∈ raw ↔ IsPath g complete cancel v p := by
  obtain ⟨adj, e1, hadj⟩ := adjacency_ok h.wf
  have hv' : g.vertexAt v ≠ none := Option.isSome_iff_ne_none.mp hv
  have hlt := vertexAt_lt hv'
  obtain ⟨raw, r1, r2, r3⟩ := pathsRec_ok h.wf (complete := complete) (cancel := cancel) hadj (g.vertices.length + 1) v []
    (List.replicate g.vertices.length false) hv' (by simp) (by
      have := List.count_le_length (a := false) (l := (List.replicate g.vertices.length false).set v true)
      simp only [List.length_set, List.length_replicate] at this
      omega)
  refine ⟨raw, ?_, r2, fun p => ?_⟩
  · unfold G.rawPaths
    simp only [hv, Bool.not_true, Bool.false_eq_true, if_false]
    rw [e1]; exact r1
  · rw [r3]
    have hE : ∀ u, ¬ Enc (List.replicate g.vertices.length false) u := by
      intro u hu
      unfold Enc at hu
      rw [List.getElem?_replicate] at hu
      split at hu <;> simp at hu
    constructor
    · rintro ⟨q, rfl, ws, w, k1, k2, _, k4, k5⟩
      exact ⟨ws, w, by simpa using k1, k2, k4, k5⟩
    · rintro ⟨ws, w, k1, k2, k4, k5⟩
      exact ⟨p, by simp, ws, w, k1, k2, fun u _ => hE u, k4, k5⟩

/-! ### C16 -/

/-- C16: from a live vertex the search ends normally, and any result it may return (any sorting of the paths found)
    contains exactly the paths of `IsPath`, each once, in order of length. -/
theorem findAllPaths_exact {g : G ν ε} (h : Reached g) (complete : Option ν → Bool) (cancel : Option ε → Bool) {v : Nat}
    (hv : g.vertexExists v = true) :
    (∃ r, g.FindAllPaths complete cancel v r) ∧
    ∀ r, g.FindAllPaths complete cancel v r → ∃ paths, r = .ok paths ∧ paths.Nodup ∧
      (∀ p, p ∈ paths ↔ IsPath g complete cancel v p) ∧ paths.Pairwise (fun p q => p.length ≤ q.length) := by
  obtain ⟨raw, r1, r2, r3⟩ := rawPaths_ok h complete cancel hv
  constructor
  · refine ⟨.ok (raw.mergeSort (fun p q => decide (p.length ≤ q.length))), ?_⟩
    unfold G.FindAllPaths
    rw [r1]
    refine ⟨_, ⟨List.mergeSort_perm _ _, ?_⟩, rfl⟩
    have := List.pairwise_mergeSort (le := fun (p q : List Nat) => decide (p.length ≤ q.length))
      (fun a b c => by simp; omega) (fun a b => by simp; omega) raw
    exact this.imp (fun hh => by simpa using hh)
  · intro r hr
    unfold G.FindAllPaths at hr
    rw [r1] at hr
    obtain ⟨sorted, ⟨k1, k2⟩, rfl⟩ := hr
    exact ⟨sorted, rfl, (k1.nodup_iff).mpr r2, fun p => by rw [k1.mem_iff, r3], k2⟩

/-- Hence the first path returned is a shortest one. -/
theorem findAllPaths_first_shortest {g : G ν ε} (h : Reached g) {complete : Option ν → Bool} {cancel : Option ε → Bool}
    {v : Nat} (hv : g.vertexExists v = true) {p : List Nat} {ps : List (List Nat)}
    (hr : g.FindAllPaths complete cancel v (.ok (p :: ps))) :
    ∀ q, IsPath g complete cancel v q → p.length ≤ q.length := by
  obtain ⟨_, h2⟩ := findAllPaths_exact h complete cancel hv
  obtain ⟨paths, e, _, k2, k3⟩ := h2 _ hr
  cases e
  intro q hq
  rcases List.mem_cons.mp ((k2 q).mpr hq) with rfl | hq
  · exact Nat.le_refl _
  · exact (List.pairwise_cons.mp k3).1 q hq

/-- From an unknown vertex the search throws. -/
theorem findAllPaths_unknown {g : G ν ε} {complete : Option ν → Bool} {cancel : Option ε → Bool} {v : Nat}
    (hv : g.vertexExists v = false) (r : Out (List (List Nat))) :
    g.FindAllPaths complete cancel v r ↔ r = .thrown := by
  unfold G.FindAllPaths G.rawPaths
  simp [hv]

/-- Square 0-1-2-3 with a diagonal 0-2, a parallel edge 0-1, a self loop; vertices 2 and 4 carry objects (accepted). -/
def pSample : G Nat Nat := run {} [.addVertex, .addVertex, .addVertex, .addVertex, .addVertex,
  .setVertexObject 2 (some 7), .setVertexObject 4 (some 8),
  .addEdge 0 1 none, .addEdge 1 0 none, .addEdge 1 2 none, .addEdge 2 3 none, .addEdge 3 0 none, .addEdge 0 0 none,
  .addEdge 2 4 none, .addEdge 0 2 (some 1)]

example : pSample.rawPaths Option.isSome Option.isSome 0 = .ok [[0, 2], [1, 2], [4, 3]] ∧
    pSample.rawPaths Option.isSome (fun _ => false) 0 = .ok [[0, 2], [1, 2], [4, 3], [7]] := by decide

example : IsPath pSample Option.isSome (fun _ => false) 0 [7] := by
  have h : Reached pSample := ⟨_, rfl⟩
  obtain ⟨raw, h1, _, h3⟩ := rawPaths_ok h Option.isSome (fun _ => false) (v := 0) (by decide)
  have : pSample.rawPaths Option.isSome (fun _ => false) 0 = .ok [[0, 2], [1, 2], [4, 3], [7]] := by decide
  rw [this] at h1; cases h1
  exact (h3 _).mp (by decide)

example : pSample.FindAllPaths Option.isSome (fun _ => false) 0 (.ok [[7], [1, 2], [0, 2], [4, 3]]) := by
  have : pSample.rawPaths Option.isSome (fun _ => false) 0 = .ok [[0, 2], [1, 2], [4, 3], [7]] := by decide
  unfold G.FindAllPaths
  rw [this]
  exact ⟨_, ⟨by decide, by decide⟩, rfl⟩

end Verif.Graph
