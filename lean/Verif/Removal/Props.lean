import Verif.Removal.Model

/-! Property C27: removal of a voltage level. -/

namespace Verif.Removal

open Verif Verif.Graph

/-- The connectable keeps the voltage level from being removed. -/
def Blocks (n : Net) (c : Conn) : Prop :=
  c.kind = .multi ∨ (c.kind = .station ∧ ∃ l ∈ n.lines, l.1 = c.id ∨ l.2 = c.id)

/-- The connectable has its terminal at some node. -/
def At {ε : Type} (g : G Conn ε) (c : Conn) : Prop := ∃ v, g.vertexAt v = some (some c)

/-- The switch is in the graph. -/
def Has {ν : Type} (g : G ν String) (s : String) : Prop := ∃ e ed, g.edgeAt e = some ed ∧ ed.obj = some s

/-- There is an internal connection in the graph. -/
def Internal {ν : Type} (g : G ν String) : Prop := ∃ e ed, g.edgeAt e = some ed ∧ ed.obj = none

/-- The node with the greatest number is at the end of a switch or of an internal connection. -/
def LastLinked {ν ε : Type} (g : G ν ε) : Prop := (abs g).Touched (g.vertices.length - 1)

theorem refuses_iff {n : Net} {cs : List Conn} : refuses n cs = true ↔ ∃ c ∈ cs, Blocks n c := by
  induction cs with
  | nil => simp [refuses]
  | cons c cs ih =>
    have e : ((c.kind == .multi || (c.kind == .station && n.hasLine c.id)) = true) ↔ Blocks n c := by
      simp [Blocks, Net.hasLine]
    simp only [refuses, List.mem_cons, exists_eq_or_imp, Bool.or_eq_true (_ || _) _, e, ih]

theorem mem_terminals {ε : Type} {g : G Conn ε} {c : Conn} : c ∈ terminals g ↔ At g c := by
  unfold terminals At G.vertexAt
  rw [List.mem_filterMap]
  constructor
  · rintro ⟨o, h1, h2⟩
    obtain ⟨i, hi⟩ := List.mem_iff_getElem?.mp h1
    refine ⟨i, ?_⟩
    rw [hi]
    cases o with
    | none => cases h2
    | some o => simp only [Option.join] at h2 ⊢; simpa using h2
  · rintro ⟨v, hv⟩
    cases h : g.vertices[v]? with
    | none => rw [h] at hv; cases hv
    | some o =>
      rw [h] at hv
      refine ⟨o, List.mem_iff_getElem?.mpr ⟨v, h⟩, ?_⟩
      have : o = some (some c) := hv
      rw [this]; rfl

/-- Two well formed graphs: the length follows from which vertices exist. -/
theorem length_le_of {ν ε : Type} {g g' : G ν ε} (h' : WF g') (h : ∀ v, g'.vertexAt v ≠ none → g.vertexAt v ≠ none) :
    g'.vertices.length ≤ g.vertices.length := by
  by_cases h0 : g'.vertices = []
  · rw [h0]; exact Nat.zero_le _
  · have := vertexAt_lt (h _ (h'.last h0))
    omega

theorem removeConn_spec {g : G Conn String} (h : WF g) {v : Nat} {c : Conn} (hc : g.vertexAt v = some (some c))
    (n : Net) : ∃ g', removeConn v c g n = (.ok (), g', n.drop c.id) ∧ WF g' ∧ g'.edgeAt = g.edgeAt ∧
      (∀ w, g'.vertexAt w ≠ none → g.vertexAt w ≠ none) ∧
      (∀ w, (abs g).Touched w → g.vertexAt w ≠ none → g'.vertexAt w ≠ none) ∧
      (∀ w, ¬ (abs g).Touched w → (w = v ∨ g.vertexAt w = some none) → g'.vertexAt w = none) ∧
      (∀ w (d : Conn), w ≠ v → (g'.vertexAt w = some (some d) ↔ g.vertexAt w = some (some d))) ∧
      (∀ d : Conn, g'.vertexAt v ≠ some (some d)) := by
  have hv : g.vertexAt v ≠ none := by rw [hc]; simp
  obtain ⟨w1, s1⟩ := wf_setVertexObject h v (none : Option Conn)
  obtain ⟨r1, a1⟩ := s1.1 hv
  obtain ⟨w2, r2, e2, i2, k2⟩ := wf_removeIsolatedVertices w1
  have hE1 : (g.setVertexObject v none).2.edgeAt = g.edgeAt := congrArg Abs.E a1
  have hV1 : ∀ w, (g.setVertexObject v none).2.vertexAt w = if w = v then some none else g.vertexAt w := by
    intro w
    have := congrFun (congrArg Abs.V a1) w
    exact this
  have hT : ∀ w, (abs (g.setVertexObject v none).2).Touched w ↔ (abs g).Touched w := by
    intro w; unfold Abs.Touched; show (∃ e ed, (g.setVertexObject v none).2.edgeAt e = some ed ∧ _) ↔ _
    rw [hE1]; rfl
  generalize hg1 : g.setVertexObject v none = p1 at *
  obtain ⟨o1, g1⟩ := p1
  generalize hg2 : g1.removeIsolatedVertices = p2 at *
  obtain ⟨o2, g2⟩ := p2
  have ho1 : o1 = .ok () := by cases o1 with | ok u => rfl | thrown => cases r1 | ub => cases r1
  have ho2 : o2 = .ok () := by cases o2 with | ok u => rfl | thrown => cases r2 | ub => cases r2
  subst ho1 ho2
  have i2' : ∀ w, g1.vertexAt w = some none → ¬ (abs g1).Touched w → g2.vertexAt w = none := i2
  have k2' : ∀ w, ¬ (g1.vertexAt w = some none ∧ ¬ (abs g1).Touched w) → g2.vertexAt w = g1.vertexAt w := k2
  have hne : ∀ w, g2.vertexAt w ≠ none → g2.vertexAt w = g1.vertexAt w := fun w hw =>
    k2' w (fun hh => hw (i2' w hh.1 hh.2))
  have hV1' : ∀ w, g1.vertexAt w = if w = v then some none else g.vertexAt w := hV1
  refine ⟨g2, ?_, w2, ?_, ?_, ?_, ?_, ?_, ?_⟩
  · simp only [removeConn, hg1, hg2]
  · exact (show g2.edgeAt = g1.edgeAt from e2).trans hE1
  · intro w hw
    have e := hne w hw
    rw [e, hV1'] at hw
    by_cases hwv : w = v
    · rw [hwv]; exact hv
    · rwa [if_neg hwv] at hw
  · intro w ht hw
    rw [k2' w (fun hh => hh.2 ((hT w).mpr ht)), hV1']
    split
    · simp
    · exact hw
  · intro w ht hw
    refine i2' w ?_ (fun hh => ht ((hT w).mp hh))
    rw [hV1']
    split
    · rfl
    · rcases hw with hw | hw
      · contradiction
      · exact hw
  · intro w d hwv
    constructor
    · intro hh
      have e := hne w (by rw [hh]; simp)
      rw [hV1', if_neg hwv] at e
      rw [← e, hh]
    · intro hh
      have e1 : g1.vertexAt w = some (some d) := by rw [hV1', if_neg hwv, hh]
      rw [k2' w (fun h3 => by rw [e1] at h3; cases h3.1), e1]
  · intro d hh
    have e := hne v (by rw [hh]; simp)
    rw [hV1', if_pos rfl, hh] at e
    cases e

theorem Net.mem_drop {n : Net} {id x : String} : x ∈ (n.drop id).objs ↔ x ∈ n.objs ∧ x ≠ id := by
  simp [Net.drop]

theorem touched_congr {ν ε : Type} {g g' : G ν ε} (h : g'.edgeAt = g.edgeAt) (w : Nat) :
    (abs g').Touched w ↔ (abs g).Touched w := by
  unfold Abs.Touched
  show (∃ e ed, g'.edgeAt e = some ed ∧ _) ↔ _
  rw [h]; rfl

theorem connLoop_none {size : Nat} (n : Net) : ∀ (m k : Nat) (g : G Conn String), k + m = g.vertices.length →
    (∀ v (c : Conn), k ≤ v → g.vertexAt v ≠ some (some c)) →
    connLoop size (List.range' k m) g n = (.ok (), g, n) := by
  intro m
  induction m with
  | zero => intro k g _ _; rfl
  | succ m ih =>
    intro k g hk hno
    rw [List.range'_succ, connLoop]
    have hlt : k < g.vertices.length := by omega
    have hs := List.getElem?_eq_getElem hlt
    rw [hs]
    have hn := hno k
    unfold G.vertexAt at hn
    rw [hs] at hn
    cases ho : g.vertices[k] with
    | none => exact ih (k + 1) g (by omega) (fun v c hv => hno v c (by omega))
    | some o =>
      cases o with
      | none => exact ih (k + 1) g (by omega) (fun v c hv => hno v c (by omega))
      | some c => rw [ho] at hn; exact absurd rfl (hn c (Nat.le_refl _))

/-- When the last node is linked, the loop removes every connectable from `k` on and nothing else. -/
theorem connLoop_linked : ∀ (m k : Nat) (g : G Conn String) (n : Net), WF g → k + m = g.vertices.length →
    LastLinked g → (∀ v (c : Conn), v < k → g.vertexAt v ≠ some (some c)) →
    ∃ g' n', connLoop g.vertices.length (List.range' k m) g n = (.ok (), g', n') ∧ WF g' ∧ g'.edgeAt = g.edgeAt ∧
      (∀ c, ¬ At g' c) ∧ n'.lines = n.lines ∧ (∀ x, x ∈ n'.objs ↔ x ∈ n.objs ∧ ∀ c, At g c → c.id ≠ x) := by
  intro m
  induction m with
  | zero =>
    intro k g n h hk _ hno
    refine ⟨g, n, rfl, h, rfl, ?_, rfl, ?_⟩
    · rintro c ⟨v, hv⟩
      exact hno v c (by have := vertexAt_lt (g := g) (v := v) (by rw [hv]; simp); omega) hv
    · intro x
      refine ⟨fun hx => ⟨hx, ?_⟩, fun hx => hx.1⟩
      rintro c ⟨v, hv⟩
      exact absurd hv (hno v c (by have := vertexAt_lt (g := g) (v := v) (by rw [hv]; simp); omega))
  | succ m ih =>
    intro k g n h hk hl hno
    rw [List.range'_succ, connLoop]
    have hlt : k < g.vertices.length := by omega
    have hs := List.getElem?_eq_getElem hlt
    have skip : (∀ c, g.vertexAt k ≠ some (some c)) → ∀ v (c : Conn), v < k + 1 → g.vertexAt v ≠ some (some c) := by
      intro hk0 v c hv
      by_cases e : v = k
      · rw [e]; exact hk0 c
      · exact hno v c (by omega)
    have hat : g.vertexAt k = g.vertices[k] := by unfold G.vertexAt; rw [hs]; rfl
    rw [hs]
    cases ho : g.vertices[k] with
    | none => exact ih (k + 1) g n h (by omega) hl (skip (by rw [hat, ho]; simp))
    | some o =>
      cases o with
      | none => exact ih (k + 1) g n h (by omega) hl (skip (by rw [hat, ho]; simp))
      | some c =>
        have hc : g.vertexAt k = some (some c) := by rw [hat, ho]
        obtain ⟨g', e1, w', eE, p1, p2, _, p4, p5⟩ := removeConn_spec h hc n
        simp only [e1]
        have hle := length_le_of w' p1
        have hge : g.vertices.length ≤ g'.vertices.length := by
          have hne : g.vertices ≠ [] := by intro h0; rw [h0] at hlt; exact absurd hlt (Nat.not_lt_zero _)
          have := vertexAt_lt (p2 _ hl (h.last hne))
          omega
        have hlen : g'.vertices.length = g.vertices.length := Nat.le_antisymm hle hge
        rw [if_pos hlen]
        obtain ⟨g2, n2, f1, f2, f3, f4, f5, f6⟩ := ih (k + 1) g' (n.drop c.id) w' (by omega)
          (by unfold LastLinked; rw [hlen]; exact (touched_congr eE _).mpr hl)
          (by
            intro v d hv
            by_cases e : v = k
            · rw [e]; exact p5 d
            · intro hh; exact hno v d (by omega) ((p4 v d e).mp hh))
        rw [hlen] at f1
        refine ⟨g2, n2, f1, f2, f3.trans eE, f4, f5, ?_⟩
        intro x
        rw [f6, Net.mem_drop]
        constructor
        · rintro ⟨⟨h1, h2⟩, h3⟩
          refine ⟨h1, ?_⟩
          rintro d ⟨v, hv⟩
          by_cases e : v = k
          · subst e
            rw [hc] at hv
            cases hv
            exact fun hh => h2 hh.symm
          · exact h3 d ⟨v, (p4 v d e).mpr hv⟩
        · rintro ⟨h1, h2⟩
          refine ⟨⟨h1, fun hh => h2 c ⟨k, hc⟩ hh.symm⟩, ?_⟩
          rintro d ⟨v, hv⟩
          by_cases e : v = k
          · rw [e] at hv; exact absurd hv (p5 d)
          · exact h2 d ⟨v, (p4 v d e).mp hv⟩

/-- When the last node is not linked and a connectable is left, the loop ends with an invalid iterator. -/
theorem connLoop_ub : ∀ (m k : Nat) (g : G Conn String) (n : Net), WF g → k + m = g.vertices.length →
    ¬ LastLinked g → (∃ v c, k ≤ v ∧ g.vertexAt v = some (some c)) →
    (connLoop g.vertices.length (List.range' k m) g n).1 = .ub := by
  intro m
  induction m with
  | zero =>
    rintro k g n h hk _ ⟨v, c, hv, hc⟩
    have := vertexAt_lt (g := g) (v := v) (by rw [hc]; simp)
    omega
  | succ m ih =>
    rintro k g n h hk hl ⟨v, c, hv, hc⟩
    rw [List.range'_succ, connLoop]
    have hlt : k < g.vertices.length := by omega
    have hs := List.getElem?_eq_getElem hlt
    have hat : g.vertexAt k = g.vertices[k] := by unfold G.vertexAt; rw [hs]; rfl
    have nxt : (∀ d, g.vertexAt k ≠ some (some d)) → ∃ v c, k + 1 ≤ v ∧ g.vertexAt v = some (some c) := by
      intro hk0
      refine ⟨v, c, ?_, hc⟩
      rcases Nat.lt_or_eq_of_le hv with h1 | h1
      · exact h1
      · rw [← h1] at hc; exact absurd hc (hk0 c)
    rw [hs]
    cases ho : g.vertices[k] with
    | none => exact ih (k + 1) g n h (by omega) hl (nxt (by rw [hat, ho]; simp))
    | some o =>
      cases o with
      | none => exact ih (k + 1) g n h (by omega) hl (nxt (by rw [hat, ho]; simp))
      | some d =>
        have hd : g.vertexAt k = some (some d) := by rw [hat, ho]
        obtain ⟨g', e1, w', eE, p1, p2, p3, p4, p5⟩ := removeConn_spec h hd n
        simp only [e1]
        by_cases hlen : g'.vertices.length = g.vertices.length
        · rw [if_pos hlen]
          have hne : g.vertices ≠ [] := by intro h0; rw [h0] at hlt; exact absurd hlt (Nat.not_lt_zero _)
          have hne' : g'.vertices ≠ [] := by
            intro h0; rw [h0] at hlen; simp only [List.length_nil] at hlen; omega
          have hlast' := w'.last hne'
          rw [hlen] at hlast'
          have hnk : g.vertices.length - 1 ≠ k := by
            intro hh; exact hlast' (p3 _ hl (Or.inl hh))
          have hlast := h.last hne
          rw [← hlen]
          refine ih (k + 1) g' _ w' (by omega) ?_ ?_
          · unfold LastLinked; rw [hlen]; exact fun hh => hl ((touched_congr eE _).mp hh)
          · cases hx : g.vertexAt (g.vertices.length - 1) with
            | none => exact absurd hx hlast
            | some o =>
              cases o with
              | none => exact absurd (p3 _ hl (Or.inr hx)) hlast'
              | some d' => exact ⟨_, d', by omega, (p4 _ d' hnk).mpr hx⟩
        · rw [if_neg hlen]

theorem edgeLoop_ok : ∀ (es : List (Option (Edge String))) (n : Net), (∀ ed, some ed ∈ es → ed.obj ≠ none) →
    ∃ n', edgeLoop es n = (.ok (), n') ∧ n'.lines = n.lines ∧
      (∀ x, x ∈ n'.objs ↔ x ∈ n.objs ∧ ∀ ed s, some ed ∈ es → ed.obj = some s → s ≠ x) := by
  intro es
  induction es with
  | nil => intro n _; exact ⟨n, rfl, rfl, by simp⟩
  | cons o es ih =>
    intro n h
    cases o with
    | none =>
      obtain ⟨n', h1, h2, h3⟩ := ih n (fun ed he => h ed (List.mem_cons_of_mem _ he))
      refine ⟨n', h1, h2, ?_⟩
      intro x; rw [h3]; simp
    | some ed =>
      cases ho : ed.obj with
      | none => exact absurd ho (h ed List.mem_cons_self)
      | some s =>
        obtain ⟨n', h1, h2, h3⟩ := ih (n.drop s) (fun ed he => h ed (List.mem_cons_of_mem _ he))
        refine ⟨n', by rw [edgeLoop]; simp only [ho]; exact h1, h2, ?_⟩
        intro x
        rw [h3, Net.mem_drop]
        constructor
        · rintro ⟨⟨h1, h2⟩, h4⟩
          refine ⟨h1, ?_⟩
          intro ed' s' hm hs
          rcases List.mem_cons.mp hm with hm | hm
          · cases hm; rw [ho] at hs; cases hs; exact fun hh => h2 hh.symm
          · exact h4 ed' s' hm hs
        · rintro ⟨h1, h2⟩
          exact ⟨⟨h1, fun hh => h2 ed s List.mem_cons_self ho hh.symm⟩,
            fun ed' s' hm hs => h2 ed' s' (List.mem_cons_of_mem _ hm) hs⟩

theorem edgeLoop_thrown : ∀ (es : List (Option (Edge String))) (n : Net), (∃ ed, some ed ∈ es ∧ ed.obj = none) →
    (edgeLoop es n).1 = .thrown ∧ (∀ x, x ∈ (edgeLoop es n).2.objs → x ∈ n.objs) ∧
      (∀ x, x ∈ n.objs → (∀ ed s, some ed ∈ es → ed.obj = some s → s ≠ x) → x ∈ (edgeLoop es n).2.objs) := by
  intro es
  induction es with
  | nil => rintro n ⟨ed, h, _⟩; cases h
  | cons o es ih =>
    rintro n ⟨ed, hm, hn⟩
    cases o with
    | none =>
      rcases List.mem_cons.mp hm with hm | hm
      · cases hm
      · obtain ⟨h1, h2, h3⟩ := ih n ⟨ed, hm, hn⟩
        exact ⟨h1, h2, fun x hx hs => h3 x hx (fun ed s he => hs ed s (List.mem_cons_of_mem _ he))⟩
    | some ed' =>
      rw [edgeLoop]
      cases ho : ed'.obj with
      | none => exact ⟨rfl, fun x hx => hx, fun x hx _ => hx⟩
      | some s =>
        rcases List.mem_cons.mp hm with hm | hm
        · cases hm; rw [hn] at ho; cases ho
        · obtain ⟨h1, h2, h3⟩ := ih (n.drop s) ⟨ed, hm, hn⟩
          refine ⟨h1, fun x hx => (Net.mem_drop.mp (h2 x hx)).1, ?_⟩
          intro x hx hs
          refine h3 x (Net.mem_drop.mpr ⟨hx, fun hh => hs ed' s List.mem_cons_self ho hh.symm⟩) ?_
          exact fun ed s he => hs ed s (List.mem_cons_of_mem _ he)

/-! ### Node/breaker voltage levels -/

/-- A node/breaker voltage level with a branch, a transformer or a converter station in use is not removed, and nothing
    changes. -/
theorem node_refused {vl : NodeVL} {n : Net} (h : ∃ c, At vl.graph c ∧ Blocks n c) :
    removeNode vl n = (.thrown, vl, n) := by
  obtain ⟨c, h1, h2⟩ := h
  unfold removeNode
  rw [if_pos (refuses_iff.mpr ⟨c, mem_terminals.mpr h1, h2⟩)]

theorem not_refuses {vl : NodeVL} {n : Net} (h : ∀ c, At vl.graph c → ¬ Blocks n c) :
    ¬ refuses n (terminals vl.graph) = true := by
  intro hh
  obtain ⟨c, h1, h2⟩ := refuses_iff.mp hh
  exact h c (mem_terminals.mp h1) h2

/-- The connectables have all gone, nothing else has, when the last node is linked or there was none. -/
theorem connLoop_all {g : G Conn String} (h : WF g) (n : Net) (hl : (∀ c, ¬ At g c) ∨ LastLinked g) :
    ∃ g' n', connLoop g.vertices.length (List.range g.vertices.length) g n = (.ok (), g', n') ∧ g'.edgeAt = g.edgeAt ∧
      (∀ c, ¬ At g' c) ∧ n'.lines = n.lines ∧ (∀ x, x ∈ n'.objs ↔ x ∈ n.objs ∧ ∀ c, At g c → c.id ≠ x) := by
  rw [List.range_eq_range']
  rcases hl with hl | hl
  · rw [connLoop_none n _ 0 g (Nat.zero_add _) (fun v c _ hh => hl c ⟨v, hh⟩)]
    exact ⟨g, n, rfl, rfl, hl, rfl, fun x => ⟨fun hx => ⟨hx, fun c hc => absurd hc (hl c)⟩, fun hx => hx.1⟩⟩
  · obtain ⟨g', n', h1, _, h3⟩ := connLoop_linked _ 0 g n h (Nat.zero_add _) hl (by intro v c hv; omega)
    exact ⟨g', n', h1, h3⟩

/-- A node/breaker voltage level that may be removed, without internal connection, and whose last node is at the end of a
    switch (or that has no equipment): its connectables, its switches and itself can no longer be found, every other
    object can. -/
theorem node_removed_partial {vl : NodeVL} {n : Net} (hw : WF vl.graph) (hb : ∀ c, At vl.graph c → ¬ Blocks n c)
    (hi : ¬ Internal vl.graph) (hl : (∀ c, ¬ At vl.graph c) ∨ LastLinked vl.graph) :
    (removeNode vl n).1 = .ok () ∧
    (removeNode vl n).2.2.lines = n.lines ∧
    (∀ c, ¬ At (removeNode vl n).2.1.graph c) ∧ (∀ s, ¬ Has (removeNode vl n).2.1.graph s) ∧
    ∀ x, x ∈ (removeNode vl n).2.2.objs ↔
      x ∈ n.objs ∧ x ≠ vl.id ∧ (∀ c, At vl.graph c → c.id ≠ x) ∧ (∀ s, Has vl.graph s → s ≠ x) := by
  obtain ⟨g', n', h1, hE, h2, h3, h4⟩ := connLoop_all hw n hl
  have hE' : ∀ ed, some ed ∈ g'.edges ↔ ∃ e, vl.graph.edgeAt e = some ed := by
    intro ed; rw [mem_edges_iff, hE]
  obtain ⟨n2, k1, k2, k3⟩ := edgeLoop_ok g'.edges n' (by
    intro ed hed hn
    obtain ⟨e, he⟩ := (hE' ed).mp hed
    exact hi ⟨e, ed, he, hn⟩)
  have e : removeNode vl n = (.ok (), { vl with graph := g'.removeAllEdges }, n2.drop vl.id) := by
    unfold removeNode
    rw [if_neg (not_refuses hb), h1]
    simp only [k1]
  rw [e]
  refine ⟨rfl, k2.trans h3, ?_, ?_, ?_⟩
  · exact h2
  · rintro s ⟨i, ed, hi, _⟩; cases hi
  · intro x
    rw [Net.mem_drop, k3, h4]
    constructor
    · rintro ⟨⟨⟨a, b⟩, c⟩, d⟩
      refine ⟨a, d, b, ?_⟩
      rintro s ⟨i, ed, hi, hs⟩
      exact c ed s ((hE' ed).mpr ⟨i, hi⟩) hs
    · rintro ⟨a, b, c, d⟩
      refine ⟨⟨⟨a, c⟩, ?_⟩, b⟩
      intro ed s hed hs
      obtain ⟨i, hi⟩ := (hE' ed).mp hed
      exact d s ⟨i, ed, hi, hs⟩

/-- With an internal connection the removal throws, after the connectables are gone: none of them can be found, while the
    voltage level itself and the objects of the others still can. -/
theorem node_internal {vl : NodeVL} {n : Net} (hw : WF vl.graph) (hb : ∀ c, At vl.graph c → ¬ Blocks n c)
    (hi : Internal vl.graph) (hl : (∀ c, ¬ At vl.graph c) ∨ LastLinked vl.graph) :
    (removeNode vl n).1 = .thrown ∧
    (∀ c, At vl.graph c → c.id ∉ (removeNode vl n).2.2.objs) ∧
    (∀ x ∈ n.objs, (∀ c, At vl.graph c → c.id ≠ x) → (∀ s, Has vl.graph s → s ≠ x) →
      x ∈ (removeNode vl n).2.2.objs) := by
  obtain ⟨g', n', h1, hE, _, _, h4⟩ := connLoop_all hw n hl
  have hE' : ∀ ed, some ed ∈ g'.edges ↔ ∃ e, vl.graph.edgeAt e = some ed := by
    intro ed; rw [mem_edges_iff, hE]
  obtain ⟨i, ed, hi, hn⟩ := hi
  obtain ⟨k1, k2, k3⟩ := edgeLoop_thrown g'.edges n' ⟨ed, (hE' ed).mpr ⟨i, hi⟩, hn⟩
  have e : removeNode vl n = (.thrown, { vl with graph := g' }, (edgeLoop g'.edges n').2) := by
    unfold removeNode
    rw [if_neg (not_refuses hb), h1]
    clear k2 k3
    simp only
    generalize edgeLoop g'.edges n' = p at k1
    obtain ⟨o, n2⟩ := p
    simp only at k1
    subst k1
    rfl
  rw [e]
  refine ⟨rfl, ?_, ?_⟩
  · intro c hc hx
    exact ((h4 c.id).mp (k2 _ hx)).2 c hc rfl
  · intro x hx hc hs
    refine k3 x ((h4 x).mpr ⟨hx, hc⟩) ?_
    intro ed' s hed hs'
    obtain ⟨j, hj⟩ := (hE' ed').mp hed
    exact hs s ⟨j, ed', hj, hs'⟩

/-- The removal of a node/breaker voltage level has an undefined behaviour exactly when nothing refuses it, it has a
    connectable, and its last node is not linked to another one. -/
theorem node_undefined_iff {vl : NodeVL} {n : Net} (hw : WF vl.graph) :
    (removeNode vl n).1 = .ub ↔
      (∀ c, At vl.graph c → ¬ Blocks n c) ∧ (∃ c, At vl.graph c) ∧ ¬ LastLinked vl.graph := by
  constructor
  · intro hu
    have hb : ∀ c, At vl.graph c → ¬ Blocks n c := by
      intro c h1 h2
      rw [node_refused ⟨c, h1, h2⟩] at hu
      cases hu
    refine ⟨hb, ?_⟩
    suffices hh : ¬ ((∀ c, ¬ At vl.graph c) ∨ LastLinked vl.graph) by
      refine ⟨?_, fun h => hh (Or.inr h)⟩
      exact Classical.byContradiction fun hn => hh (Or.inl (fun c hc => hn ⟨c, hc⟩))
    intro hl
    by_cases hi : Internal vl.graph
    · rw [(node_internal hw hb hi hl).1] at hu; cases hu
    · rw [(node_removed_partial hw hb hi hl).1] at hu; cases hu
  · rintro ⟨hb, ⟨c, v, hv⟩, hl⟩
    have := connLoop_ub _ 0 vl.graph n hw (Nat.zero_add _) hl ⟨v, c, Nat.zero_le _, hv⟩
    rw [← List.range_eq_range'] at this
    unfold removeNode
    rw [if_neg (not_refuses hb)]
    generalize connLoop vl.graph.vertices.length (List.range vl.graph.vertices.length) vl.graph n = p at this
    obtain ⟨o, g1, n1⟩ := p
    simp only at this
    subst this
    rfl

/-- The removal succeeds exactly when nothing refuses it, there is no internal connection and the last node is linked (or
    there is no equipment). -/
theorem node_ok_iff {vl : NodeVL} {n : Net} (hw : WF vl.graph) :
    (removeNode vl n).1 = .ok () ↔ (∀ c, At vl.graph c → ¬ Blocks n c) ∧ ¬ Internal vl.graph ∧
      ((∀ c, ¬ At vl.graph c) ∨ LastLinked vl.graph) := by
  constructor
  · intro ho
    have hb : ∀ c, At vl.graph c → ¬ Blocks n c := by
      intro c h1 h2
      rw [node_refused ⟨c, h1, h2⟩] at ho
      cases ho
    have hl : (∀ c, ¬ At vl.graph c) ∨ LastLinked vl.graph := by
      refine Classical.byContradiction fun hn => ?_
      have : (removeNode vl n).1 = .ub := (node_undefined_iff hw).mpr ⟨hb, by
        refine ⟨Classical.byContradiction fun hh => hn (Or.inl fun c hc => hh ⟨c, hc⟩), fun h => hn (Or.inr h)⟩⟩
      rw [this] at ho; cases ho
    refine ⟨hb, fun hi => ?_, hl⟩
    rw [(node_internal hw hb hi hl).1] at ho; cases ho
  · rintro ⟨hb, hi, hl⟩; exact (node_removed_partial hw hb hi hl).1

/-! ### Bus/breaker voltage levels -/

/-- A bus/breaker voltage level with a branch, a transformer or a converter station in use is not removed, and nothing
    changes. -/
theorem bus_refused {vl : BusVL} {n : Net} (h : ∃ b ∈ vl.buses, ∃ c ∈ b.2, Blocks n c) :
    removeBus vl n = (.thrown, vl, n) := by
  obtain ⟨b, hb, c, h1, h2⟩ := h
  have hc : c ∈ vl.terminals := List.mem_flatMap.mpr ⟨b, hb, h1⟩
  unfold removeBus
  rw [if_pos (refuses_iff.mpr ⟨c, hc, h2⟩)]

theorem mem_dropAll {x : String} : ∀ (l : List String) (n : Net),
    (x ∈ (dropAll l n).objs ↔ x ∈ n.objs ∧ x ∉ l) ∧ (dropAll l n).lines = n.lines := by
  intro l
  induction l with
  | nil => intro n; exact ⟨by simp [dropAll], rfl⟩
  | cons s l ih =>
    intro n
    refine ⟨?_, (ih (n.drop s)).2⟩
    rw [dropAll, (ih (n.drop s)).1, Net.mem_drop, List.mem_cons, not_or, and_assoc]

/-- A bus/breaker voltage level without equipment: its buses, its switches and itself can no longer be found, every
    other object can. -/
theorem bus_removed_partial {vl : BusVL} {n : Net} (h : ∀ b ∈ vl.buses, b.2 = []) :
    (removeBus vl n).1 = .ok () ∧ (removeBus vl n).2.2.lines = n.lines ∧
    ∀ x, x ∈ (removeBus vl n).2.2.objs ↔
      x ∈ n.objs ∧ x ≠ vl.id ∧ (∀ b ∈ vl.buses, b.1 ≠ x) ∧ x ∉ vl.switches := by
  have ht : vl.terminals = [] := by
    rw [BusVL.terminals, List.flatMap_eq_nil_iff]; exact h
  have e : removeBus vl n = (.ok (), { vl with buses := [], switches := [] },
        (dropAll (vl.buses.map (fun b => b.1)) (dropAll vl.switches n)).drop vl.id) := by
    unfold removeBus
    rw [ht]
    rfl
  rw [e]
  refine ⟨rfl, ?_, ?_⟩
  · exact ((mem_dropAll (x := "") _ _).2).trans (mem_dropAll (x := "") _ _).2
  · intro x
    rw [Net.mem_drop, (mem_dropAll _ _).1, (mem_dropAll _ _).1, List.mem_map]
    constructor
    · rintro ⟨⟨⟨a, b⟩, c⟩, d⟩
      exact ⟨a, d, fun b' hb hx => c ⟨b', hb, hx⟩, b⟩
    · rintro ⟨a, b, c, d⟩
      exact ⟨⟨⟨a, d⟩, fun ⟨b', hb, hx⟩ => c b' hb hx⟩, b⟩

/-- The removal of a bus/breaker voltage level has an undefined behaviour as soon as it has a connectable and nothing
    refuses it. -/
theorem bus_undefined_iff {vl : BusVL} {n : Net} :
    (removeBus vl n).1 = .ub ↔
      (∀ b ∈ vl.buses, ∀ c ∈ b.2, ¬ Blocks n c) ∧ ∃ b ∈ vl.buses, b.2 ≠ [] := by
  constructor
  · intro hu
    refine ⟨?_, ?_⟩
    · intro b hb c h1 h2
      rw [bus_refused ⟨b, hb, c, h1, h2⟩] at hu
      cases hu
    · refine Classical.byContradiction fun hn => ?_
      rw [(bus_removed_partial (vl := vl) (n := n) (fun b hb =>
        Classical.byContradiction fun hh => hn ⟨b, hb, hh⟩)).1] at hu
      cases hu
  · rintro ⟨hb, b, hm, hne⟩
    unfold removeBus
    rw [if_neg]
    · cases ht : vl.terminals with
      | nil => rw [BusVL.terminals, List.flatMap_eq_nil_iff] at ht; exact absurd (ht b hm) hne
      | cons c cs => rfl
    · intro hh
      obtain ⟨c, h1, h2⟩ := refuses_iff.mp hh
      obtain ⟨b', hb', hc⟩ := List.mem_flatMap.mp h1
      exact hb b' hb' c hc h2

/-! ### Substations -/

/-- A substation that has a voltage level is never removed with a defined behaviour, whatever the removal of its branches
    and HVDC lines does: the loop goes on with an iterator that the removal of the first voltage level made invalid, or
    an exception leaves before. -/
theorem substation_never {id : String} {allowed : Bool} {links : VL → Net → Out VL × Net} {vls : List VL} {n : Net}
    (h : vls ≠ []) : ∀ u, (removeSubstation id allowed links vls n).1 ≠ .ok u := by
  intro u
  cases vls with
  | nil => exact absurd rfl h
  | cons vl vls =>
    unfold removeSubstation
    split
    · simp
    · simp only
      generalize links vl n = p
      obtain ⟨o, n'⟩ := p
      cases o with
      | ok vl' =>
        simp only
        generalize vl'.remove n' = q
        obtain ⟨o2, n2⟩ := q
        cases o2 <;> simp
      | thrown => simp
      | ub => simp

/-- A substation without voltage level is removed, and nothing else with it. -/
theorem substation_empty {id : String} {links : VL → Net → Out VL × Net} {n : Net} :
    (removeSubstation id true links [] n).1 = .ok () ∧
    ∀ x, x ∈ (removeSubstation id true links [] n).2.objs ↔ x ∈ n.objs ∧ x ≠ id :=
  ⟨rfl, fun _ => Net.mem_drop⟩

/-! ### Non vacuity and witnesses -/

/-- Two busbar sections at nodes 0 and 1, a load at node 2, a switch between 0 and 1 and one between 1 and 2. -/
def exGraph : G Conn String :=
  { vertices := [some (some ⟨"B0", .injection⟩), some (some ⟨"B1", .injection⟩), some (some ⟨"LD", .injection⟩)],
    edges := [some ⟨0, 1, some "S0"⟩, some ⟨1, 2, some "S1"⟩] }

def exVL : NodeVL := ⟨"VL", exGraph⟩

def exNet : Net := ⟨["VL", "B0", "B1", "LD", "S0", "S1", "OTHER", "L"], [("C1", "C2")]⟩

/-- The graph is one that the operations of the graph reach. -/
theorem exGraph_wf : WF exGraph := by
  have h := run_wf (ν := Conn) (ε := String) wf_empty
    [.addVertex, .addVertex, .addVertex, .setVertexObject 0 (some ⟨"B0", .injection⟩),
     .setVertexObject 1 (some ⟨"B1", .injection⟩), .setVertexObject 2 (some ⟨"LD", .injection⟩),
     .addEdge 0 1 (some "S0"), .addEdge 1 2 (some "S1")]
  exact h

example : removeNode exVL exNet = (.ok (), ⟨"VL", { vertices := [some none, some none, some none] }⟩,
    ⟨["OTHER", "L"], [("C1", "C2")]⟩) := by decide

/-- The hypotheses of `node_removed_partial` hold of a voltage level with equipments and switches. -/
example : (removeNode exVL exNet).1 = .ok () ∧ At exVL.graph ⟨"LD", .injection⟩ ∧ Has exVL.graph "S1" :=
  ⟨by decide, ⟨2, rfl⟩, ⟨1, _, rfl, rfl⟩⟩

/-- A converter station in use refuses the removal; the same one without line does not. -/
def stVL : NodeVL := ⟨"VL",
  { vertices := [some (some ⟨"B0", .injection⟩), some (some ⟨"C1", .station⟩)], edges := [some ⟨0, 1, some "S0"⟩] }⟩

example : (removeNode stVL exNet).1 = .thrown ∧ (removeNode stVL ⟨exNet.objs, []⟩).1 = .ok () := by decide

/-- A load at a node with no switch: undefined. -/
theorem unlinked_node_undefined :
    (removeNode ⟨"VL", ⟨[some (some ⟨"LD", .injection⟩)], [], [], [], []⟩⟩ exNet).1 = .ub := by decide

/-- A busbar section and a load linked by an internal connection. -/
def inGraph : G Conn String :=
  { vertices := [some (some ⟨"B0", .injection⟩), some (some ⟨"LD", .injection⟩)],
    edges := [some ⟨0, 1, none⟩] }

/-- An internal connection: the removal throws after the equipments are gone. -/
theorem internal_connection_half_removed :
    removeNode ⟨"VL", inGraph⟩ ⟨["VL", "B0", "LD"], []⟩ =
    (.thrown, ⟨"VL", { inGraph with vertices := [some none, some none] }⟩, ⟨["VL"], []⟩) := by decide

/-- A load on a bus of a bus/breaker voltage level: undefined. -/
theorem bus_with_load_undefined :
    (removeBus ⟨"VL", [("BUS", [⟨"LD", .injection⟩])], []⟩ ⟨["VL", "BUS", "LD"], []⟩).1 = .ub := by decide

example : removeBus ⟨"VL", [("B1", []), ("B2", [])], ["SW"]⟩ ⟨["VL", "B1", "B2", "SW", "X"], []⟩ =
    (.ok (), ⟨"VL", [], []⟩, ⟨["X"], []⟩) := by decide

example : (removeBus ⟨"VL", [("B1", []), ("B2", [⟨"T", .multi⟩])], ["SW"]⟩ ⟨["VL", "B1", "B2", "SW", "T"], []⟩).1
    = .thrown := by decide

/-- A substation with an empty voltage level: undefined. -/
theorem substation_undefined :
    (removeSubstation "S" true (fun vl n => (.ok vl, n)) [.bus ⟨"VL", [], []⟩] ⟨["S", "VL"], []⟩).1 = .ub := by decide

end Verif.Removal
