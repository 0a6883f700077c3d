import Verif.NodeBreaker.VLProps

/-!
C21: connecting a terminal.  C22: disconnecting a terminal.
-/

namespace Verif.NodeBreaker

open Verif Verif.Graph

/-- The switch with this handle is a breaker of the voltage level. -/
def IsBreaker (g : Gr) (h : Nat) : Prop :=
  ∃ e ed sw, g.edgeAt e = some ed ∧ ed.obj = some sw ∧ sw.handle = h ∧ sw.kind = .breaker

/-- Breaker on one of the edges. -/
def BreakerOn (g : Gr) (p : List Nat) (h : Nat) : Prop :=
  ∃ e ∈ p, ∃ ed sw, g.edgeAt e = some ed ∧ ed.obj = some sw ∧ sw.handle = h ∧ sw.kind = .breaker

/-- Path from the node to a busbar section without open disconnector. -/
def BusbarPath (g : Gr) (opened : Nat → Bool) (n : Nat) (p : List Nat) : Prop :=
  IsPath g isBusbar (isOpenDisconnector opened) n p

/-- The edge lets current pass. -/
def blocked (opened : Nat → Bool) : Option Sw → Bool
  | some s => opened s.handle
  | none => false

/-- The nodes are linked by closed switches and internal connections. -/
abbrev Linked (g : Gr) (opened : Nat → Bool) (u v : Nat) : Prop := Conn g (fun o => blocked opened o = false) u v

theorem linked_iff {g : Gr} {opened retained : Nat → Bool} {u v : Nat} :
    Linked g opened u v ↔ Conn g (Passing .bus opened retained) u v := by
  constructor
  · refine Conn.mono (fun e ed he hp => ⟨e, he, ?_⟩)
    cases ho : ed.obj with
    | none => trivial
    | some s => rw [ho] at hp; exact ⟨hp, by intro h; cases h⟩
  · refine Conn.mono (fun e ed he hp => ⟨e, he, ?_⟩)
    cases ho : ed.obj with
    | none => rfl
    | some s => rw [ho] at hp; exact hp.1

/-! ### Walks -/

theorem _root_.Verif.Graph.Walk.mono {g : Gr} {c c' : Option Sw → Bool} (h : ∀ o, c o = false → c' o = false) {u : Nat} {p ws : List Nat}
    (hw : Walk g c u p ws) : Walk g c' u p ws := by
  induction hw with
  | nil v => exact .nil v
  | cons h1 h2 h3 _ ih => exact .cons h1 (h _ h2) h3 ih

theorem _root_.Verif.Graph.Walk.length_eq {g : Gr} {c : Option Sw → Bool} {u : Nat} {p ws : List Nat} (hw : Walk g c u p ws) :
    p.length = ws.length := by
  induction hw with
  | nil => rfl
  | cons _ _ _ _ ih => simp [ih]

theorem _root_.Verif.Graph.Walk.split {g : Gr} {c : Option Sw → Bool} {a : Nat} {bs : List Nat} (as : List Nat) :
    ∀ {u : Nat} {p : List Nat}, Walk g c u p (as ++ a :: bs) →
    ∃ p1 p2, p = p1 ++ p2 ∧ Walk g c u p1 (as ++ [a]) ∧ Walk g c a p2 bs := by
  induction as with
  | nil =>
    intro u p h
    cases h with
    | cons h1 h2 h3 h4 => exact ⟨[_], _, rfl, .cons h1 h2 h3 (.nil _), h4⟩
  | cons x as ih =>
    intro u p h
    cases h with
    | cons h1 h2 h3 h4 =>
      obtain ⟨p1, p2, e, k1, k2⟩ := ih h4
      exact ⟨_ :: p1, p2, by rw [e]; rfl, .cons h1 h2 h3 k1, k2⟩

theorem _root_.Verif.Graph.Walk.append {g : Gr} {c : Option Sw → Bool} {a : Nat} {ws : List Nat} (as : List Nat) :
    ∀ {u : Nat} {p q : List Nat}, Walk g c u p (as ++ [a]) → Walk g c a q ws → Walk g c u (p ++ q) (as ++ a :: ws) := by
  induction as with
  | nil =>
    intro u p q h h'
    cases h with
    | cons h1 h2 h3 h4 => cases h4; exact .cons h1 h2 h3 h'
  | cons x as ih =>
    intro u p q h h'
    cases h with
    | cons h1 h2 h3 h4 => exact .cons h1 h2 h3 (ih h4 h')

/-- A chain of passing edges is a walk. -/
theorem walk_of_conn {g : Gr} {c : Option Sw → Bool} {u v : Nat} (h : Conn g (fun o => c o = false) u v) (hne : u ≠ v) :
    ∃ p ws, Walk g c u p (ws ++ [v]) := by
  have aux : u = v ∨ ∃ p ws, Walk g c u p (ws ++ [v]) := by
    clear hne
    induction h with
    | refl => exact Or.inl rfl
    | step _ h2 h3 h4 ih =>
      rcases ih with rfl | ⟨p, ws, hw⟩
      · exact Or.inr ⟨[_], [], .cons h2 h3 h4 (.nil _)⟩
      · have := hw.append ws (.cons h2 h3 h4 (.nil _))
        exact Or.inr ⟨_, ws ++ [_], by simpa using this⟩
  rcases aux with h | h
  · exact absurd h hne
  · exact h

theorem conn_of_walk {g : Gr} {c : Option Sw → Bool} {u : Nat} {p ws : List Nat} (h : Walk g c u p ws) :
    ∀ v ∈ ws, Conn g (fun o => c o = false) u v := by
  induction h with
  | nil => intro v hv; cases hv
  | cons h1 h2 h3 _ ih =>
    intro v hv
    have h0 := Conn.step (P := fun o => c o = false) (.refl) h1 h2 h3
    rcases List.mem_cons.mp hv with rfl | hv
    · exact h0
    · exact h0.trans (ih v hv)

/-- The last vertex of a list with a repeated element. -/
theorem exists_dup {l : List Nat} (h : ¬ l.Nodup) : ∃ x as bs cs, l = as ++ x :: (bs ++ x :: cs) := by
  induction l with
  | nil => exact absurd List.nodup_nil h
  | cons a l ih =>
    by_cases ha : a ∈ l
    · obtain ⟨bs, cs, e⟩ := List.append_of_mem ha
      exact ⟨a, [], bs, cs, by rw [e]; rfl⟩
    · by_cases hl : l.Nodup
      · exact absurd (List.nodup_cons.mpr ⟨ha, hl⟩) h
      · obtain ⟨x, as, bs, cs, e⟩ := ih hl
        exact ⟨x, a :: as, bs, cs, by rw [e]; rfl⟩

/-- From a walk to an accepted vertex other than the start, a path in the sense of the search. -/
theorem path_of_walk {g : Gr} {complete : Option Term → Bool} {c : Option Sw → Bool} (n : Nat) :
    ∀ (u : Nat) (p ws : List Nat) (v : Nat), p.length ≤ n → Walk g c u p (ws ++ [v]) → Accepted g complete v → v ≠ u →
    ∃ p', IsPath g complete c u p' := by
  induction n with
  | zero =>
    intro u p ws v hn hw _ _
    have := Walk.length_eq hw
    simp at this; omega
  | succ n ih =>
    intro u p ws v hn hw hv hne
    by_cases h1 : ∃ a ∈ ws, Accepted g complete a ∧ a ≠ u
    · obtain ⟨a, ha, hacc, hau⟩ := h1
      obtain ⟨as, bs, e⟩ := List.append_of_mem ha
      rw [e, List.append_assoc] at hw
      obtain ⟨p1, p2, e1, k1, k2⟩ := hw.split as
      have l2 := Walk.length_eq k2
      refine ih u p1 as a ?_ k1 hacc hau
      rw [e1] at hn
      simp at hn l2; omega
    · by_cases h2 : u ∈ ws
      · obtain ⟨as, bs, e⟩ := List.append_of_mem h2
        rw [e, List.append_assoc] at hw
        obtain ⟨p1, p2, e1, k1, k2⟩ := hw.split as
        have l1 := Walk.length_eq k1
        refine ih u p2 bs v ?_ k2 hv hne
        rw [e1] at hn
        simp at hn l1; omega
      · by_cases h3 : (u :: (ws ++ [v])).Nodup
        · refine ⟨p, ws, v, hw, h3, ?_, hv⟩
          intro a ha hacc
          by_cases hau : a = u
          · subst hau; exact h2 ha
          · exact h1 ⟨a, ha, hacc, hau⟩
        · have h4 : ¬ (ws ++ [v]).Nodup := by
            intro hh
            apply h3
            refine List.nodup_cons.mpr ⟨?_, hh⟩
            intro hm
            rcases List.mem_append.mp hm with hm | hm
            · exact h2 hm
            · exact hne (List.mem_singleton.mp hm).symm
          obtain ⟨x, as, bs, cs, e⟩ := exists_dup h4
          rw [e] at hw
          obtain ⟨p1, p2, e1, k1, k2⟩ := hw.split as
          obtain ⟨p3, p4, e2, k3, k4⟩ := k2.split bs
          have l3 := Walk.length_eq k3
          have hw2 := k1.append as k4
          -- the new walk still ends at `v`
          have hlast : ∃ ws', as ++ x :: cs = ws' ++ [v] := by
            rcases List.eq_nil_or_concat cs with hcs | ⟨cs', y, hcs⟩
            · subst hcs
              have e' : ws ++ [v] = (as ++ x :: bs) ++ [x] := by rw [e]; simp
              have := (List.append_inj' e' rfl).2
              exact ⟨as, by rw [this]⟩
            · subst hcs
              have e' : ws ++ [v] = (as ++ x :: (bs ++ x :: cs')) ++ [y] := by rw [e]; simp
              have := (List.append_inj' e' rfl).2
              exact ⟨as ++ x :: cs', by rw [this]; simp⟩
          obtain ⟨ws', e3⟩ := hlast
          rw [e3] at hw2
          refine ih u (p1 ++ p4) ws' v ?_ hw2 hv hne
          rw [e1, e2] at hn
          simp at hn l3 ⊢; omega

/-! ### Loops -/

theorem closeLoop_ok {w : Nat} (es : List Nat) : ∀ (b : Bool) (s : VL), (∀ e ∈ es, s.graph.edgeAt e ≠ none) →
    ∃ b' s', closeLoop w es b s = (.ok b', s') ∧
      (∀ v h, s'.opened v h = true ↔ s.opened v h = true ∧ ¬ (v = w ∧ BreakerOn s.graph es h)) ∧
      (b' = true ↔ b = true ∨ ∃ h, BreakerOn s.graph es h ∧ s.opened w h = true) := by
  induction es with
  | nil =>
    intro b s _
    refine ⟨b, s, rfl, ?_, ?_⟩
    · intro v h; simp [BreakerOn]
    · simp [BreakerOn]
  | cons e es ih =>
    intro b s hes
    unfold closeLoop
    have he := hes e (by simp)
    cases hed : s.graph.edgeAt e with
    | none => exact absurd hed he
    | some ed =>
      simp only []
      have hcons : ∀ h, BreakerOn s.graph (e :: es) h ↔
          (∃ sw, ed.obj = some sw ∧ sw.handle = h ∧ sw.kind = .breaker) ∨ BreakerOn s.graph es h := by
        intro h
        constructor
        · rintro ⟨e', he', ed', sw, k1, k2⟩
          rcases List.mem_cons.mp he' with rfl | he'
          · rw [hed] at k1; cases k1; exact Or.inl ⟨sw, k2⟩
          · exact Or.inr ⟨e', he', ed', sw, k1, k2⟩
        · rintro (⟨sw, k⟩ | ⟨e', he', k⟩)
          · exact ⟨e, by simp, ed, sw, hed, k⟩
          · exact ⟨e', by simp [he'], k⟩
      have hskip : (∀ sw, ed.obj = some sw → ¬ (sw.kind = .breaker ∧ s.opened w sw.handle = true)) →
          ∃ b' s', closeLoop w es b s = (.ok b', s') ∧
          (∀ v h, s'.opened v h = true ↔ s.opened v h = true ∧ ¬ (v = w ∧ BreakerOn s.graph (e :: es) h)) ∧
          (b' = true ↔ b = true ∨ ∃ h, BreakerOn s.graph (e :: es) h ∧ s.opened w h = true) := by
        intro hno
        obtain ⟨b', s', r1, r2, r3⟩ := ih b s (fun e' he' => hes e' (by simp [he']))
        refine ⟨b', s', r1, ?_, ?_⟩
        · intro v h
          rw [r2, hcons]
          constructor
          · rintro ⟨k1, k2⟩
            refine ⟨k1, ?_⟩
            rintro ⟨rfl, ⟨sw, q1, q2, q3⟩ | q⟩
            · exact hno sw q1 ⟨q3, by rw [q2]; exact k1⟩
            · exact k2 ⟨rfl, q⟩
          · rintro ⟨k1, k2⟩
            exact ⟨k1, fun q => k2 ⟨q.1, Or.inr q.2⟩⟩
        · rw [r3]
          constructor
          · rintro (k | ⟨h, k1, k2⟩)
            · exact Or.inl k
            · exact Or.inr ⟨h, (hcons h).mpr (Or.inr k1), k2⟩
          · rintro (k | ⟨h, k1, k2⟩)
            · exact Or.inl k
            · rcases (hcons h).mp k1 with ⟨sw, q1, q2, q3⟩ | q
              · exact absurd ⟨q3, by rw [q2]; exact k2⟩ (hno sw q1)
              · exact Or.inr ⟨h, q, k2⟩
      cases hobj : ed.obj with
      | none => rw [hobj] at hskip; exact hskip (by intro sw h; cases h)
      | some sw =>
        simp only []
        by_cases hc : sw.kind = .breaker ∧ s.opened w sw.handle = true
        · rw [if_pos hc]
          obtain ⟨f1, f2, f3, f4, f5, f6⟩ := setOpen_eff s w sw.handle false
          obtain ⟨b', s', r1, r2, r3⟩ := ih true (s.setOpen w sw.handle false)
            (fun e' he' => by rw [f1]; exact hes e' (by simp [he']))
          refine ⟨b', s', r1, ?_, ?_⟩
          · intro v h
            rw [r2, f1, f5, hcons]
            by_cases hvh : v = w ∧ h = sw.handle
            · rw [if_pos hvh]
              constructor
              · rintro ⟨k, _⟩; cases k
              · rintro ⟨_, k⟩
                exact absurd ⟨hvh.1, Or.inl ⟨sw, hobj, hvh.2.symm, hc.1⟩⟩ k
            · rw [if_neg hvh]
              constructor
              · rintro ⟨k1, k2⟩
                refine ⟨k1, ?_⟩
                rintro ⟨q0, ⟨sw', q1, q2, q3⟩ | q⟩
                · rw [hobj] at q1; cases q1
                  exact hvh ⟨q0, q2.symm⟩
                · exact k2 ⟨q0, q⟩
              · rintro ⟨k1, k2⟩
                exact ⟨k1, fun q => k2 ⟨q.1, Or.inr q.2⟩⟩
          · constructor
            · intro _; exact Or.inr ⟨sw.handle, (hcons _).mpr (Or.inl ⟨sw, hobj, rfl, hc.1⟩), hc.2⟩
            · intro _; exact r3.mpr (Or.inl rfl)
        · rw [if_neg hc]
          exact hskip (by intro sw' h; rw [hobj] at h; cases h; exact hc)

theorem openPath_ok {w : Nat} (es : List Nat) : ∀ (s : VL), (∀ e ∈ es, s.graph.edgeAt e ≠ none) →
    ∃ b s', openPath w es s = (.ok b, s') ∧ s'.graph = s.graph ∧
      (∀ v h, s.opened v h = true → s'.opened v h = true) ∧
      (∀ v h, s'.opened v h = true → s.opened v h = true ∨ (v = w ∧ BreakerOn s.graph es h)) ∧
      (b = true → ∃ h, BreakerOn s.graph es h ∧ s'.opened w h = true) ∧
      (b = false → s' = s ∧ ∀ h, ¬ BreakerOn s.graph es h) := by
  induction es with
  | nil =>
    intro s _
    refine ⟨false, s, rfl, rfl, fun _ _ h => h, fun _ _ h => Or.inl h, by simp, fun _ => ⟨rfl, ?_⟩⟩
    rintro h ⟨e, he, _⟩; cases he
  | cons e es ih =>
    intro s hes
    unfold openPath
    have he := hes e (by simp)
    cases hed : s.graph.edgeAt e with
    | none => exact absurd hed he
    | some ed =>
      simp only []
      have hmono : ∀ h, BreakerOn s.graph es h → BreakerOn s.graph (e :: es) h := by
        rintro h ⟨e', he', k⟩; exact ⟨e', by simp [he'], k⟩
      have hskip : (∀ sw, ed.obj = some sw → sw.kind ≠ .breaker) →
          ∃ b s', openPath w es s = (.ok b, s') ∧ s'.graph = s.graph ∧
          (∀ v h, s.opened v h = true → s'.opened v h = true) ∧
          (∀ v h, s'.opened v h = true → s.opened v h = true ∨ (v = w ∧ BreakerOn s.graph (e :: es) h)) ∧
          (b = true → ∃ h, BreakerOn s.graph (e :: es) h ∧ s'.opened w h = true) ∧
          (b = false → s' = s ∧ ∀ h, ¬ BreakerOn s.graph (e :: es) h) := by
        intro hno
        obtain ⟨b, s', r1, r2, r3, r4, r5, r6⟩ := ih s (fun e' he' => hes e' (by simp [he']))
        refine ⟨b, s', r1, r2, r3, ?_, ?_, ?_⟩
        · intro v h hh
          rcases r4 v h hh with k | ⟨k1, k2⟩
          · exact Or.inl k
          · exact Or.inr ⟨k1, hmono h k2⟩
        · intro hb; obtain ⟨h, k1, k2⟩ := r5 hb; exact ⟨h, hmono h k1, k2⟩
        · intro hb
          obtain ⟨k1, k2⟩ := r6 hb
          refine ⟨k1, ?_⟩
          rintro h ⟨e', he', ed', sw, q1, q2, q3, q4⟩
          rcases List.mem_cons.mp he' with rfl | he'
          · rw [hed] at q1; cases q1; exact hno sw q2 q4
          · exact k2 h ⟨e', he', ed', sw, q1, q2, q3, q4⟩
      cases hobj : ed.obj with
      | none => rw [hobj] at hskip; exact hskip (by intro sw h; cases h)
      | some sw =>
        simp only []
        by_cases hk : sw.kind = .breaker
        · rw [if_pos hk]
          have hon : BreakerOn s.graph (e :: es) sw.handle := ⟨e, by simp, ed, sw, hed, hobj, rfl, hk⟩
          by_cases ho : s.opened w sw.handle = true
          · rw [if_pos ho]
            exact ⟨true, s, rfl, rfl, fun _ _ h => h, fun _ _ h => Or.inl h, fun _ => ⟨_, hon, ho⟩, by simp⟩
          · rw [if_neg ho]
            obtain ⟨f1, f2, f3, f4, f5, f6⟩ := setOpen_eff s w sw.handle true
            refine ⟨true, _, rfl, f1, ?_, ?_, fun _ => ⟨_, hon, by rw [f5]; simp⟩, by simp⟩
            · intro v h hh; rw [f5]; split
              · rfl
              · exact hh
            · intro v h hh
              rw [f5] at hh
              by_cases hvh : v = w ∧ h = sw.handle
              · exact Or.inr ⟨hvh.1, by rw [hvh.2]; exact hon⟩
              · rw [if_neg hvh] at hh; exact Or.inl hh
        · rw [if_neg hk]
          exact hskip (by intro sw' h; rw [hobj] at h; cases h; exact hk)

theorem openLoop_ok {w : Nat} (ps : List (List Nat)) : ∀ (s : VL), (∀ p ∈ ps, ∀ e ∈ p, s.graph.edgeAt e ≠ none) →
    ∃ b s', openLoop w ps s = (.ok b, s') ∧ s'.graph = s.graph ∧
      (∀ v h, s.opened v h = true → s'.opened v h = true) ∧
      (∀ v h, s'.opened v h = true → s.opened v h = true ∨ (v = w ∧ ∃ p ∈ ps, BreakerOn s.graph p h)) ∧
      (b = true → ∀ p ∈ ps, ∃ h, BreakerOn s.graph p h ∧ s'.opened w h = true) ∧
      (b = false → ∃ p ∈ ps, ∀ h, ¬ BreakerOn s.graph p h) := by
  induction ps with
  | nil => intro s _; exact ⟨true, s, rfl, rfl, fun _ _ h => h, fun _ _ h => Or.inl h, by simp, by simp⟩
  | cons p ps ih =>
    intro s hps
    unfold openLoop
    obtain ⟨b, s1, r1, r2, r3, r4, r5, r6⟩ := openPath_ok (w := w) p s (hps p (by simp))
    rw [r1]
    cases b with
    | false =>
      obtain ⟨k1, k2⟩ := r6 rfl
      refine ⟨false, s1, rfl, r2, r3, ?_, by simp, fun _ => ⟨p, by simp, k2⟩⟩
      intro v h hh; rw [k1] at hh; exact Or.inl hh
    | true =>
      obtain ⟨h0, q1, q2⟩ := r5 rfl
      obtain ⟨b', s2, p1, p2, p3, p4, p5, p6⟩ := ih s1 (by rw [r2]; intro p' hp'; exact hps p' (by simp [hp']))
      rw [r2] at p4 p5 p6
      refine ⟨b', s2, p1, p2.trans r2, fun v h hh => p3 v h (r3 v h hh), ?_, ?_, ?_⟩
      · intro v h hh
        rcases p4 v h hh with k | ⟨k, p', hp', k2⟩
        · rcases r4 v h k with k | ⟨k, k2⟩
          · exact Or.inl k
          · exact Or.inr ⟨k, p, by simp, k2⟩
        · exact Or.inr ⟨k, p', by simp [hp'], k2⟩
      · intro hb p' hp'
        rcases List.mem_cons.mp hp' with rfl | hp'
        · exact ⟨h0, q1, p3 w h0 q2⟩
        · exact p5 hb p' hp'
      · intro hb
        obtain ⟨p', hp', k⟩ := p6 hb
        exact ⟨p', by simp [hp'], k⟩

theorem walk_edges {g : Gr} {c : Option Sw → Bool} {u : Nat} {p ws : List Nat} (h : Walk g c u p ws) :
    ∀ e ∈ p, ∃ ed, g.edgeAt e = some ed ∧ c ed.obj = false := by
  induction h with
  | nil => intro e he; cases he
  | cons h1 h2 _ _ ih =>
    intro e he
    rcases List.mem_cons.mp he with rfl | he
    · exact ⟨_, h1, h2⟩
    · exact ih e he

theorem isPath_live {g : Gr} {complete : Option Term → Bool} {c : Option Sw → Bool} {u : Nat} {p : List Nat}
    (h : IsPath g complete c u p) : ∀ e ∈ p, g.edgeAt e ≠ none := by
  obtain ⟨ws, w, hw, _⟩ := h
  intro e he
  obtain ⟨ed, h1, _⟩ := walk_edges hw e he
  rw [h1]; simp

theorem isPath_congr {g g' : Gr} (hv : g'.vertices = g.vertices) (he : g'.edges = g.edges)
    {complete : Option Term → Bool} {c : Option Sw → Bool} {u : Nat} {p : List Nat} :
    IsPath g' complete c u p ↔ IsPath g complete c u p := by
  have hV := vertexAt_congr (g := g) (g' := g') hv
  have hE := edgeAt_congr (g := g) (g' := g') he
  have hW : ∀ {u p ws}, Walk g' c u p ws ↔ Walk g c u p ws := by
    intro u p ws
    constructor
    · intro h
      induction h with
      | nil v => exact .nil v
      | cons h1 h2 h3 _ ih => exact .cons (by rw [← hE]; exact h1) h2 h3 ih
    · intro h
      induction h with
      | nil v => exact .nil v
      | cons h1 h2 h3 _ ih => exact .cons (by rw [hE]; exact h1) h2 h3 ih
  unfold IsPath Accepted
  simp only [hW, hV]

theorem busbar_iff {g : Gr} {x : Nat} : Accepted g isBusbar x ↔ Has g (· = .busbarSection) x := by
  unfold Accepted Has
  constructor
  · rintro ⟨o, h1, h2⟩
    cases o with
    | none => cases h2
    | some t => exact ⟨t, h1, of_decide_eq_true h2⟩
  · rintro ⟨t, h1, h2⟩
    exact ⟨some t, h1, decide_eq_true h2⟩

/-! ### C21 -/

/-- The answer of `isConnected` when the caches are current. -/
theorem isConnected_fresh {s : VL} (hi : VInv s) (hf : Fresh s) {w : Nat} {t : Term} (hn : s.graph.vertexAt t.node ≠ none) :
    ∃ b, (s.isConnected w t).1 = .ok b ∧ (b = true ↔ Qualifies s.graph .bus (Passing .bus (s.opened w) (s.retained w)) t.node) := by
  obtain ⟨c, h1, h2, _⟩ := getBus_fresh hi.g hf .bus w t.node
  obtain ⟨c', k1, k2⟩ := compute_total s.id hi.g .bus (s.opened w) (s.retained w)
  rw [h1] at k1; cases k1
  obtain ⟨r, hr⟩ := k2 _ hn
  rw [hr] at h2
  refine ⟨r.isSome, ?_, ?_⟩
  · unfold VL.isConnected
    revert h2
    rcases s.getBus .bus w t.node with ⟨o, s'⟩
    intro h2
    cases h2; rfl
  · have := same_bus_iff_busView hi.g h1 t.node t.node
    constructor
    · intro hb
      cases r with
      | none => cases hb
      | some id => exact (this.mp ⟨id, hr, hr⟩).1
    · intro hq
      obtain ⟨id, hid, _⟩ := this.mpr ⟨hq, .refl⟩
      rw [hr] at hid; cases hid; rfl

/-- The state in which the path search runs. -/
theorem isConnected_same {s s1 : VL} (hi : VInv s) {w : Nat} {t : Term} {o : Out Bool} (h : s.isConnected w t = (o, s1)) :
    SameTopo s s1 ∧ VInv s1 := by
  have h2 : s1 = (s.update .bus w).2 := by rw [← isConnected_snd s w t, h]
  rw [h2]
  exact ⟨(update_same s hi.g .bus w).1, inv_update hi .bus w⟩

theorem connect_cases {s s' : VL} (hi : VInv s) {w : Nat} {t : Term} (hn : s.graph.vertexAt t.node ≠ none)
    {o : Out Bool} (h : s.Connect w t (o, s')) :
    (s'.opened = s.opened ∧ o ≠ .ok true) ∨
    ∃ p b, o = .ok b ∧ BusbarPath s.graph (s.opened w) t.node p ∧
      (∀ q, BusbarPath s.graph (s.opened w) t.node q → p.length ≤ q.length) ∧
      (∀ v h, s'.opened v h = true ↔ s.opened v h = true ∧ ¬ (v = w ∧ BreakerOn s.graph p h)) ∧
      (b = true ↔ ∃ h, BreakerOn s.graph p h ∧ s.opened w h = true) := by
  unfold VL.Connect at h
  cases hc : s.isConnected w t with
  | mk r s1 =>
  obtain ⟨hs, hi1⟩ := isConnected_same hi hc
  rw [hc] at h
  cases r with
  | ok b =>
    cases b with
    | true => cases h; exact Or.inl ⟨hs.opened, by simp⟩
    | false =>
      obtain ⟨p, hp, h⟩ := h
      have hn1 : s1.graph.vertexExists t.node = true := by
        unfold G.vertexExists
        rw [vertexAt_congr hs.vertices]
        exact Option.isSome_iff_ne_none.mpr hn
      obtain ⟨ps, e, _, k2, k3⟩ := (findAllPaths_exact hi1.g isBusbar (isOpenDisconnector (s1.opened w)) hn1).2 _ hp
      subst e
      cases ps with
      | nil => cases h; exact Or.inl ⟨hs.opened, by simp⟩
      | cons path ps =>
        right
        have h' : (o, s') = closeLoop w path false s1 := h
        have hpath : IsPath s1.graph isBusbar (isOpenDisconnector (s1.opened w)) t.node path := (k2 path).mp (by simp)
        obtain ⟨b', s2, r1, r2, r3⟩ := closeLoop_ok (w := w) path false s1 (isPath_live hpath)
        rw [r1] at h'
        cases h'
        have hB : ∀ h, BreakerOn s1.graph path h ↔ BreakerOn s.graph path h := by
          intro h; unfold BreakerOn; rw [edgeAt_congr hs.edges]
        simp only [hB] at r2 r3
        rw [hs.opened] at r2 r3
        refine ⟨path, b', rfl, ?_, ?_, r2, ?_⟩
        · unfold BusbarPath
          rw [← isPath_congr hs.vertices hs.edges, ← hs.opened]; exact hpath
        · intro q hq
          have := findAllPaths_first_shortest hi1.g hn1 hp q (by
            rw [isPath_congr hs.vertices hs.edges, hs.opened]; exact hq)
          exact this
        · rw [r3]; simp
  | thrown => cases h; exact Or.inl ⟨hs.opened, by simp⟩
  | ub => cases h; exact Or.inl ⟨hs.opened, by simp⟩

/-- C21: connecting a terminal never opens a switch, changes the working variant only, and closes only breakers; when it
    does not answer true, no switch has moved; when it answers true, some open breaker has been closed.  The equipment, the
    switches and the connections stay. -/
theorem connect_closes_breakers {id : String} {s s' : VL} (hr : VReach id s) {w : Nat} {t : Term}
    (ht : occupant s.graph t.node = some t) {o : Out Bool} (h : s.Connect w t (o, s')) :
    (∀ v h, s'.opened v h = true → s.opened v h = true) ∧
    (∀ v h, s.opened v h = true → s'.opened v h = false → v = w ∧ IsBreaker s.graph h) ∧
    (o ≠ .ok true → s'.opened = s.opened) ∧
    (o = .ok true → ∃ h, IsBreaker s.graph h ∧ s.opened w h = true ∧ s'.opened w h = false) ∧
    s'.retained = s.retained ∧ s'.graph.vertices = s.graph.vertices ∧ s'.graph.edges = s.graph.edges := by
  have hi := hr.inv
  have hn : s.graph.vertexAt t.node ≠ none := by rw [vertexAt_of_occ ht]; simp
  have hsame := connect_sameGraph h
  have hup := (update_same s hi.g .bus w).1
  have hB : ∀ p h, BreakerOn s.graph p h → IsBreaker s.graph h := by
    rintro p h ⟨e, _, k⟩; exact ⟨e, k⟩
  refine ⟨?_, ?_, ?_, ?_, hsame.retained.trans hup.retained, by rw [hsame.graph]; exact hup.vertices,
    by rw [hsame.graph]; exact hup.edges⟩
  · intro v k hk
    rcases connect_cases hi hn h with ⟨e, _⟩ | ⟨p, b, _, _, _, q, _⟩
    · rw [e] at hk; exact hk
    · exact ((q v k).mp hk).1
  · intro v k hk hk'
    rcases connect_cases hi hn h with ⟨e, _⟩ | ⟨p, b, _, _, _, q, _⟩
    · rw [e, hk] at hk'; cases hk'
    · by_cases hb : v = w ∧ BreakerOn s.graph p k
      · exact ⟨hb.1, hB p k hb.2⟩
      · rw [(q v k).mpr ⟨hk, hb⟩] at hk'; cases hk'
  · intro ho
    rcases connect_cases hi hn h with ⟨e, _⟩ | ⟨p, b, e, _, _, q, q2⟩
    · exact e
    · cases b with
      | true => exact absurd e ho
      | false =>
        funext v k
        have := q v k
        by_cases hk : s.opened v k = true
        · rw [hk]
          refine this.mpr ⟨hk, ?_⟩
          rintro ⟨rfl, hb⟩
          have := q2.mpr ⟨k, hb, hk⟩
          cases this
        · have hk' : s.opened v k = false := by simpa using hk
          rw [hk']
          by_cases hk2 : s'.opened v k = true
          · exact absurd (this.mp hk2).1 hk
          · simpa using hk2
  · intro ho
    rcases connect_cases hi hn h with ⟨_, e⟩ | ⟨p, b, e, _, _, q, q2⟩
    · exact absurd ho e
    · rw [ho] at e; cases e
      obtain ⟨k, k1, k2⟩ := q2.mp rfl
      refine ⟨k, hB p k k1, k2, ?_⟩
      by_cases hk : s'.opened w k = true
      · exact absurd ⟨rfl, k1⟩ ((q w k).mp hk).2
      · simpa using hk

/-- C21: when connecting answers true, the closed breakers are those of a shortest path from the terminal to a busbar
    section that avoids open disconnectors, and all of them are closed afterwards. -/
theorem connect_closes_shortest_path {id : String} {s s' : VL} (hr : VReach id s) {w : Nat} {t : Term}
    (ht : occupant s.graph t.node = some t) (h : s.Connect w t (.ok true, s')) :
    ∃ p, BusbarPath s.graph (s.opened w) t.node p ∧
      (∀ q, BusbarPath s.graph (s.opened w) t.node q → p.length ≤ q.length) ∧
      (∀ k, BreakerOn s.graph p k → s'.opened w k = false) ∧
      (∀ v k, s'.opened v k ≠ s.opened v k → v = w ∧ BreakerOn s.graph p k) := by
  have hi := hr.inv
  have hn : s.graph.vertexAt t.node ≠ none := by rw [vertexAt_of_occ ht]; simp
  rcases connect_cases hi hn h with ⟨_, e⟩ | ⟨p, b, e, q0, q1, q, q2⟩
  · exact absurd rfl e
  · refine ⟨p, q0, q1, ?_, ?_⟩
    · intro k hk
      by_cases hk' : s'.opened w k = true
      · exact absurd ⟨rfl, hk⟩ ((q w k).mp hk').2
      · simpa using hk'
    · intro v k hk
      by_cases hb : v = w ∧ BreakerOn s.graph p k
      · exact hb
      · exfalso
        apply hk
        have := q v k
        by_cases ho : s.opened v k = true
        · rw [ho]; exact this.mpr ⟨ho, hb⟩
        · have ho' : s.opened v k = false := by simpa using ho
          rw [ho']
          by_cases hk2 : s'.opened v k = true
          · exact absurd (this.mp hk2).1 ho
          · simpa using hk2

/-- C21: when connecting answers true and there is no open load break switch, the terminal reaches a busbar section
    through closed switches.  Missing for the full property: topologies with open load break switches
    (`connect_stops_at_load_break_switch`). -/
theorem connect_reaches_busbar_partial {id : String} {s s' : VL} (hr : VReach id s) {w : Nat} {t : Term}
    (ht : occupant s.graph t.node = some t) (h : s.Connect w t (.ok true, s'))
    (hl : ∀ e ed sw, s.graph.edgeAt e = some ed → ed.obj = some sw → sw.kind = .loadBreakSwitch →
      s.opened w sw.handle = false) :
    ∃ x, Has s'.graph (· = .busbarSection) x ∧ Linked s'.graph (s'.opened w) t.node x := by
  obtain ⟨h1, _, _, _, _, hv, he⟩ := connect_closes_breakers hr ht h
  obtain ⟨p, ⟨ws, x, hw, _, _, hx⟩, _, q3, q4⟩ := connect_closes_shortest_path hr ht h
  have hE := edgeAt_congr (g := s.graph) (g' := s'.graph) he
  have hV := vertexAt_congr (g := s.graph) (g' := s'.graph) hv
  refine ⟨x, ?_, ?_⟩
  · have := busbar_iff.mp hx
    unfold Has at this ⊢; rw [hV]; exact this
  · have hclosed : ∀ e ∈ p, ∀ ed, s.graph.edgeAt e = some ed → blocked (s'.opened w) ed.obj = false := by
      intro e hep ed hed
      cases hobj : ed.obj with
      | none => rfl
      | some sw =>
        show s'.opened w sw.handle = false
        cases hk : sw.kind with
        | breaker => exact q3 _ ⟨e, hep, ed, sw, hed, hobj, rfl, hk⟩
        | loadBreakSwitch =>
          have := hl e ed sw hed hobj hk
          by_cases ho : s'.opened w sw.handle = true
          · rw [h1 _ _ ho] at this; cases this
          · simpa using ho
        | disconnector =>
          obtain ⟨ed', k1, k2⟩ := walk_edges hw e hep
          rw [hed] at k1; cases k1
          rw [hobj] at k2
          have k3 : s.opened w sw.handle = false := by
            simpa [isOpenDisconnector, hk] using k2
          by_cases ho : s'.opened w sw.handle = true
          · rw [h1 _ _ ho] at k3; cases k3
          · simpa using ho
    have : ∀ {u p ws}, Walk s.graph (isOpenDisconnector (s.opened w)) u p ws →
        (∀ e ∈ p, ∀ ed, s.graph.edgeAt e = some ed → blocked (s'.opened w) ed.obj = false) →
        Walk s'.graph (blocked (s'.opened w)) u p ws := by
      intro u p ws hw
      induction hw with
      | nil v => intro _; exact .nil v
      | cons k1 k2 k3 _ ih =>
        intro hc
        exact .cons (by rw [hE]; exact k1) (hc _ (by simp) _ k1) k3 (ih (fun e he => hc e (by simp [he])))
    exact conn_of_walk (this hw hclosed) x (by simp)

/-- C21: connecting a terminal of a voltage level with current caches always answers. -/
theorem connect_answers {s : VL} {id : String} (hr : SafeReach id s) {w : Nat} {t : Term}
    (ht : occupant s.graph t.node = some t) :
    (∃ r, s.Connect w t r) ∧ ∀ o s', s.Connect w t (o, s') → ∃ b, o = .ok b := by
  have hi := hr.reach.inv
  have hn : s.graph.vertexAt t.node ≠ none := by rw [vertexAt_of_occ ht]; simp
  obtain ⟨b, hb, _⟩ := isConnected_fresh hi hr.fresh (w := w) hn
  unfold VL.Connect
  cases hc : s.isConnected w t with
  | mk r s1 =>
  rw [hc] at hb
  cases hb
  obtain ⟨hs, hi1⟩ := isConnected_same hi hc
  have hn1 : s1.graph.vertexExists t.node = true := by
    unfold G.vertexExists
    rw [vertexAt_congr hs.vertices]
    exact Option.isSome_iff_ne_none.mpr hn
  cases b with
  | true => exact ⟨⟨_, rfl⟩, by rintro o s' h; cases h; exact ⟨_, rfl⟩⟩
  | false =>
    obtain ⟨⟨p0, hp0⟩, hall⟩ := findAllPaths_exact hi1.g isBusbar (isOpenDisconnector (s1.opened w)) hn1
    constructor
    · obtain ⟨ps, e, _⟩ := hall _ hp0
      subst e
      cases ps with
      | nil => exact ⟨_, _, hp0, rfl⟩
      | cons p ps => exact ⟨_, _, hp0, rfl⟩
    · rintro o s' ⟨p, hp, h⟩
      obtain ⟨ps, e, _, k2, _⟩ := hall _ hp
      subst e
      cases ps with
      | nil => cases h; exact ⟨_, rfl⟩
      | cons p ps =>
        have h' : (o, s') = closeLoop w p false s1 := h
        obtain ⟨b', s2, r1, _⟩ := closeLoop_ok (w := w) p false s1 (isPath_live ((k2 p).mp (by simp)))
        rw [r1] at h'; cases h'; exact ⟨_, rfl⟩

/-! ### C22 -/

theorem disconnect_cases {s s' : VL} (hi : VInv s) {w : Nat} {t : Term} (hn : s.graph.vertexAt t.node ≠ none)
    {o : Out Bool} (h : s.Disconnect w t (o, s')) :
    (s'.opened = s.opened ∧ o ≠ .ok true) ∨
    ∃ b, o = .ok b ∧
      (∀ v h, s.opened v h = true → s'.opened v h = true) ∧
      (∀ v h, s'.opened v h = true → s.opened v h = true ∨
        (v = w ∧ ∃ p, BusbarPath s.graph (s.opened w) t.node p ∧ BreakerOn s.graph p h)) ∧
      (b = true → ∀ p, BusbarPath s.graph (s.opened w) t.node p → ∃ h, BreakerOn s.graph p h ∧ s'.opened w h = true) ∧
      (b = false → ∃ p, BusbarPath s.graph (s.opened w) t.node p ∧ ∀ h, ¬ BreakerOn s.graph p h) := by
  unfold VL.Disconnect at h
  cases hc : s.isConnected w t with
  | mk r s1 =>
  obtain ⟨hs, hi1⟩ := isConnected_same hi hc
  rw [hc] at h
  cases r with
  | ok b =>
    cases b with
    | false => cases h; exact Or.inl ⟨hs.opened, by simp⟩
    | true =>
      obtain ⟨p, hp, h⟩ := h
      have hn1 : s1.graph.vertexExists t.node = true := by
        unfold G.vertexExists
        rw [vertexAt_congr hs.vertices]
        exact Option.isSome_iff_ne_none.mpr hn
      obtain ⟨ps, e, _, k2, k3⟩ := (findAllPaths_exact hi1.g isBusbar (isOpenDisconnector (s1.opened w)) hn1).2 _ hp
      subst e
      cases hps : ps with
      | nil => subst hps; cases h; exact Or.inl ⟨hs.opened, by simp⟩
      | cons path ps' =>
        right
        have h' : (o, s') = openLoop w ps s1 := by subst hps; exact h
        obtain ⟨b', s2, r1, r2, r3, r4, r5, r6⟩ := openLoop_ok (w := w) ps s1 (fun p hp => isPath_live ((k2 p).mp hp))
        rw [r1] at h'
        cases h'
        have hB : ∀ p h, BreakerOn s1.graph p h ↔ BreakerOn s.graph p h := by
          intro p h; unfold BreakerOn; rw [edgeAt_congr hs.edges]
        have hP : ∀ p, p ∈ ps ↔ BusbarPath s.graph (s.opened w) t.node p := by
          intro p
          rw [k2, isPath_congr hs.vertices hs.edges, hs.opened]; rfl
        simp only [hB] at r4 r5 r6
        rw [hs.opened] at r3 r4
        refine ⟨b', rfl, r3, ?_, ?_, ?_⟩
        · intro v k hk
          rcases r4 v k hk with q | ⟨q, p, hp, q2⟩
          · exact Or.inl q
          · exact Or.inr ⟨q, p, (hP p).mp hp, q2⟩
        · intro hb p hp; exact r5 hb p ((hP p).mpr hp)
        · intro hb; obtain ⟨p, hp, q⟩ := r6 hb; exact ⟨p, (hP p).mp hp, q⟩
  | thrown => cases h; exact Or.inl ⟨hs.opened, by simp⟩
  | ub => cases h; exact Or.inl ⟨hs.opened, by simp⟩

/-- C22: disconnecting a terminal never closes a switch, changes the working variant only, and opens only breakers. -/
theorem disconnect_opens_breakers {id : String} {s s' : VL} (hr : VReach id s) {w : Nat} {t : Term}
    (ht : occupant s.graph t.node = some t) {o : Out Bool} (h : s.Disconnect w t (o, s')) :
    (∀ v h, s.opened v h = true → s'.opened v h = true) ∧
    (∀ v h, s.opened v h = false → s'.opened v h = true → v = w ∧ IsBreaker s.graph h) ∧
    s'.retained = s.retained ∧ s'.graph.vertices = s.graph.vertices ∧ s'.graph.edges = s.graph.edges := by
  have hi := hr.inv
  have hn : s.graph.vertexAt t.node ≠ none := by rw [vertexAt_of_occ ht]; simp
  have hsame := disconnect_sameGraph h
  have hup := (update_same s hi.g .bus w).1
  refine ⟨?_, ?_, hsame.retained.trans hup.retained, by rw [hsame.graph]; exact hup.vertices,
    by rw [hsame.graph]; exact hup.edges⟩
  · intro v k hk
    rcases disconnect_cases hi hn h with ⟨e, _⟩ | ⟨b, _, q, _⟩
    · rw [e]; exact hk
    · exact q v k hk
  · intro v k hk hk'
    rcases disconnect_cases hi hn h with ⟨e, _⟩ | ⟨b, _, _, q, _⟩
    · rw [e, hk] at hk'; cases hk'
    · rcases q v k hk' with q | ⟨q1, p, _, e, _, q2⟩
      · rw [hk] at q; cases q
      · exact ⟨q1, e, q2⟩

/-- C22: when disconnecting answers true, the terminal no longer reaches any (other) busbar section through closed
    switches and internal connections. -/
theorem disconnect_isolates {id : String} {s s' : VL} (hr : VReach id s) {w : Nat} {t : Term}
    (ht : occupant s.graph t.node = some t) (h : s.Disconnect w t (.ok true, s')) {x : Nat}
    (hx : Has s'.graph (· = .busbarSection) x) (hne : x ≠ t.node) : ¬ Linked s'.graph (s'.opened w) t.node x := by
  intro hl
  have hi := hr.inv
  have hn : s.graph.vertexAt t.node ≠ none := by rw [vertexAt_of_occ ht]; simp
  obtain ⟨m1, _, _, hv, he⟩ := disconnect_opens_breakers hr ht h
  rcases disconnect_cases hi hn h with ⟨_, e⟩ | ⟨b, e, _, _, q, _⟩
  · exact absurd rfl e
  · cases e
    obtain ⟨p, ws, hw⟩ := walk_of_conn hl (Ne.symm hne)
    obtain ⟨p', hp'⟩ := path_of_walk (complete := isBusbar) p.length t.node p ws x (Nat.le_refl _) hw (busbar_iff.mpr hx) hne
    obtain ⟨ws', x', hw', hnd, hno, hacc⟩ := hp'
    have hcl : ∀ e ∈ p', ∀ ed sw, s'.graph.edgeAt e = some ed → ed.obj = some sw → s'.opened w sw.handle = false := by
      intro e hep ed sw hed hobj
      obtain ⟨ed', k1, k2⟩ := walk_edges hw' e hep
      rw [hed] at k1; cases k1
      rw [hobj] at k2; exact k2
    have hbp : BusbarPath s.graph (s.opened w) t.node p' := by
      unfold BusbarPath
      rw [← isPath_congr hv he]
      refine ⟨ws', x', hw'.mono ?_, hnd, hno, hacc⟩
      intro o ho
      cases o with
      | none => rfl
      | some sw =>
        have ho' : s'.opened w sw.handle = false := ho
        show (decide (sw.kind = .disconnector) && s.opened w sw.handle) = false
        have : s.opened w sw.handle = false := by
          by_cases hk : s.opened w sw.handle = true
          · rw [m1 _ _ hk] at ho'; cases ho'
          · simpa using hk
        rw [this]; simp
    obtain ⟨k, ⟨e, he', ed, sw, k1, k2, k3, _⟩, k5⟩ := q rfl p' hbp
    have := hcl e he' ed sw (by rw [edgeAt_congr he]; exact k1) k2
    rw [k3, k5] at this; cases this

/-- C22: when disconnecting does not answer true and every path to a busbar section has a breaker, nothing has changed.
    Missing for the full property: a path without breaker (`disconnect_refused_but_opened`). -/
theorem disconnect_refused_partial {id : String} {s s' : VL} (hr : VReach id s) {w : Nat} {t : Term}
    (ht : occupant s.graph t.node = some t) {o : Out Bool} (h : s.Disconnect w t (o, s')) (ho : o ≠ .ok true)
    (hp : ∀ p, BusbarPath s.graph (s.opened w) t.node p → ∃ h, BreakerOn s.graph p h) : s'.opened = s.opened := by
  have hn : s.graph.vertexAt t.node ≠ none := by rw [vertexAt_of_occ ht]; simp
  rcases disconnect_cases hr.inv hn h with ⟨e, _⟩ | ⟨b, e, _, _, _, q⟩
  · exact e
  · cases b with
    | true => exact absurd e ho
    | false =>
      obtain ⟨p, q1, q2⟩ := q rfl
      obtain ⟨k, hk⟩ := hp p q1
      exact absurd hk (q2 k)

/-- C22: disconnecting always answers when the caches are current. -/
theorem disconnect_answers {s : VL} {id : String} (hr : SafeReach id s) {w : Nat} {t : Term}
    (ht : occupant s.graph t.node = some t) :
    (∃ r, s.Disconnect w t r) ∧ ∀ o s', s.Disconnect w t (o, s') → ∃ b, o = .ok b := by
  have hi := hr.reach.inv
  have hn : s.graph.vertexAt t.node ≠ none := by rw [vertexAt_of_occ ht]; simp
  obtain ⟨b, hb, _⟩ := isConnected_fresh hi hr.fresh (w := w) hn
  unfold VL.Disconnect
  cases hc : s.isConnected w t with
  | mk r s1 =>
  rw [hc] at hb
  cases hb
  obtain ⟨hs, hi1⟩ := isConnected_same hi hc
  have hn1 : s1.graph.vertexExists t.node = true := by
    unfold G.vertexExists
    rw [vertexAt_congr hs.vertices]
    exact Option.isSome_iff_ne_none.mpr hn
  cases b with
  | false => exact ⟨⟨_, rfl⟩, by rintro o s' h; cases h; exact ⟨_, rfl⟩⟩
  | true =>
    obtain ⟨⟨p0, hp0⟩, hall⟩ := findAllPaths_exact hi1.g isBusbar (isOpenDisconnector (s1.opened w)) hn1
    constructor
    · obtain ⟨ps, e, _⟩ := hall _ hp0
      subst e
      cases ps with
      | nil => exact ⟨_, _, hp0, rfl⟩
      | cons p ps => exact ⟨_, _, hp0, rfl⟩
    · rintro o s' ⟨p, hp, h⟩
      obtain ⟨ps, e, _, k2, _⟩ := hall _ hp
      subst e
      cases hps : ps with
      | nil => subst hps; cases h; exact ⟨_, rfl⟩
      | cons p ps' =>
        have h' : (o, s') = openLoop w ps s1 := by subst hps; exact h
        obtain ⟨b', s2, r1, _⟩ := openLoop_ok (w := w) ps s1 (fun p hp => isPath_live ((k2 p).mp hp))
        rw [r1] at h'; cases h'; exact ⟨_, rfl⟩

/-! ### Examples and findings -/

/-- A voltage level built by attaching terminals, then adding switches (switch, open, nodes). -/
def build (ts : List Term) (sws : List (Sw × Bool × Nat × Nat)) : VL :=
  sws.foldl (fun s x => (s.addSwitch true x.1 x.2.1 false x.2.2.1 x.2.2.2).2)
    (ts.foldl (fun s t => (s.attach t false).2) ({ id := "VL" } : VL))

theorem addSwitch_cache (s : VL) (sw : Sw) (o r : Bool) (n1 n2 : Nat) : (s.addSwitch true sw o r n1 n2).2.cache = s.cache := by
  unfold VL.addSwitch
  simp only [Bool.not_true, Bool.false_eq_true, if_false]
  split <;> rfl

theorem attach_cache {s : VL} (hs : ∀ view w, s.cache view w = none) (t : Term) (view : View) (w : Nat) :
    (s.attach t false).2.cache view w = none := by
  unfold VL.attach
  simp only [Bool.false_eq_true, if_false]
  split <;> first | exact hs view w | rfl | simp [VL.invalidateAll, hs]

theorem build_reach (ts : List Term) (sws : List (Sw × Bool × Nat × Nat)) : SafeReach "VL" (build ts sws) := by
  have h1 : ∀ (ts : List Term) (s : VL), SafeReach "VL" s → (∀ view w, s.cache view w = none) →
      SafeReach "VL" (ts.foldl (fun s t => (s.attach t false).2) s) ∧
      ∀ view w, (ts.foldl (fun s t => (s.attach t false).2) s).cache view w = none := by
    intro ts
    induction ts with
    | nil => intro s h hc; exact ⟨h, hc⟩
    | cons t ts ih =>
      intro s h hc
      exact ih _ (.step (a := .attach t false) h trivial rfl) (attach_cache hc t)
  have h2 : ∀ (sws : List (Sw × Bool × Nat × Nat)) (s : VL), SafeReach "VL" s → (∀ view w, s.cache view w = none) →
      SafeReach "VL" (sws.foldl (fun s x => (s.addSwitch true x.1 x.2.1 false x.2.2.1 x.2.2.2).2) s) := by
    intro sws
    induction sws with
    | nil => intro s h _; exact h
    | cons x sws ih =>
      intro s h hc
      refine ih _ (.step (a := .addSwitch true x.1 x.2.1 false x.2.2.1 x.2.2.2) h hc rfl) ?_
      intro view w; rw [addSwitch_cache]; exact hc view w
  obtain ⟨k1, k2⟩ := h1 ts { id := "VL" } .init (fun _ _ => rfl)
  exact h2 sws _ k1 k2

/-- The nodes reached from a set closed under the passing edges stay in the set. -/
theorem linked_inside {g : Gr} {opened : Nat → Bool} (S : List Nat)
    (hS : ∀ o ∈ g.edges, ∀ ed, o = some ed → blocked opened ed.obj = false → (ed.v1 ∈ S ↔ ed.v2 ∈ S)) {u v : Nat}
    (hu : u ∈ S) (h : Linked g opened u v) : v ∈ S := by
  induction h with
  | refl => exact hu
  | step _ h2 h3 h4 ih =>
    rename_i e ed _
    have hm : some ed ∈ g.edges := by
      unfold G.edgeAt at h2
      rcases hj : g.edges[e]? with _ | o
      · rw [hj] at h2; cases h2
      · rw [hj] at h2
        have h2' : o = some ed := h2
        rw [← h2']; exact List.mem_of_getElem? hj
    have := hS _ hm ed rfl h3
    rcases h4 with ⟨rfl, rfl⟩ | ⟨rfl, rfl⟩
    · exact this.mp ih
    · exact this.mpr ih

/-- Busbar section 0, closed disconnector, open breaker, load 2. -/
def vlFeeder : VL := build [term 10 .busbarSection 0, term 11 .load 2]
  [(⟨20, "D", .disconnector⟩, false, 0, 1), (⟨21, "B", .breaker⟩, true, 1, 2)]

/-- The hypotheses of the C21 theorems are met and the load gets connected. -/
example : VReach "VL" vlFeeder ∧ occupant vlFeeder.graph 2 = some (term 11 .load 2) ∧
    ∃ s', vlFeeder.Connect 0 (term 11 .load 2) (.ok true, s') ∧ s'.opened 0 21 = false := by
  refine ⟨(build_reach _ _).reach, by decide, (closeLoop 0 [1, 0] false (vlFeeder.isConnected 0 (term 11 .load 2)).2).2, ?_,
    by decide⟩
  have h1 : vlFeeder.isConnected 0 (term 11 .load 2) = (.ok false, (vlFeeder.isConnected 0 (term 11 .load 2)).2) :=
    Prod.ext (by decide) rfl
  unfold VL.Connect
  rw [h1]
  refine ⟨.ok [[1, 0]], ?_, Prod.ext (by decide) rfl⟩
  have h2 : (vlFeeder.isConnected 0 (term 11 .load 2)).2.graph.rawPaths isBusbar
    (isOpenDisconnector ((vlFeeder.isConnected 0 (term 11 .load 2)).2.opened 0)) 2 = .ok [[1, 0]] := by decide
  show G.FindAllPaths _ _ _ 2 _
  unfold G.FindAllPaths
  rw [h2]
  exact ⟨_, ⟨List.Perm.refl _, by simp⟩, rfl⟩

example : ∀ e ed sw, vlFeeder.graph.edgeAt e = some ed → ed.obj = some sw → sw.kind = .loadBreakSwitch →
    vlFeeder.opened 0 sw.handle = false := by
  intro e ed sw h1 h2 h3
  rcases e with _ | _ | e
  · have : ed = ⟨0, 1, some ⟨20, "D", .disconnector⟩⟩ := Option.some.inj (h1.symm.trans (by decide))
    subst this; cases h2; cases h3
  · have : ed = ⟨1, 2, some ⟨21, "B", .breaker⟩⟩ := Option.some.inj (h1.symm.trans (by decide))
    subst this; cases h2; cases h3
  · have : vlFeeder.graph.edges.length = 2 := by decide
    have : vlFeeder.graph.edgeAt (e + 2) = none := by
      unfold G.edgeAt; rw [List.getElem?_eq_none (by omega)]; rfl
    rw [this] at h1; cases h1

/-- The same with an open load break switch instead of the disconnector. -/
def vlLbs : VL := build [term 10 .busbarSection 0, term 11 .load 2]
  [(⟨20, "L", .loadBreakSwitch⟩, true, 0, 1), (⟨21, "B", .breaker⟩, true, 1, 2)]

/-- Finding (C21): an open load break switch on the path is neither avoided nor closed; the call answers true although
    no busbar section is reached. -/
theorem connect_stops_at_load_break_switch :
    ∃ s s' t, SafeReach "VL" s ∧ occupant s.graph t.node = some t ∧ s.Connect 0 t (.ok true, s') ∧
      ∀ x, Has s'.graph (· = .busbarSection) x → ¬ Linked s'.graph (s'.opened 0) t.node x := by
  refine ⟨vlLbs, (closeLoop 0 [1, 0] false (vlLbs.isConnected 0 (term 11 .load 2)).2).2, term 11 .load 2,
    build_reach _ _, by decide, ?_, ?_⟩
  · have h1 : vlLbs.isConnected 0 (term 11 .load 2) = (.ok false, (vlLbs.isConnected 0 (term 11 .load 2)).2) :=
      Prod.ext (by decide) rfl
    unfold VL.Connect
    rw [h1]
    refine ⟨.ok [[1, 0]], ?_, Prod.ext (by decide) rfl⟩
    have h2 : (vlLbs.isConnected 0 (term 11 .load 2)).2.graph.rawPaths isBusbar
      (isOpenDisconnector ((vlLbs.isConnected 0 (term 11 .load 2)).2.opened 0)) 2 = .ok [[1, 0]] := by decide
    show G.FindAllPaths _ _ _ 2 _
    unfold G.FindAllPaths
    rw [h2]
    exact ⟨_, ⟨List.Perm.refl _, by simp⟩, rfl⟩
  · rintro x ⟨t, hx, ht⟩ hl
    have hm := linked_inside [1, 2] (by decide) (by decide) hl
    rcases List.mem_cons.mp hm with rfl | hm
    · exact absurd hx (by
        have : (closeLoop 0 [1, 0] false (vlLbs.isConnected 0 (term 11 .load 2)).2).2.graph.vertexAt 1 = some none := by decide
        rw [this]; simp)
    · have : x = 2 := by simpa using hm
      subst this
      have h2 : (closeLoop 0 [1, 0] false (vlLbs.isConnected 0 (term 11 .load 2)).2).2.graph.vertexAt 2 =
        some (some (term 11 .load 2)) := by decide
      rw [h2] at hx
      cases hx; cases ht

/-- Busbar section 0, closed disconnector, closed breaker, load 2. -/
def vlFed : VL := build [term 10 .busbarSection 0, term 11 .load 2]
  [(⟨20, "D", .disconnector⟩, false, 0, 1), (⟨21, "B", .breaker⟩, false, 1, 2)]

/-- The hypotheses of the C22 theorems are met and the load gets disconnected. -/
example : SafeReach "VL" vlFed ∧ occupant vlFed.graph 2 = some (term 11 .load 2) ∧
    ∃ s', vlFed.Disconnect 0 (term 11 .load 2) (.ok true, s') ∧ Has s'.graph (· = .busbarSection) 0 ∧
      s'.opened 0 21 = true := by
  refine ⟨build_reach _ _, by decide, (openLoop 0 [[1, 0]] (vlFed.isConnected 0 (term 11 .load 2)).2).2, ?_,
    ⟨term 10 .busbarSection 0, by decide, rfl⟩, by decide⟩
  have h1 : vlFed.isConnected 0 (term 11 .load 2) = (.ok true, (vlFed.isConnected 0 (term 11 .load 2)).2) :=
    Prod.ext (by decide) rfl
  unfold VL.Disconnect
  rw [h1]
  refine ⟨.ok [[1, 0]], ?_, Prod.ext (by decide) rfl⟩
  have h2 : (vlFed.isConnected 0 (term 11 .load 2)).2.graph.rawPaths isBusbar
    (isOpenDisconnector ((vlFed.isConnected 0 (term 11 .load 2)).2.opened 0)) 2 = .ok [[1, 0]] := by decide
  show G.FindAllPaths _ _ _ 2 _
  unfold G.FindAllPaths
  rw [h2]
  exact ⟨_, ⟨List.Perm.refl _, by simp⟩, rfl⟩

/-- A breaker in parallel with two disconnectors in series, all closed. -/
def vlBypass : VL := build [term 10 .busbarSection 0, term 11 .load 2]
  [(⟨20, "D1", .disconnector⟩, false, 0, 1), (⟨21, "D2", .disconnector⟩, false, 1, 2), (⟨22, "B", .breaker⟩, false, 0, 2)]

/-- Finding (C22): the call answers false after having opened the breaker of a first path, because a second path has
    none. -/
theorem disconnect_refused_but_opened :
    ∃ s s' t h, SafeReach "VL" s ∧ occupant s.graph t.node = some t ∧ s.Disconnect 0 t (.ok false, s') ∧
      s.opened 0 h = false ∧ s'.opened 0 h = true := by
  refine ⟨vlBypass, (openLoop 0 [[2], [1, 0]] (vlBypass.isConnected 0 (term 11 .load 2)).2).2, term 11 .load 2, 22,
    build_reach _ _, by decide, ?_, by decide, by decide⟩
  have h1 : vlBypass.isConnected 0 (term 11 .load 2) = (.ok true, (vlBypass.isConnected 0 (term 11 .load 2)).2) :=
    Prod.ext (by decide) rfl
  unfold VL.Disconnect
  rw [h1]
  refine ⟨.ok [[2], [1, 0]], ?_, Prod.ext (by decide) rfl⟩
  have h2 : (vlBypass.isConnected 0 (term 11 .load 2)).2.graph.rawPaths isBusbar
    (isOpenDisconnector ((vlBypass.isConnected 0 (term 11 .load 2)).2.opened 0)) 2 = .ok [[1, 0], [2]] := by decide
  show G.FindAllPaths _ _ _ 2 _
  unfold G.FindAllPaths
  rw [h2]
  exact ⟨_, ⟨List.Perm.swap _ _ _, by simp⟩, rfl⟩

/-- The hypotheses of `disconnect_refused_partial` are met: the load is already disconnected, and the only way to the
    busbar section has a breaker. -/
example : (∃ s', vlFeeder.Disconnect 0 (term 11 .load 2) (.ok false, s')) ∧
    ∀ p, BusbarPath vlFeeder.graph (vlFeeder.opened 0) 2 p → ∃ h, BreakerOn vlFeeder.graph p h := by
  constructor
  · refine ⟨(vlFeeder.isConnected 0 (term 11 .load 2)).2, ?_⟩
    have h1 : vlFeeder.isConnected 0 (term 11 .load 2) = (.ok false, (vlFeeder.isConnected 0 (term 11 .load 2)).2) :=
      Prod.ext (by decide) rfl
    unfold VL.Disconnect
    rw [h1]
  · rintro p ⟨ws, x, hw, _⟩
    cases p with
    | nil => cases ws <;> cases hw
    | cons e p =>
      refine ⟨21, e, by simp, ⟨1, 2, some ⟨21, "B", .breaker⟩⟩, ⟨21, "B", .breaker⟩, ?_, rfl, rfl, rfl⟩
      have : ∃ ed w, vlFeeder.graph.edgeAt e = some ed ∧ Joins ed 2 w := by
        generalize ws ++ [x] = l at hw
        cases hw with
        | cons h1 _ h3 _ => exact ⟨_, _, h1, h3⟩
      obtain ⟨ed, w, h1, h3⟩ := this
      rcases e with _ | _ | e
      · have : ed = ⟨0, 1, some ⟨20, "D", .disconnector⟩⟩ := Option.some.inj (h1.symm.trans (by decide))
        subst this
        rcases h3 with ⟨h, _⟩ | ⟨h, _⟩ <;> exact absurd h (by decide)
      · decide
      · have : vlFeeder.graph.edges.length = 2 := by decide
        have : vlFeeder.graph.edgeAt (e + 2) = none := by
          unfold G.edgeAt; rw [List.getElem?_eq_none (by omega)]; rfl
        rw [this] at h1; cases h1

end Verif.NodeBreaker
