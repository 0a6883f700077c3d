import Verif.BusState.Lemmas

/-! Properties of the voltage and of the angle of a bus (C83). -/

namespace Verif.BusState

open Verif Verif.Graph Verif.NodeBreaker

/-! ### Writing -/

/-- `setV` succeeds exactly on a valid bus with a voltage that is a number not below zero or not a number, or on a valid
    bus that owns nothing.  A call that fails throws and changes nothing.  A call that succeeds changes the voltage of what
    the bus owns, in the working variant, and nothing else. -/
theorem set_voltage (s : St) (w : Nat) (b : Bus) (x : Dbl) :
    ((setV s w b x).1 = .ok () ↔ Valid b ∧ ((∃ h, Owns b h) → Acceptable x)) ∧
    ((setV s w b x).1 ≠ .ok () → setV s w b x = (.thrown, s)) ∧
    ((setV s w b x).1 = .ok () → angle (setV s w b x).2 = angle s ∧
      ∀ h w', voltage (setV s w b x).2 h w' = if Owns b h ∧ w' = w then x else voltage s h w') := by
  by_cases hv : Valid b
  · by_cases ho : ∃ h, Owns b h
    · by_cases hx : Acceptable x
      · obtain ⟨s', h1, h2, h3⟩ := setV_ok (s := s) (w := w) hv hx
        rw [h1]
        exact ⟨⟨fun _ => ⟨hv, fun _ => hx⟩, fun _ => rfl⟩, fun h => absurd rfl h, fun _ => ⟨h2, h3⟩⟩
      · rw [setV_thrown hx ho]
        exact ⟨⟨fun h => (by cases h), fun h => absurd (h.2 ho) hx⟩, fun _ => rfl, fun h => (by cases h)⟩
    · have ho' : ∀ h, ¬ Owns b h := fun h hh => ho ⟨h, hh⟩
      rw [(set_nothing (s := s) (w := w) (x := x) hv ho').1]
      refine ⟨⟨fun _ => ⟨hv, fun h => absurd h ho⟩, fun _ => rfl⟩, fun h => absurd rfl h, fun _ => ⟨rfl, ?_⟩⟩
      intro h w'
      rw [if_neg (fun hh => ho' h hh.1)]
  · rw [(set_invalid (s := s) (w := w) (x := x) hv).1]
    exact ⟨⟨fun h => (by cases h), fun h => absurd h.1 hv⟩, fun _ => rfl, fun h => (by cases h)⟩

/-- `setAngle` succeeds exactly on a valid bus, whatever the angle.  A call that fails throws and changes nothing.  A call
    that succeeds changes the angle of what the bus owns, in the working variant, and nothing else. -/
theorem set_angle (s : St) (w : Nat) (b : Bus) (x : Dbl) :
    ((setAngle s w b x).1 = .ok () ↔ Valid b) ∧
    ((setAngle s w b x).1 ≠ .ok () → setAngle s w b x = (.thrown, s)) ∧
    ((setAngle s w b x).1 = .ok () → voltage (setAngle s w b x).2 = voltage s ∧
      ∀ h w', angle (setAngle s w b x).2 h w' = if Owns b h ∧ w' = w then x else angle s h w') := by
  by_cases hv : Valid b
  · obtain ⟨s', h1, h2, h3⟩ := setAngle_ok (s := s) (w := w) (x := x) hv
    rw [h1]
    exact ⟨⟨fun _ => hv, fun _ => rfl⟩, fun h => absurd rfl h, fun _ => ⟨h2, h3⟩⟩
  · rw [(set_invalid (s := s) (w := w) (x := x) hv).2]
    exact ⟨⟨fun h => (by cases h), fun h => absurd h hv⟩, fun _ => rfl, fun h => (by cases h)⟩

/-- A state with nothing set. -/
def blank : St := ⟨fun _ _ => .nan, fun _ _ => .nan, fun _ _ => .nan, fun _ _ => .nan⟩

example : (setV blank 1 (.merged true [4, 5]) (.fin 400)).1 = .ok () ∧
    voltage (setV blank 1 (.merged true [4, 5]) (.fin 400)).2 (.bus 5) 1 = .fin 400 ∧
    voltage (setV blank 1 (.merged true [4, 5]) (.fin 400)).2 (.bus 5) 0 = .nan ∧
    voltage (setV blank 1 (.merged true [4, 5]) (.fin 400)).2 (.bus 6) 1 = .nan ∧
    (setV blank 1 (.merged true [4, 5]) (.fin (-1))).1 = .thrown ∧
    (setAngle blank 1 (.merged true [4, 5]) (.fin (-1))).1 = .ok () := by decide +kernel

/-! ### Reading back -/

/-- The part that holds of "what is set on a bus is read on it": it is for the buses that own something.  Missing: a
    calculated bus without terminals takes a value and keeps none (`not_read_back`). -/
theorem read_back_partial {s : St} {w : Nat} {b : Bus} {x : Dbl} (hm : Made b) (ho : ∃ h, Owns b h)
    (h : (setV s w b x).1 = .ok ()) : getV (setV s w b x).2 w b = .ok x := by
  obtain ⟨h1, _, h3⟩ := set_voltage s w b x
  obtain ⟨hv, _⟩ := h1.mp h
  obtain ⟨_, h5⟩ := h3 h
  generalize (setV s w b x).2 = s' at h5
  have hs := hm.shape
  cases b with
  | calculated valid ts ref =>
    cases hv
    cases ts with
    | nil => obtain ⟨h, ho⟩ := ho; cases h <;> simp [Owns] at ho
    | cons t ts =>
      have hr := hs.2 t ts rfl
      subst hr
      have := h5 (.terminal t) w
      simp [Owns, voltage] at this
      simp [getV, this]
  | conf c =>
    have := h5 (.bus c) w
    simp [Owns, voltage] at this
    simp [getV, this]
  | merged valid bs =>
    cases hv
    simp only [getV]
    rw [firstKnown_all (x := x) (hs.1 rfl)]
    intro c hc
    have := h5 (.bus c) w
    simpa [Owns, voltage, hc] using this

/-- The same for angles. -/
theorem read_back_angle_partial {s : St} {w : Nat} {b : Bus} {x : Dbl} (hm : Made b) (ho : ∃ h, Owns b h)
    (h : (setAngle s w b x).1 = .ok ()) : getAngle (setAngle s w b x).2 w b = .ok x := by
  obtain ⟨h1, _, h3⟩ := set_angle s w b x
  have hv := h1.mp h
  obtain ⟨_, h5⟩ := h3 h
  generalize (setAngle s w b x).2 = s' at h5
  have hs := hm.shape
  cases b with
  | calculated valid ts ref =>
    cases hv
    cases ts with
    | nil => obtain ⟨h, ho⟩ := ho; cases h <;> simp [Owns] at ho
    | cons t ts =>
      have hr := hs.2 t ts rfl
      subst hr
      have := h5 (.terminal t) w
      simp [Owns, angle] at this
      simp [getAngle, this]
  | conf c =>
    have := h5 (.bus c) w
    simp [Owns, angle] at this
    simp [getAngle, this]
  | merged valid bs =>
    cases hv
    simp only [getAngle, if_true]
    rw [firstKnown_all (x := x) (hs.1 rfl)]
    intro c hc
    have := h5 (.bus c) w
    simpa [Owns, angle, hc] using this

/-- Busbar section on node 0, closed retained breaker 0-1, closed breaker 1-2, open breaker 2-3, load on node 3, closed
    breaker 0-4, load on node 4. -/
def refG : Gr := run {} [.addVertexIfNotPresent 0, .addVertexIfNotPresent 1, .addVertexIfNotPresent 2,
  .addVertexIfNotPresent 3, .addVertexIfNotPresent 4,
  .setVertexObject 0 (some (term 10 .busbarSection 0)), .setVertexObject 3 (some (term 11 .load 3)),
  .setVertexObject 4 (some (term 12 .load 4)),
  .addEdge 0 1 (some ⟨20, "B1", .breaker⟩), .addEdge 1 2 (some ⟨21, "B2", .breaker⟩),
  .addEdge 2 3 (some ⟨22, "B3", .breaker⟩), .addEdge 0 4 (some ⟨23, "B4", .breaker⟩)]

def refOpen (h : Nat) : Bool := h == 22
def refRetained (h : Nat) : Bool := h == 20

theorem refG_reached : Reached refG := ⟨_, rfl⟩

/-- The bus of nodes 1 and 2 in the bus/breaker view: no terminal. -/
def refBus : NodeBreaker.Bus := ⟨[1, 2], []⟩

theorem refBus_cached : ∃ c, compute "VL" .busBreaker refG refOpen refRetained = .ok c ∧ c.byId.get? "VL_1" = some refBus :=
  ⟨_, rfl, by decide⟩

theorem refBus_made : construct refG refOpen refBus = .ok (.calculated true [] (some 10)) := by decide

/-- FALSE of the code: "what is set on a bus is read on it".  A bus of the bus/breaker view without terminals takes a
    voltage, keeps none, and shows the voltage of the terminal of another bus; it takes a negative voltage as well. -/
theorem not_read_back : ∃ s b, Made b ∧ Valid b ∧ (setV s 0 b (.fin 400)).1 = .ok () ∧
    getV (setV s 0 b (.fin 400)).2 0 b = .ok (.fin 380) ∧ (setV s 0 b (.fin (-1))).1 = .ok () := by
  refine ⟨(setV blank 0 (.calculated true [10] (some 10)) (.fin 380)).2, .calculated true [] (some 10),
    .calculated refBus_made, rfl, rfl, ?_, rfl⟩
  decide +kernel

example : Made (.merged true [4, 5]) ∧ (∃ h, Owns (.merged true [4, 5]) h) ∧
    (setV blank 0 (.merged true [4, 5]) (.fin 400)).1 = .ok () ∧
    Made (.calculated true [10, 12] (some 10)) ∧ (∃ h, Owns (.calculated true [10, 12] (some 10)) h) ∧
    (setAngle blank 0 (.calculated true [10, 12] (some 10)) (.fin (-3))).1 = .ok () :=
  ⟨.merged (bs := [4, 5]) rfl, ⟨.bus 4, by decide⟩, by decide +kernel,
    .calculated (g := refG) (opened := refOpen) (b := ⟨[0, 4], [term 10 .busbarSection 0, term 12 .load 4]⟩) (by decide),
    ⟨.terminal 12, by decide⟩, by decide +kernel⟩

/-- A merged bus shows the voltage of the first of its buses that has one, and none when no bus has one; the same for the
    angle. -/
theorem merged_shows {s : St} {w : Nat} {bs : List Nat} {x : Dbl} :
    (getV s w (.merged true bs) = .ok .nan ↔ ∀ b ∈ bs, s.bv b w = .nan) ∧
    (getAngle s w (.merged true bs) = .ok .nan ↔ ∀ b ∈ bs, s.ba b w = .nan) ∧
    (x ≠ .nan → (getV s w (.merged true bs) = .ok x ↔
      ∃ l b r, bs = l ++ b :: r ∧ (∀ c ∈ l, s.bv c w = .nan) ∧ s.bv b w = x)) ∧
    (x ≠ .nan → (getAngle s w (.merged true bs) = .ok x ↔
      ∃ l b r, bs = l ++ b :: r ∧ (∀ c ∈ l, s.ba c w = .nan) ∧ s.ba b w = x)) := by
  refine ⟨?_, ?_, ?_, ?_⟩
  · simp only [getV, Out.ok.injEq]; exact firstKnown_nan
  · simp only [getAngle, if_true, Out.ok.injEq]; exact firstKnown_nan
  · intro hx; simp only [getV, Out.ok.injEq]; exact firstKnown_some hx
  · intro hx; simp only [getAngle, if_true, Out.ok.injEq]; exact firstKnown_some hx

example : getV (setV blank 0 (.conf 5) (.fin 400)).2 0 (.merged true [4, 5, 6]) = .ok (.fin 400) ∧
    getV blank 0 (.merged true [4, 5, 6]) = .ok .nan := by decide +kernel

/-! ### The reference terminal -/

/-- A bus of a view of a voltage level is always built.  Its reference is its first terminal; when it has none it is a
    terminal on a node linked to the bus by closed switches; and there is no reference exactly when there is no terminal
    on any node linked to the bus by closed switches. -/
theorem reference {vl : String} {g : Gr} (hg : Reached g) {view : View} {opened retained : Nat → Bool} {c : Cache}
    (hc : compute vl view g opened retained = .ok c) {id : String} {b : NodeBreaker.Bus} (hb : c.byId.get? id = some b) :
    ∃ ref, construct g opened b = .ok (.calculated true (b.terminals.map Term.handle) ref) ∧
      (∀ t ts, b.terminals = t :: ts → ref = some t.handle) ∧
      (∀ h, ref = some h → ∃ u ∈ b.nodes, ∃ x t, Tied g opened u x ∧ g.vertexAt x = some (some t) ∧ t.handle = h) ∧
      (ref = none ↔ ∀ u ∈ b.nodes, ∀ x, Tied g opened u x → ∀ t, g.vertexAt x ≠ some (some t)) := by
  obtain ⟨_, e1, _, e3, e4, _⟩ := compute_ok vl hg view opened retained
  rw [hc] at e1; cases e1
  obtain ⟨u0, ⟨hon, _, _⟩, hok⟩ := e4 id b hb
  obtain ⟨k1, _, _, k4⟩ := bus_content hg hc hb
  have hin : ∀ v ∈ b.nodes, g.vertexAt v ≠ none := by
    intro v hv
    obtain ⟨e, ed, h1, h2⟩ := ((hok.mem v).mp hv).onEdge hon
    obtain ⟨q1, q2⟩ := hg.wf.ends e ed h1
    rcases h2 with h2 | h2
    · rw [← h2]; exact q1
    · rw [← h2]; exact q2
  have htied : ∀ u ∈ b.nodes, ∀ v ∈ b.nodes, Tied g opened u v := by
    intro u hu v hv
    exact passing_tied (((hok.mem u).mp hu).symm.trans ((hok.mem v).mp hv))
  have hterm : ∀ t ∈ b.terminals, ∃ u ∈ b.nodes, g.vertexAt u = some (some t) := by
    intro t ht
    rw [hok.terms, List.mem_filterMap] at ht
    obtain ⟨u, hu, h⟩ := ht
    refine ⟨u, hu, ?_⟩
    cases hv : g.vertexAt u with
    | none => rw [hv] at h; cases h
    | some o => rw [hv] at h; simp at h; rw [h]
  cases ht : b.terminals with
  | cons t ts =>
    refine ⟨some t.handle, ?_, ?_, ?_, ?_⟩
    · unfold construct findTerminal; rw [ht]; rfl
    · intro t' ts' h; cases h; rfl
    · intro h hh
      cases hh
      obtain ⟨u, hu, hv⟩ := hterm t (by rw [ht]; simp)
      exact ⟨u, hu, u, t, .refl, hv, rfl⟩
    · constructor
      · intro h; cases h
      · intro h
        obtain ⟨u, hu, hv⟩ := hterm t (by rw [ht]; simp)
        exact absurd hv (h u hu u .refl t)
  | nil =>
    cases hn : b.nodes with
    | nil => exact absurd hn k1
    | cons v vs =>
      have hvn : v ∈ b.nodes := by rw [hn]; simp
      have hv : g.vertexAt v = some none := by
        cases h : g.vertexAt v with
        | none => exact absurd h (hin v hvn)
        | some o =>
          cases o with
          | none => rfl
          | some t =>
            have : t ∈ b.terminals := by
              rw [hok.terms, List.mem_filterMap]; exact ⟨v, hvn, by rw [h]; rfl⟩
            rw [ht] at this; cases this
      obtain ⟨r, r1, r2, r3⟩ := findTerminal_search hg opened hv
      refine ⟨r.map Term.handle, ?_, ?_, ?_, ?_⟩
      · unfold construct findTerminal
        rw [ht, hn]
        simp only []
        rw [r1]; rfl
      · intro t ts h; cases h
      · intro h hh
        cases r with
        | none => cases hh
        | some t =>
          obtain ⟨x, q1, q2⟩ := r2 t rfl
          cases hh
          exact ⟨v, by simp, x, t, q1, q2, rfl⟩
      · constructor
        · intro h u hu x hx t
          cases r with
          | some t => cases h
          | none => exact r3 rfl x ((htied v hvn u (by rw [hn]; exact hu)).trans hx) t
        · intro h
          cases r with
          | none => rfl
          | some t =>
            obtain ⟨x, q1, q2⟩ := r2 t rfl
            exact absurd q2 (h v (by simp) x q1 t)

example : (∃ c, compute "VL" .busBreaker refG refOpen refRetained = .ok c ∧ c.byId.get? "VL_1" = some refBus) ∧
    construct refG refOpen refBus = .ok (.calculated true [] (some 10)) ∧
    construct refG (fun h => h == 20 || h == 22) refBus = .ok (.calculated true [] none) :=
  ⟨refBus_cached, refBus_made, by decide⟩

/-- A bus of a view shows the voltage and the angle of its first terminal; without terminals, those of a terminal linked to
    it by closed switches; without any such terminal, NaN. -/
theorem shows {vl : String} {g : Gr} (hg : Reached g) {view : View} {opened retained : Nat → Bool} {c : Cache}
    (hc : compute vl view g opened retained = .ok c) {id : String} {nb : NodeBreaker.Bus} (hb : c.byId.get? id = some nb)
    {b : Bus} (hm : construct g opened nb = .ok b) (s : St) (w : Nat) :
    (∃ u ∈ nb.nodes, ∃ x t, Tied g opened u x ∧ g.vertexAt x = some (some t) ∧
      (∀ t0 ts, nb.terminals = t0 :: ts → t.handle = t0.handle) ∧
      getV s w b = .ok (s.tv t.handle w) ∧ getAngle s w b = .ok (s.ta t.handle w)) ∨
    ((∀ u ∈ nb.nodes, ∀ x, Tied g opened u x → ∀ t, g.vertexAt x ≠ some (some t)) ∧
      getV s w b = .ok .nan ∧ getAngle s w b = .ok .nan) := by
  obtain ⟨ref, h1, h2, h3, h4⟩ := reference hg hc hb
  rw [hm] at h1; cases h1
  cases ref with
  | none => exact .inr ⟨h4.mp rfl, rfl, rfl⟩
  | some h =>
    obtain ⟨u, hu, x, t, k1, k2, k3⟩ := h3 h rfl
    subst k3
    exact .inl ⟨u, hu, x, t, k1, k2, fun t0 ts ht => Option.some.inj (h2 t0 ts ht), rfl, rfl⟩

example : getV (setV blank 0 (.calculated true [10, 12] (some 10)) (.fin 225)).2 0 (.calculated true [] (some 10)) = .ok (.fin 225) ∧
    getAngle blank 0 (.calculated true [] none) = .ok .nan := by decide +kernel

/-- A bus of the bus view has terminals: what is set on it is read on it. -/
theorem bus_view_read_back {vl : String} {g : Gr} (hg : Reached g) {opened retained : Nat → Bool} {c : Cache}
    (hc : compute vl .bus g opened retained = .ok c) {id : String} {nb : NodeBreaker.Bus} (hb : c.byId.get? id = some nb)
    {b : Bus} (hm : construct g opened nb = .ok b) (s : St) (w : Nat) (x : Dbl) :
    (Acceptable x → (setV s w b x).1 = .ok () ∧ getV (setV s w b x).2 w b = .ok x) ∧
    (¬ Acceptable x → setV s w b x = (.thrown, s)) ∧
    (setAngle s w b x).1 = .ok () ∧ getAngle (setAngle s w b x).2 w b = .ok x := by
  obtain ⟨_, e1, _, e3, e4, _⟩ := compute_ok vl hg .bus opened retained
  rw [hc] at e1; cases e1
  obtain ⟨u0, ⟨_, hq, _⟩, hok⟩ := e4 id nb hb
  obtain ⟨ref, h1, _⟩ := reference hg hc hb
  have hmem : ∃ t, t ∈ nb.terminals := by
    have hh : ∃ y p, Conn g (Passing .bus opened retained) u0 y ∧ Has g p y := by
      rcases hq with ⟨_, y, _, h, _, k⟩ | ⟨_, y, _, _, h, _, k⟩
      · exact ⟨y, _, h, k⟩
      · exact ⟨y, _, h, k⟩
    obtain ⟨y, _, k1, t, k2, _⟩ := hh
    exact ⟨t, by rw [hok.terms, List.mem_filterMap]; exact ⟨y, (hok.mem y).mpr k1, by rw [k2]; rfl⟩⟩
  obtain ⟨t, ht⟩ := hmem
  have hmade : Made b := .calculated hm
  rw [hm] at h1
  cases h1
  have ho : ∃ h, Owns (.calculated true (nb.terminals.map Term.handle) ref) h :=
    ⟨.terminal t.handle, List.mem_map_of_mem ht⟩
  refine ⟨?_, fun hx => setV_thrown hx ho, ?_⟩
  · intro hx
    have := ((set_voltage s w (.calculated true (nb.terminals.map Term.handle) ref) x).1).mpr ⟨rfl, fun _ => hx⟩
    exact ⟨this, read_back_partial hmade ho this⟩
  · have := ((set_angle s w (.calculated true (nb.terminals.map Term.handle) ref) x).1).mpr rfl
    exact ⟨this, read_back_angle_partial hmade ho this⟩

/-- What is set on a bus of the bus view is read on every bus, of either view, that shares a node with it. -/
theorem across_views {vl : String} {g : Gr} (hg : Reached g) {view' : View} {opened retained : Nat → Bool} {c c' : Cache}
    (hc : compute vl .bus g opened retained = .ok c) (hc' : compute vl view' g opened retained = .ok c')
    {id id' : String} {nb nb' : NodeBreaker.Bus} (hb : c.byId.get? id = some nb) (hb' : c'.byId.get? id' = some nb')
    {u : Nat} (hu : u ∈ nb.nodes) (hu' : u ∈ nb'.nodes) {b b' : Bus} (hm : construct g opened nb = .ok b)
    (hm' : construct g opened nb' = .ok b') (s : St) (w : Nat) (x : Dbl) :
    ((setV s w b x).1 = .ok () → getV (setV s w b x).2 w b' = .ok x) ∧
    getAngle (setAngle s w b x).2 w b' = .ok x := by
  obtain ⟨_, e1, _, _, e4, _⟩ := compute_ok vl hg .bus opened retained
  rw [hc] at e1; cases e1
  obtain ⟨u0, ⟨hon, hq, _⟩, hok⟩ := e4 id nb hb
  obtain ⟨_, e1', _, _, e4', _⟩ := compute_ok vl hg view' opened retained
  rw [hc'] at e1'; cases e1'
  obtain ⟨u0', _, hok'⟩ := e4' id' nb' hb'
  obtain ⟨ref, h1, _⟩ := reference hg hc hb
  obtain ⟨ref', h1', _, r3, r4⟩ := reference hg hc' hb'
  rw [hm] at h1; cases h1
  rw [hm'] at h1'; cases h1'
  -- the class of the bus of the bus view is closed under closed switches
  have hcl : ∀ y, Tied g opened u y → y ∈ nb.nodes := by
    intro y hy
    exact (hok.mem y).mpr (((hok.mem u).mp hu).trans (tied_conn hy))
  have hsome : ∃ h, ref' = some h ∧ h ∈ nb.terminals.map Term.handle := by
    cases ref' with
    | some h =>
      obtain ⟨v, hv, y, t, k1, k2, k3⟩ := r3 h rfl
      have huv : Tied g opened u v := passing_tied (((hok'.mem u).mp hu').symm.trans ((hok'.mem v).mp hv))
      have : y ∈ nb.nodes := hcl y (huv.trans k1)
      refine ⟨h, rfl, List.mem_map.mpr ⟨t, ?_, k3⟩⟩
      rw [hok.terms, List.mem_filterMap]
      exact ⟨y, this, by rw [k2]; rfl⟩
    | none =>
      exfalso
      have hh : ∃ y p, Conn g (Passing .bus opened retained) u0 y ∧ Has g p y := by
        rcases hq with ⟨_, y, _, h, _, k⟩ | ⟨_, y, _, _, h, _, k⟩
        · exact ⟨y, _, h, k⟩
        · exact ⟨y, _, h, k⟩
      obtain ⟨y, _, k1, t, k2, _⟩ := hh
      exact r4.mp rfl u hu' y (passing_tied (((hok.mem u).mp hu).symm.trans k1)) t k2
  obtain ⟨h, rfl, hh⟩ := hsome
  constructor
  · intro hs
    obtain ⟨_, k⟩ := (set_voltage s w _ x).2.2 hs
    have := k (.terminal h) w
    simp only [voltage, Owns, hh, and_true, if_true] at this
    simp [getV, this]
  · have hs := ((set_angle s w (.calculated true (nb.terminals.map Term.handle) ref) x).1).mpr rfl
    obtain ⟨_, k⟩ := (set_angle s w _ x).2.2 hs
    have := k (.terminal h) w
    simp only [angle, Owns, hh, and_true, if_true] at this
    simp [getAngle, this]

/-- The bus of nodes 0, 4, 1 and 2 in the bus view. -/
example : ∃ c nb b, compute "VL" .bus refG refOpen refRetained = .ok c ∧ c.byId.get? "VL_0" = some nb ∧
    (1 ∈ nb.nodes ∧ 1 ∈ refBus.nodes) ∧ construct refG refOpen nb = .ok b ∧
    getV (setV blank 0 b (.fin 225)).2 0 (.calculated true [] (some 10)) = .ok (.fin 225) :=
  ⟨_, ⟨[0, 1, 2, 4], [term 10 .busbarSection 0, term 12 .load 4]⟩, .calculated true [10, 12] (some 10), rfl, by decide, by decide,
    by decide, by decide +kernel⟩

/-- Setting the voltage or the angle of a bus leaves what another bus shows as it was, in every variant, when no closed
    switches link the two, or when the other has terminals and shares no node with the first; and leaves what any bus
    shows in the other variants as it was. -/
theorem others_untouched {vl : String} {g : Gr} (hg : Reached g) (hd : Distinct g) {view view' : View}
    {opened retained : Nat → Bool} {c c' : Cache}
    (hc : compute vl view g opened retained = .ok c) (hc' : compute vl view' g opened retained = .ok c')
    {id id' : String} {nb nb' : NodeBreaker.Bus} (hb : c.byId.get? id = some nb) (hb' : c'.byId.get? id' = some nb')
    {b b' : Bus} (hm : construct g opened nb = .ok b) (hm' : construct g opened nb' = .ok b') (s : St) (w w' : Nat) (x : Dbl)
    (hapart : (∀ u ∈ nb.nodes, ∀ u' ∈ nb'.nodes, ¬ Tied g opened u' u) ∨
      (nb'.terminals ≠ [] ∧ ∀ u ∈ nb.nodes, u ∉ nb'.nodes) ∨ w' ≠ w) :
    getV (setV s w b x).2 w' b' = getV s w' b' ∧ getAngle (setAngle s w b x).2 w' b' = getAngle s w' b' ∧
    getV (setAngle s w b x).2 w' b' = getV s w' b' ∧ getAngle (setV s w b x).2 w' b' = getAngle s w' b' := by
  obtain ⟨ref, h1, _⟩ := reference hg hc hb
  obtain ⟨ref', h1', r2, r3, _⟩ := reference hg hc' hb'
  obtain ⟨_, e1, _, _, e4, _⟩ := compute_ok vl hg view opened retained
  rw [hc] at e1; cases e1
  obtain ⟨u0, _, hok⟩ := e4 id nb hb
  obtain ⟨_, e1', _, _, e4', _⟩ := compute_ok vl hg view' opened retained
  rw [hc'] at e1'; cases e1'
  obtain ⟨u0', _, hok'⟩ := e4' id' nb' hb'
  rw [hm] at h1; cases h1
  rw [hm'] at h1'; cases h1'
  have hnode : ∀ t ∈ nb.terminals, ∃ u ∈ nb.nodes, g.vertexAt u = some (some t) := by
    intro t ht
    rw [hok.terms, List.mem_filterMap] at ht
    obtain ⟨u, hu, h⟩ := ht
    refine ⟨u, hu, ?_⟩
    cases hv : g.vertexAt u with
    | none => rw [hv] at h; cases h
    | some o => rw [hv] at h; simp at h; rw [h]
  have hnode' : ∀ t ∈ nb'.terminals, ∃ u ∈ nb'.nodes, g.vertexAt u = some (some t) := by
    intro t ht
    rw [hok'.terms, List.mem_filterMap] at ht
    obtain ⟨u, hu, h⟩ := ht
    refine ⟨u, hu, ?_⟩
    cases hv : g.vertexAt u with
    | none => rw [hv] at h; cases h
    | some o => rw [hv] at h; simp at h; rw [h]
  have hfree : ∀ h, ref' = some h → ¬ (h ∈ nb.terminals.map Term.handle ∧ w' = w) := by
    rintro h rfl ⟨hh, hw⟩
    obtain ⟨t, ht, hth⟩ := List.mem_map.mp hh
    obtain ⟨u, hu, hut⟩ := hnode t ht
    rcases hapart with ha | ⟨ha, hn⟩ | ha
    · obtain ⟨u', hu', y, t', k1, k2, k3⟩ := r3 h rfl
      have : y = u := hd y u t' t k2 hut (by rw [k3, hth])
      rw [this] at k1
      exact ha u hu u' hu' k1
    · cases hts : nb'.terminals with
      | nil => exact ha hts
      | cons t' ts =>
        have := r2 t' ts hts
        obtain ⟨u', hu', hut'⟩ := hnode' t' (by rw [hts]; simp)
        have : u' = u := hd u' u t' t hut' hut (by rw [hth]; exact (Option.some.inj this).symm)
        rw [this] at hu'
        exact hn u hu hu'
    · exact ha hw
  have hset : ∀ h, ref' = some h → (setV s w (.calculated true (nb.terminals.map Term.handle) ref) x).2.tv h w' = s.tv h w' ∧
      (setV s w (.calculated true (nb.terminals.map Term.handle) ref) x).2.ta h w' = s.ta h w' := by
    intro h hr
    by_cases hs : (setV s w (.calculated true (nb.terminals.map Term.handle) ref) x).1 = .ok ()
    · obtain ⟨q, k⟩ := (set_voltage s w _ x).2.2 hs
      refine ⟨?_, congrFun (congrFun q (.terminal h)) w'⟩
      exact (k (.terminal h) w').trans (if_neg (hfree h hr))
    · rw [(set_voltage s w _ x).2.1 hs]; exact ⟨rfl, rfl⟩
  have hseta : ∀ h, ref' = some h →
      (setAngle s w (.calculated true (nb.terminals.map Term.handle) ref) x).2.ta h w' = s.ta h w' ∧
      (setAngle s w (.calculated true (nb.terminals.map Term.handle) ref) x).2.tv h w' = s.tv h w' := by
    intro h hr
    have hs := ((set_angle s w (.calculated true (nb.terminals.map Term.handle) ref) x).1).mpr rfl
    obtain ⟨q, k⟩ := (set_angle s w _ x).2.2 hs
    refine ⟨?_, congrFun (congrFun q (.terminal h)) w'⟩
    exact (k (.terminal h) w').trans (if_neg (hfree h hr))
  cases ref' with
  | none => exact ⟨rfl, rfl, rfl, rfl⟩
  | some h =>
    obtain ⟨q1, q2⟩ := hset h rfl
    obtain ⟨q3, q4⟩ := hseta h rfl
    simp only [getV, getAngle, if_true, q1, q2, q3, q4, and_self]

/-- No closed switches link two buses of the bus view: what is set on one is never seen on the other. -/
theorem bus_view_apart {vl : String} {g : Gr} (hg : Reached g) {opened retained : Nat → Bool} {c : Cache}
    (hc : compute vl .bus g opened retained = .ok c) {id id' : String} {nb nb' : NodeBreaker.Bus}
    (hb : c.byId.get? id = some nb) (hb' : c.byId.get? id' = some nb') (hne : id ≠ id') :
    ∀ u ∈ nb.nodes, ∀ u' ∈ nb'.nodes, ¬ Tied g opened u' u := by
  intro u hu u' hu' ht
  obtain ⟨_, e1, _, e3, e4, _⟩ := compute_ok vl hg .bus opened retained
  have hc0 := hc
  rw [hc] at e1; cases e1
  obtain ⟨u0', _, hok'⟩ := e4 id' nb' hb'
  have hin : u ∈ nb'.nodes := (hok'.mem u).mpr (((hok'.mem u').mp hu').trans (tied_conn ht))
  have k := ((bus_content hg hc0 hb).2.2.1 u).mp hu
  have k' := ((bus_content hg hc0 hb').2.2.1 u).mp hin
  rw [k] at k'
  exact hne (Option.some.inj (Out.ok.inj k'))

/-- In the sample of C18: two buses of the bus view, kept apart. -/
example : ∃ c nb nb' b b', compute "VL" .bus sampleG sampleOpen sampleRetained = .ok c ∧
    c.byId.get? "VL_0" = some nb ∧ c.byId.get? "VL_4" = some nb' ∧
    construct sampleG sampleOpen nb = .ok b ∧ construct sampleG sampleOpen nb' = .ok b' ∧
    getV (setV blank 0 b (.fin 225)).2 0 b = .ok (.fin 225) ∧ getV (setV blank 0 b (.fin 225)).2 0 b' = .ok .nan :=
  ⟨_, ⟨[0, 1, 2], [term 10 .busbarSection 0, term 11 .load 2]⟩, ⟨[4, 5], [term 12 .line 4, term 13 .generator 5]⟩,
    .calculated true [10, 11] (some 10), .calculated true [12, 13] (some 12), rfl, by decide, by decide, by decide, by decide,
    by decide +kernel, by decide +kernel⟩

theorem sampleG_distinct : Distinct sampleG := by
  have key : ∀ u < 8, ∀ u' < 8, ∀ t ∈ (sampleG.vertexAt u).join, ∀ t' ∈ (sampleG.vertexAt u').join,
      t.handle = t'.handle → u = u' := by decide
  have len : sampleG.vertices.length = 8 := by decide
  intro u u' t t' h h' e
  refine key u ?_ u' ?_ t (by rw [h]; rfl) t' (by rw [h']; rfl) e
  · rw [← len]; exact vertexAt_lt (by rw [h]; simp)
  · rw [← len]; exact vertexAt_lt (by rw [h']; simp)

/-! ### After the invalidation -/

/-- Once invalidated, a calculated or merged bus refuses to be written, and to give its angle. -/
theorem invalidated_refuses {b : Bus} (hb : ∀ c, b ≠ .conf c) (s : St) (w : Nat) (x : Dbl) :
    setV s w (invalidate b) x = (.thrown, s) ∧ setAngle s w (invalidate b) x = (.thrown, s) ∧
    getAngle s w (invalidate b) = .thrown ∧
    (∀ valid ts ref, b = .calculated valid ts ref → getV s w (invalidate b) = .thrown) := by
  cases b with
  | calculated valid ts ref => exact ⟨rfl, rfl, rfl, fun _ _ _ _ => rfl⟩
  | conf c => exact absurd rfl (hb c)
  | merged valid bs => exact ⟨rfl, rfl, rfl, fun _ _ _ h => by cases h⟩

/-- FALSE of the code: "an invalidated bus gives no voltage".  A merged bus answers that it has none instead of refusing. -/
theorem invalidated_voltage (s : St) (w : Nat) (valid : Bool) (bs : List Nat) :
    getV s w (invalidate (.merged valid bs)) = .ok .nan := rfl

example : (∀ c, Bus.merged true [4] ≠ .conf c) ∧
    getV (setV blank 0 (.merged true [4]) (.fin 400)).2 0 (invalidate (.merged true [4])) = .ok .nan ∧
    getAngle blank 0 (invalidate (.merged true [4])) = .thrown := by
  exact ⟨fun c h => (by cases h), (by decide +kernel), rfl⟩

end Verif.BusState
