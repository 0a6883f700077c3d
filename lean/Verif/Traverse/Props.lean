import Verif.Traverse.PureLemmas

/-!
C65: a topological traversal ends, whatever the traverser answers, and asks justified questions only.
C66: a topological traversal reaches exactly what the traverser lets it reach.
-/

namespace Verif.Traverse

open Verif Verif.Graph

/-! ### Networks given by tables, for the examples -/

def topoOf (tops : List Topo) (vl : Nat) : Topo := tops.getD vl (.node {})

def okTopo (net : Net) (vl : Nat) : Topo → Bool
  | .node g => (List.range g.vertices.length).all fun n =>
      match g.vertexAt n with
      | some (some t) => decide (t ∈ net.terms) && decide (net.place t = (vl, n))
      | _ => true
  | .bus g => ((List.range g.vertices.length).all fun n =>
      match g.vertexAt n with
      | some (some ts) => ts.all fun t => decide (t ∈ net.terms) && decide (net.place t = (vl, n))
      | some none => false
      | none => true) &&
    (List.range g.edges.length).all fun e =>
      match g.edgeAt e with
      | some ed => ed.obj.isSome
      | none => true

def okTerm (net : Net) (t : Nat) : Bool :=
  (match net.topo (net.place t).1 with
  | .node g => decide (g.vertexAt (net.place t).2 = some (some t))
  | .bus g =>
    match g.vertexAt (net.place t).2 with
    | some (some ts) => decide (t ∈ ts)
    | _ => false) &&
  (decide (net.conn t = .injection) || decide (t ∈ (net.conn t).members)) &&
  (net.conn t).members.all (fun t' => decide (t' ∈ net.terms)) && decide ((net.conn t).members.Nodup)

def ReachedT : Topo → Prop
  | .node g => Reached g
  | .bus g => Reached g

theorem wf_of (net : Net) (tops : List Topo) (h : net.topo = topoOf tops) (hr : ∀ vl, ReachedT (topoOf tops vl))
    (h1 : ∀ vl < tops.length, okTopo net vl (topoOf tops vl) = true) (h2 : net.terms.all (okTerm net) = true) : net.WF := by
  have hin : ∀ vl, tops.length ≤ vl → net.topo vl = .node {} := by
    intro vl hvl
    rw [h]; unfold topoOf
    rw [List.getD_eq_getElem?_getD, List.getElem?_eq_none hvl]; rfl
  have hok : ∀ vl, okTopo net vl (net.topo vl) = true := by
    intro vl
    rcases Nat.lt_or_ge vl tops.length with hlt | hge
    · rw [h]; exact h1 vl hlt
    · rw [hin vl hge]; rfl
  have ht : ∀ t ∈ net.terms, okTerm net t = true := List.all_eq_true.mp h2
  have split : ∀ t ∈ net.terms, (match net.topo (net.place t).1 with
      | .node g => decide (g.vertexAt (net.place t).2 = some (some t))
      | .bus g =>
        match g.vertexAt (net.place t).2 with
        | some (some ts) => decide (t ∈ ts)
        | _ => false) = true ∧ (net.conn t = .injection ∨ t ∈ (net.conn t).members) ∧
      (∀ t' ∈ (net.conn t).members, t' ∈ net.terms) ∧ (net.conn t).members.Nodup := by
    intro t hm
    have := ht t hm
    unfold okTerm at this
    simp only [Bool.and_eq_true, Bool.or_eq_true, decide_eq_true_eq, List.all_eq_true] at this
    exact ⟨this.1.1.1, this.1.1.2, this.1.2, this.2⟩
  refine ⟨?_, ?_, ?_, ?_, ?_, ?_, ?_, ?_, ?_, ?_⟩
  · intro vl g hg; have := hr vl; rw [← h, hg] at this; exact this
  · intro vl g hg; have := hr vl; rw [← h, hg] at this; exact this
  · intro t g hm hg
    have := (split t hm).1
    rw [hg] at this
    simpa using this
  · intro t g hm hg
    have := (split t hm).1
    rw [hg] at this
    simp only [] at this
    cases hv : g.vertexAt (net.place t).2 with
    | none => rw [hv] at this; cases this
    | some o =>
      cases o with
      | none => rw [hv] at this; cases this
      | some ts => rw [hv] at this; exact ⟨ts, rfl, by simpa using this⟩
  · intro vl g n t hg hv
    have := hok vl
    rw [hg] at this
    have := List.all_eq_true.mp this n (List.mem_range.mpr (vertexAt_lt (by rw [hv]; simp)))
    simp only [hv] at this
    simpa using this
  · intro vl g n hg hv
    have := hok vl
    rw [hg] at this
    have := List.all_eq_true.mp (Bool.and_eq_true _ _ ▸ this).1 n (List.mem_range.mpr (vertexAt_lt hv))
    cases hv' : g.vertexAt n with
    | none => exact absurd hv' hv
    | some o =>
      rw [hv'] at this
      cases o with
      | none => cases this
      | some ts => exact ⟨ts, rfl, by simpa using this⟩
  · intro vl g e ed hg he
    have := hok vl
    rw [hg] at this
    have := List.all_eq_true.mp (Bool.and_eq_true _ _ ▸ this).2 e (List.mem_range.mpr (edgeAt_lt (by rw [he]; simp)))
    simp only [he] at this
    intro hh; rw [hh] at this; cases this
  · intro t hm; exact (split t hm).2.1
  · intro t t' hm hm'; exact (split t hm).2.2.1 t' hm'
  · intro t hm; exact (split t hm).2.2.2

/-! ### C65 -/

/-- C65: from a terminal of the network, with any traverser, even one whose answers depend on all that it was asked before,
    the traversal ends normally: no endless recursion, no error.  Every question is justified by the answers: terminals
    at places that accepted switches, internal connections and accepted equipments lead to, with the right flag, and
    switches at vertices that may be left.  The terminals noted as traversed were accepted. -/
theorem traverse_ends {net : Net} (hwf : net.WF) (ask : Ask) {order : List Nat → List Nat}
    (hord : ∀ l x, x ∈ order l ↔ x ∈ l) {t : Nat} (ht : t ∈ net.terms) :
    ∃ st, traverse net ask order t = .ok st ∧ (∀ q b, (q, b) ∈ st.log → Justified net t st.log q) ∧
      (∀ x ∈ st.traversed, x ∈ net.terms ∧ Accepted st.log x) ∧ st.traversed.Nodup := by
  have h0 : Inv net t ⟨[], []⟩ := ⟨nofun, nofun, List.nodup_nil⟩
  have hu : unseen net ⟨[], []⟩ < net.terms.length + 1 := by
    have := List.length_filter_le (fun t => decide (t ∉ ([] : List Nat))) net.terms
    unfold unseen; simp only []; omega
  obtain ⟨st, r1, r2, _⟩ := visit_inv hwf t ask hord (net.terms.length + 1) t ⟨[], []⟩ ht h0 .start hu
  exact ⟨st, r1, r2.just, r2.acc, r2.nodup⟩

/-! ### C66 -/

theorem count_acceptedOf {l : List (Q × Bool)} (h : ∀ t c, (Q.term t c, true) ∈ l → c = true) (t : Nat) :
    l.count (Q.term t true, true) = (acceptedOf l).count t := by
  induction l with
  | nil => rfl
  | cons p l ih =>
    have ih' := ih (fun t c hm => h t c (List.mem_cons_of_mem _ hm))
    obtain ⟨q, b⟩ := p
    cases q with
    | term t' c =>
      cases b with
      | false => simp only [acceptedOf]; rw [List.count_cons, ih']; simp
      | true =>
        have : c = true := h t' c (by simp)
        subst this
        simp only [acceptedOf]
        rw [List.count_cons, List.count_cons, ih']
        by_cases htt : t' = t
        · subst htt; simp
        · simp [htt]
    | sw x => simp only [acceptedOf]; rw [List.count_cons, ih']; simp

/-- C66, in a network of node/breaker voltage levels and with a traverser whose answers depend on the question only: the
    terminals traversed are exactly those at the places that the traverser lets reach; each of them was asked about and
    accepted exactly once; the terminals asked about are exactly these and those next to these places.  The order in which
    sets of terminals are run through does not matter.  Missing for the full property: bus/breaker voltage levels, see
    `bus_terminals_missed` and `terminal_accepted_twice`. -/
theorem traverse_exact_partial {net : Net} (hwf : net.WF) (hall : net.AllNode) (f : Q → Bool) {order : List Nat → List Nat}
    (hord : ∀ l x, x ∈ order l ↔ x ∈ l) {t0 : Nat} (ht0 : t0 ∈ net.terms) :
    ∃ st, traverse net (pureAsk f) order t0 = .ok st ∧
      (∀ t, t ∈ st.traversed ↔ t ∈ net.terms ∧ Visited net f t0 (net.place t)) ∧
      (∀ t, t ∈ net.terms → Visited net f t0 (net.place t) → st.log.count (.term t true, true) = 1) ∧
      (∀ t b, (∃ c, (Q.term t c, b) ∈ st.log) ↔ t ∈ net.terms ∧ Beside net f t0 t ∧ b = f (.term t true)) := by
  have h0 : PInv net f t0 ⟨[], []⟩ := ⟨rfl, List.nodup_nil, nofun, nofun, nofun, nofun⟩
  have hu : unseen net ⟨[], []⟩ < net.terms.length + 1 := by
    have := List.length_filter_le (fun t => decide (t ∉ ([] : List Nat))) net.terms
    unfold unseen; simp only []; omega
  obtain ⟨st, r1, r⟩ := visit_pure hwf hall f t0 hord (net.terms.length + 1) t0 ⟨[], []⟩ ht0 h0 (Or.inl rfl) (fun h => .start h) hu
  have hvis : ∀ p, Visited net f t0 p → ∃ s ∈ st.traversed, (net.place s).1 = p.1 ∧ Walk net f p.1 (net.place s).2 p.2 := by
    intro p hp
    induction hp with
    | start h => exact ⟨t0, r.self.2 h, rfl, .refl⟩
    | edge _ h2 h3 h4 ih =>
      obtain ⟨s, k1, k2, k3⟩ := ih
      exact ⟨s, k1, k2, .step k3 ⟨_, h2, h3, h4⟩ (fun h => h)⟩
    | @across t t' h1 _ h3 h4 ih =>
      obtain ⟨s, k1, k2, k3⟩ := ih
      have hin : t ∈ st.traversed := r.inv.closed s k1 t ⟨h1, k2.symm, k2 ▸ k3⟩
      exact ⟨t', (r.mates t hin nofun t' h3).2 h4, rfl, .refl⟩
  have htrav : ∀ t, t ∈ st.traversed ↔ t ∈ net.terms ∧ Visited net f t0 (net.place t) := by
    intro t
    constructor
    · intro h; exact ⟨(r.inv.sound t h).1, (r.inv.sound t h).2.2⟩
    · rintro ⟨h1, h2⟩
      obtain ⟨s, k1, k2, k3⟩ := hvis _ h2
      exact r.inv.closed s k1 t ⟨h1, k2.symm, k2 ▸ k3⟩
  refine ⟨st, r1, htrav, ?_, ?_⟩
  · intro t h1 h2
    rw [count_acceptedOf (fun x c hx => (r.inv.asked x c true hx).2.1), r.inv.eq]
    have := (htrav t).mpr ⟨h1, h2⟩
    rw [List.Nodup.count r.inv.nd, if_pos this]
  · intro t b
    constructor
    · rintro ⟨c, hc⟩
      obtain ⟨k1, _, k3, k4⟩ := r.inv.asked t c b hc
      exact ⟨k1, k4, k3⟩
    · rintro ⟨h1, h2, rfl⟩
      have : Asked st.log t := by
        rcases h2 with rfl | ⟨vl, u, w, obj, k1, k2, k3, k4⟩ | ⟨t', k1, k2, k3⟩
        · exact r.self.1
        · obtain ⟨s, m1, m2, m3⟩ := hvis _ k1
          simp only at m2 m3
          subst m2
          exact r.inv.border s m1 t ⟨h1, u, w, obj, m3, k2, k3, k4⟩
        · exact (r.mates t' ((htrav t').mpr ⟨k1, k2⟩) nofun t k3).1
      obtain ⟨b, hb⟩ := this
      have := (r.inv.asked t true b hb).2.2.1
      subst this
      exact ⟨true, hb⟩

/-! Sample: two node/breaker voltage levels.  In the first, terminal 0 on node 0, a switch 70 to node 1 without terminal, an
    internal connection to node 2 with terminal 1, a switch 71 to node 3 with terminal 2.  Terminal 1 is an end of a line
    whose other end is terminal 3 on node 0 of the second, where a switch 72 leads to the load with terminal 4. -/

def n0 : G Nat Nat := run {} [.addVertexIfNotPresent 0, .addVertexIfNotPresent 1, .addVertexIfNotPresent 2,
  .addVertexIfNotPresent 3, .setVertexObject 0 (some 0), .setVertexObject 2 (some 1), .setVertexObject 3 (some 2),
  .addEdge 0 1 (some 70), .addEdge 1 2 none, .addEdge 1 3 (some 71)]

def n1 : G Nat Nat := run {} [.addVertexIfNotPresent 0, .addVertexIfNotPresent 1, .setVertexObject 0 (some 3),
  .setVertexObject 1 (some 4), .addEdge 0 1 (some 72)]

def netN : Net where
  terms := [0, 1, 2, 3, 4]
  topo := topoOf [.node n0, .node n1]
  place := fun t => [(0, 0), (0, 2), (0, 3), (1, 0), (1, 1)].getD t (9, 9)
  connected := fun _ => true
  conn := fun t => if t = 1 ∨ t = 3 then .branch 1 3 else .injection

theorem netN_wf : netN.WF := by
  refine wf_of netN _ rfl ?_ (by decide) (by decide)
  intro vl
  match vl with
  | 0 => exact ⟨_, rfl⟩
  | 1 => exact ⟨_, rfl⟩
  | n + 2 => exact ⟨[], rfl⟩

theorem netN_all : netN.AllNode := by
  intro t ht
  have : t = 0 ∨ t = 1 ∨ t = 2 ∨ t = 3 ∨ t = 4 := by simpa [netN] using ht
  rcases this with rfl | rfl | rfl | rfl | rfl
  all_goals exact ⟨_, rfl⟩

/-- Refuses the terminal 2 and the switch 72. -/
def fN : Q → Bool
  | .term t _ => t != 2
  | .sw h => h != 72

example : traverse netN (pureAsk fN) (_root_.id) 0 =
    .ok ⟨[(.term 0 true, true), (.sw 70, true), (.term 1 true, true), (.sw 71, true), (.term 2 true, false),
      (.term 3 true, true), (.sw 72, false)], [0, 1, 3]⟩ := by decide

example : ∃ st, traverse netN (pureAsk fN) (_root_.id) 0 = .ok st ∧
    (∀ t, t ∈ st.traversed ↔ t ∈ netN.terms ∧ Visited netN fN 0 (netN.place t)) :=
  let ⟨st, h1, h2, _⟩ := traverse_exact_partial netN_wf netN_all fN (fun _ _ => Iff.rfl) (t0 := 0) (by decide)
  ⟨st, h1, h2⟩

/-! Bus/breaker samples. -/

/-- A bus with terminal 0 and a bus with terminals 1 and 2, joined by a switch. -/
def b0 : G (List Nat) Nat := run {} [.addVertexIfNotPresent 0, .addVertexIfNotPresent 1, .setVertexObject 0 (some [0]),
  .setVertexObject 1 (some [1, 2]), .addEdge 0 1 (some 70)]

def netB : Net where
  terms := [0, 1, 2]
  topo := topoOf [.bus b0]
  place := fun t => [(0, 0), (0, 1), (0, 1)].getD t (9, 9)
  connected := fun _ => true
  conn := fun _ => .injection

theorem netB_wf : netB.WF := by
  refine wf_of netB _ rfl ?_ (by decide) (by decide)
  intro vl
  match vl with
  | 0 => exact ⟨_, rfl⟩
  | n + 1 => exact ⟨[], rfl⟩

/-- Finding (C66): only the first terminal of a bus behind a switch is asked about; a traverser that accepts everything
    never hears of the others, nor of what is behind their equipments. -/
theorem bus_terminals_missed :
    ∃ (net : Net) (t0 t : Nat) (st : St), net.WF ∧ t0 ∈ net.terms ∧ t ∈ net.terms ∧
      Visited net (fun _ => true) t0 (net.place t) ∧ traverse net (pureAsk fun _ => true) (_root_.id) t0 = .ok st ∧
      ∀ c b, (Q.term t c, b) ∉ st.log := by
  refine ⟨netB, 0, 2, ⟨[(.term 0 true, true), (.sw 70, true), (.term 1 true, true)], [0, 1]⟩, netB_wf, by decide, by decide,
    ?_, by decide, ?_⟩
  · show Visited netB (fun _ => true) 0 (0, 1)
    refine .edge (u := 0) (obj := some 70) (.start rfl) ?_ (fun _ _ => rfl) (fun _ _ _ => rfl)
    exact ⟨0, ⟨0, 1, some 70⟩, by decide, Or.inl ⟨rfl, rfl⟩, rfl⟩
  · intro c b h
    simp at h

/-- Two parallel lines between two buses. -/
def netP : Net where
  terms := [0, 1, 2, 3]
  topo := topoOf [.bus (run {} [.addVertexIfNotPresent 0, .setVertexObject 0 (some [0, 1])]),
    .bus (run {} [.addVertexIfNotPresent 0, .setVertexObject 0 (some [2, 3])])]
  place := fun t => [(0, 0), (0, 0), (1, 0), (1, 0)].getD t (9, 9)
  connected := fun _ => true
  conn := fun t => if t = 0 ∨ t = 2 then .branch 0 2 else .branch 1 3

theorem netP_wf : netP.WF := by
  refine wf_of netP _ rfl ?_ (by decide) (by decide)
  intro vl
  match vl with
  | 0 => exact ⟨_, rfl⟩
  | 1 => exact ⟨_, rfl⟩
  | n + 2 => exact ⟨[], rfl⟩

/-- Finding (C66): the accepted terminals of the bus of the start are not noted as traversed; with two parallel lines one of
    them is asked about again. -/
theorem terminal_accepted_twice :
    ∃ (net : Net) (t0 t : Nat) (st : St), net.WF ∧ t0 ∈ net.terms ∧
      traverse net (pureAsk fun _ => true) (_root_.id) t0 = .ok st ∧ st.log.count (.term t true, true) = 2 :=
  ⟨netP, 0, 1, _, netP_wf, by decide, rfl, by decide⟩

example : ∃ st, traverse netP (fun log q => log.length < 3 || decide (q = .term 3 true)) (_root_.id) 0 = .ok st ∧
    (∀ q b, (q, b) ∈ st.log → Justified netP 0 st.log q) :=
  let ⟨st, h1, h2, _⟩ := traverse_ends netP_wf (fun log q => log.length < 3 || decide (q = .term 3 true))
    (fun _ _ => Iff.rfl) (t := 0) (by decide)
  ⟨st, h1, h2⟩

end Verif.Traverse
