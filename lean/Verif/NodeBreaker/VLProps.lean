import Verif.NodeBreaker.VLLemmas

/-!
C20: bus queries reflect the current topology.  C26: at most one equipment per node.
-/

namespace Verif.NodeBreaker

open Verif Verif.Graph

/-- Calls on a node/breaker voltage level, its switches and its variants; `w` is the working variant. -/
inductive Act where
  | addInternalConnection (w n1 n2 : Nat)
  | addSwitch (registered : Bool) (sw : Sw) (opened retained : Bool) (n1 n2 : Nat)
  | attach (t : Term) (test : Bool)
  | detach (debug : Bool) (t : Term)
  | removeSwitch (id : String)
  | removeInternalConnections (w n1 n2 : Nat)
  | setOpen (w sw : Nat) (b : Bool)
  | setRetained (w sw : Nat) (b : Bool)
  | getBus (view : View) (w node : Nat)
  | connect (w : Nat) (t : Term)
  | disconnect (w : Nat) (t : Term)
  | cloneVariant (src dst : Nat)

/-- The call may end in the state `s'`. -/
def Run (s : VL) (a : Act) (s' : VL) : Prop :=
  match a with
  | .addInternalConnection w n1 n2 => s' = (s.addInternalConnection w n1 n2).2
  | .addSwitch reg sw o r n1 n2 => s' = (s.addSwitch reg sw o r n1 n2).2
  | .attach t test => s' = (s.attach t test).2
  | .detach dbg t => s' = (s.detach dbg t).2
  | .removeSwitch id => s' = (s.removeSwitch id).2
  | .removeInternalConnections w n1 n2 => s' = (s.removeInternalConnections w n1 n2).2
  | .setOpen w sw b => s' = s.setOpen w sw b
  | .setRetained w sw b => s' = s.setRetained w sw b
  | .getBus view w node => s' = (s.getBus view w node).2
  | .connect w t => ∃ r, s.Connect w t (r, s')
  | .disconnect w t => ∃ r, s.Disconnect w t (r, s')
  | .cloneVariant src dst => s' = s.cloneVariant src dst

/-- States of a voltage level after any history of calls. -/
inductive VReach (id : String) : VL → Prop
  | init : VReach id { id := id }
  | step {s s' : VL} {a : Act} : VReach id s → Run s a s' → VReach id s'

structure VInv (s : VL) : Prop where
  g : Reached s.graph
  placed : Placed s.graph

/-! ### Effects of the calls on the graph -/

theorem placed_of_occ {g g' : Gr} (h : Placed g) (ho : ∀ u t, occupant g' u = some t → occupant g u = some t) : Placed g' := by
  intro u t ht
  refine h u t ?_
  have := ho u t (by unfold occupant; rw [ht]; rfl)
  unfold occupant at this
  cases hg : g.vertexAt u with
  | none => rw [hg] at this; cases this
  | some o => rw [hg] at this; cases o with
    | none => cases this
    | some t' => cases this; rfl

theorem addInternalConnection_eff {s : VL} (h : VInv s) (w n1 n2 : Nat) :
    ∃ g', s.addInternalConnection w n1 n2 = (.ok (), { s with graph := g' }.invalidate w) ∧ Reached g' ∧
      ∀ u, occupant g' u = occupant s.graph u := by
  obtain ⟨e, g', r1, r2, r3, r4, r5⟩ := link_ok h.g n1 n2 none
  refine ⟨g', ?_, r2, ?_⟩
  · unfold VL.addInternalConnection; rw [r1]
  · intro u
    unfold occupant
    rw [r5]
    split
    · rename_i hh; rw [hh.2]; rfl
    · rfl

theorem addSwitch_eff {s : VL} (h : VInv s) (sw : Sw) (o r : Bool) (n1 n2 : Nat) :
    ∃ g' e, s.addSwitch true sw o r n1 n2 = (.ok (), { s with
        graph := g', switches := AMap.emplace s.switches sw.id e
        opened := fun w => upd (s.opened w) sw.handle o, retained := fun w => upd (s.retained w) sw.handle r }) ∧
      Reached g' ∧ ∀ u, occupant g' u = occupant s.graph u := by
  obtain ⟨e, g', r1, r2, r3, r4, r5⟩ := link_ok h.g n1 n2 (some sw)
  refine ⟨g', e, ?_, r2, ?_⟩
  · unfold VL.addSwitch; rw [if_neg (by simp), r1]
  · intro u
    unfold occupant
    rw [r5]
    split
    · rename_i hh; rw [hh.2]; rfl
    · rfl

theorem attach_free {s : VL} (h : VInv s) {t : Term} (ho : occupant s.graph t.node = none) :
    ∃ g', s.attach t false = (.ok (), { s with graph := g' }.invalidateAll) ∧ Reached g' ∧
      ∀ u, occupant g' u = if u = t.node then some t else occupant s.graph u := by
  obtain ⟨r1, e1, v1⟩ := addVertexIfNotPresent_eff h.g t.node
  have hn : (s.graph.addVertexIfNotPresent t.node).2.vertexAt t.node = some none := by
    rw [v1]
    unfold occupant at ho
    cases hv : s.graph.vertexAt t.node with
    | none => simp
    | some o => rw [hv] at ho; cases o with
      | none => simp
      | some t' => cases ho
  obtain ⟨g', q1, q2, q3, q4⟩ := setVertexObject_ok r1 (n := t.node) (by rw [hn]; simp) (some t)
  refine ⟨g', ?_, q2, ?_⟩
  · unfold VL.attach
    rw [if_neg (by simp)]
    simp only [hn, q1]
  · intro u
    unfold occupant
    rw [q4]
    by_cases hu : u = t.node
    · rw [if_pos hu, if_pos hu]; rfl
    · rw [if_neg hu, if_neg hu, v1, if_neg (by simp [hu])]

theorem vertexAt_of_occ {g : Gr} {u : Nat} {t : Term} (h : occupant g u = some t) : g.vertexAt u = some (some t) := by
  unfold occupant at h
  cases hv : g.vertexAt u with
  | none => rw [hv] at h; cases h
  | some o => rw [hv] at h; cases o with
    | none => cases h
    | some t2 => cases h; rfl

theorem attach_busy {s : VL} (h : VInv s) {t t' : Term} (ho : occupant s.graph t.node = some t') :
    s.attach t false = (.thrown, { s with graph := s.graph.invalidate }) := by
  have hv := vertexAt_of_occ ho
  have hlt := vertexAt_lt (g := s.graph) (v := t.node) (by rw [hv]; simp)
  have hadd : (s.graph.addVertexIfNotPresent t.node).2 = s.graph.invalidate := by
    unfold G.addVertexIfNotPresent
    rw [if_pos hlt, if_neg]
    intro hm
    have := (h.g.wf.fv.iff t.node).mp hm
    unfold G.vertexAt at hv
    rw [hv] at this
    cases this.2
  unfold VL.attach
  rw [if_neg (by simp)]
  simp only [hadd]
  have : G.vertexAt (G.invalidate s.graph) t.node = some (some t') := hv
  rw [this]

theorem invalidate_reached {g : Gr} (h : Reached g) {u : Nat} {t : Term} (ho : occupant g u = some t) :
    Reached g.invalidate := by
  have hv := vertexAt_of_occ ho
  have := h.step (.addVertexIfNotPresent u)
  have hlt := vertexAt_lt (g := g) (v := u) (by rw [hv]; simp)
  have hadd : (g.addVertexIfNotPresent u).2 = g.invalidate := by
    unfold G.addVertexIfNotPresent
    rw [if_pos hlt, if_neg]
    intro hm
    have := (h.wf.fv.iff u).mp hm
    unfold G.vertexAt at hv
    rw [hv] at this
    cases this.2
  rw [← hadd]; exact this

theorem detach_known {s : VL} (h : VInv s) {t : Term} (hv : s.graph.vertexAt t.node ≠ none) :
    ∃ g', s.detach false t = (.ok (), { s.invalidateAll with graph := g' }) ∧ Reached g' ∧
      g'.edgeAt = s.graph.edgeAt ∧
      ∀ u, occupant g' u = if u = t.node then none else occupant s.graph u := by
  obtain ⟨g1, q1, q2, q3, q4⟩ := setVertexObject_ok h.g hv none
  obtain ⟨g2, p1, p2, p3, p4⟩ := clean_ok q2
  refine ⟨g2, ?_, p2, p3.trans q3, ?_⟩
  · unfold VL.detach
    rw [if_neg (by simp), if_neg (by simp)]
    have hi : s.invalidateAll.graph = s.graph := rfl
    simp only [hi]
    rw [q1]
    simp only []
    rw [p1]
  · intro u
    rw [p4]
    unfold occupant
    rw [q4]
    by_cases hu : u = t.node
    · rw [if_pos hu, if_pos hu]; rfl
    · rw [if_neg hu, if_neg hu]

theorem detach_unknown {s : VL} {t : Term} (hv : s.graph.vertexAt t.node = none) :
    s.detach false t = (.thrown, s.invalidateAll) := by
  unfold VL.detach
  rw [if_neg (by simp), if_neg (by simp)]
  have hi : s.invalidateAll.graph = s.graph := rfl
  simp only [hi]
  rw [setVertexObject_thrown hv]
  rfl

theorem detach_debug (s : VL) (t : Term) :
    s.detach true t = (.ub, s) ∨
    (s.detach true t = s.detach false t ∧ t.node < s.graph.vertexCount ∧ s.graph.vertexAt t.node = some (some t)) := by
  unfold VL.detach
  by_cases h1 : t.node < s.graph.vertexCount
  · by_cases h2 : s.graph.vertexAt t.node = some (some t)
    · right; simp [h1, h2]
    · left; simp [h1, h2]
  · left; simp [h1]

theorem removeSwitch_eff {s : VL} (h : VInv s) (id : String) :
    s.removeSwitch id = (.thrown, s) ∨
    ∃ g' e, s.switches.get? id = some e ∧ s.graph.edgeAt e ≠ none ∧
      s.removeSwitch id = (.ok (), { s with graph := g', switches := AMap.erase s.switches id }) ∧ Reached g' ∧
      (∀ i, g'.edgeAt i = if i = e then none else s.graph.edgeAt i) ∧
      ∀ u, occupant g' u = occupant s.graph u := by
  unfold VL.removeSwitch
  cases he : s.switches.get? id with
  | none => exact Or.inl rfl
  | some e =>
    simp only []
    by_cases hee : s.graph.edgeAt e = none
    · left
      have : s.graph.removeEdge e = (.thrown, s.graph) := by unfold G.removeEdge; rw [hee]
      rw [this]
    · right
      obtain ⟨o, g1, q1, q2, q3, q4, _⟩ := removeEdge_ok h.g hee
      obtain ⟨g2, p1, p2, p3, p4⟩ := clean_ok q2
      refine ⟨g2, e, rfl, hee, ?_, p2, ?_, ?_⟩
      · rw [q1]; simp only []; rw [p1]
      · intro i; rw [p3, q4]
      · intro u; rw [p4]; unfold occupant; rw [q3]

theorem removeInternalConnections_eff {s : VL} (h : VInv s) (w n1 n2 : Nat) :
    s.removeInternalConnections w n1 n2 = (.thrown, s) ∨
    ∃ g', s.removeInternalConnections w n1 n2 = (.ok (), { s with graph := g' }.invalidate w) ∧ Reached g' ∧
      (∀ i, g'.edgeAt i = if (∃ ed, s.graph.edgeAt i = some ed ∧ isConnection n1 n2 ed = true) then none
        else s.graph.edgeAt i) ∧
      ∀ u, occupant g' u = occupant s.graph u := by
  unfold VL.removeInternalConnections
  split
  · exact Or.inl rfl
  · right
    obtain ⟨g1, q1, q2, q3, q4⟩ := connLoop_ok n1 n2 s.graph.edges.length 0 s.graph h.g (Nat.zero_le _) (fun _ => rfl)
    obtain ⟨g2, p1, p2, p3, p4⟩ := clean_ok q2
    refine ⟨g2, ?_, p2, ?_, ?_⟩
    · rw [List.range_eq_range']
      rw [Nat.sub_zero] at q1
      rw [q1]; simp only []; rw [p1]
    · intro i
      rw [p3, q4]
      have : (0 ≤ i ∧ i < s.graph.edges.length ∧ (∃ ed, s.graph.edgeAt i = some ed ∧ isConnection n1 n2 ed = true)) ↔
          (∃ ed, s.graph.edgeAt i = some ed ∧ isConnection n1 n2 ed = true) := by
        constructor
        · exact fun hh => hh.2.2
        · intro hh
          refine ⟨Nat.zero_le _, ?_, hh⟩
          obtain ⟨ed, h1, _⟩ := hh
          exact edgeAt_lt (by rw [h1]; simp)
      simp only [this]
    · intro u; rw [p4]; unfold occupant; rw [q3]

/-- What `connect` and `disconnect` leave alone. -/
structure SameGraph (s s' : VL) : Prop where
  id : s'.id = s.id
  graph : s'.graph = s.graph
  switches : s'.switches = s.switches
  retained : s'.retained = s.retained
  fresh : Fresh s → Fresh s'

theorem SameGraph.refl (s : VL) : SameGraph s s := ⟨rfl, rfl, rfl, rfl, fun h => h⟩

theorem SameGraph.trans {a b c : VL} (h : SameGraph a b) (h' : SameGraph b c) : SameGraph a c :=
  ⟨h'.id.trans h.id, h'.graph.trans h.graph, h'.switches.trans h.switches, h'.retained.trans h.retained,
    fun x => h'.fresh (h.fresh x)⟩

theorem setOpen_sameGraph (s : VL) (w h : Nat) (b : Bool) : SameGraph s (s.setOpen w h b) := by
  obtain ⟨h1, h2, h3, h4, _⟩ := setOpen_eff s w h b
  exact ⟨h2, h1, h3, h4, fun hf => setOpen_fresh hf w h b⟩

theorem closeLoop_sameGraph (w : Nat) (es : List Nat) : ∀ (b : Bool) (s : VL), SameGraph s (closeLoop w es b s).2 := by
  induction es with
  | nil => intro b s; exact .refl s
  | cons e es ih =>
    intro b s
    unfold closeLoop
    cases s.graph.edgeAt e with
    | none => exact .refl s
    | some ed =>
      simp only []
      cases ed.obj with
      | none => exact ih b s
      | some sw =>
        simp only []
        split
        · exact (setOpen_sameGraph s w sw.handle false).trans (ih true _)
        · exact ih b s

theorem openPath_sameGraph (w : Nat) (es : List Nat) : ∀ (s : VL), SameGraph s (openPath w es s).2 := by
  induction es with
  | nil => intro s; exact .refl s
  | cons e es ih =>
    intro s
    unfold openPath
    cases s.graph.edgeAt e with
    | none => exact .refl s
    | some ed =>
      simp only []
      cases ed.obj with
      | none => exact ih s
      | some sw =>
        simp only []
        split
        · simp only []
          split
          · exact .refl s
          · exact setOpen_sameGraph s w sw.handle true
        · exact ih s

theorem openLoop_sameGraph (w : Nat) (ps : List (List Nat)) : ∀ (s : VL), SameGraph s (openLoop w ps s).2 := by
  induction ps with
  | nil => intro s; exact .refl s
  | cons p ps ih =>
    intro s
    unfold openLoop
    have := openPath_sameGraph w p s
    revert this
    rcases openPath w p s with ⟨o, s'⟩
    intro this
    cases o with
    | ok b => cases b with
      | true => exact this.trans (ih s')
      | false => exact this
    | thrown => exact this
    | ub => exact this

theorem connect_sameGraph {s s' : VL} {w : Nat} {t : Term} {o : Out Bool} (h : s.Connect w t (o, s')) :
    SameGraph (s.update .bus w).2 s' := by
  unfold VL.Connect at h
  rw [← isConnected_snd s w t]
  revert h
  rcases s.isConnected w t with ⟨r, s1⟩
  intro h
  cases r with
  | ok b =>
    cases b with
    | true => cases h; exact .refl _
    | false =>
      obtain ⟨p, _, h⟩ := h
      cases p with
      | ok ps =>
        cases ps with
        | nil => cases h; exact .refl _
        | cons path ps =>
          have h' : (o, s') = closeLoop w path false s1 := h
          have := closeLoop_sameGraph w path false s1
          rw [← h'] at this; exact this
      | thrown => cases h; exact .refl _
      | ub => cases h; exact .refl _
  | thrown => cases h; exact .refl _
  | ub => cases h; exact .refl _

theorem disconnect_sameGraph {s s' : VL} {w : Nat} {t : Term} {o : Out Bool} (h : s.Disconnect w t (o, s')) :
    SameGraph (s.update .bus w).2 s' := by
  unfold VL.Disconnect at h
  rw [← isConnected_snd s w t]
  revert h
  rcases s.isConnected w t with ⟨r, s1⟩
  intro h
  cases r with
  | ok b =>
    cases b with
    | false => cases h; exact .refl _
    | true =>
      obtain ⟨p, _, h⟩ := h
      cases p with
      | ok ps =>
        cases ps with
        | nil => cases h; exact .refl _
        | cons path ps =>
          have h' : (o, s') = openLoop w (path :: ps) s1 := h
          have := openLoop_sameGraph w (path :: ps) s1
          rw [← h'] at this; exact this
      | thrown => cases h; exact .refl _
      | ub => cases h; exact .refl _
  | thrown => cases h; exact .refl _
  | ub => cases h; exact .refl _

/-! ### The invariant -/

theorem occ_congr {g g' : Gr} (h : g'.vertices = g.vertices) (u : Nat) : occupant g' u = occupant g u := by
  unfold occupant G.vertexAt; rw [h]

theorem inv_of_occ {s s' : VL} (h : VInv s) (hg : Reached s'.graph) (ho : ∀ u, occupant s'.graph u = occupant s.graph u) :
    VInv s' := ⟨hg, placed_of_occ h.placed (fun u t ht => by rw [← ho]; exact ht)⟩

theorem inv_update {s : VL} (h : VInv s) (view : View) (w : Nat) : VInv (s.update view w).2 := by
  obtain ⟨k1, k2⟩ := update_same s h.g view w
  exact inv_of_occ h k2 (fun u => occ_congr k1.vertices u)

theorem inv_sameGraph {s s' : VL} (h : VInv s) (hs : SameGraph s s') : VInv s' :=
  ⟨by rw [hs.graph]; exact h.g, by rw [hs.graph]; exact h.placed⟩

theorem inv_run {s s' : VL} {a : Act} (h : VInv s) (hr : Run s a s') : VInv s' := by
  cases a with
  | addInternalConnection w n1 n2 =>
    obtain ⟨g', e1, e2, e3⟩ := addInternalConnection_eff h w n1 n2
    have hr' : s' = (s.addInternalConnection w n1 n2).2 := hr
    rw [hr', e1]; exact inv_of_occ h e2 e3
  | addSwitch reg sw o r n1 n2 =>
    have hr' : s' = (s.addSwitch reg sw o r n1 n2).2 := hr
    cases reg with
    | false => rw [hr']; exact h
    | true =>
      obtain ⟨g', e, e1, e2, e3⟩ := addSwitch_eff h sw o r n1 n2
      rw [hr', e1]; exact inv_of_occ h e2 e3
  | attach t test =>
    have hr' : s' = (s.attach t test).2 := hr
    cases test with
    | true => rw [hr']; exact h
    | false =>
      cases ho : occupant s.graph t.node with
      | none =>
        obtain ⟨g', e1, e2, e3⟩ := attach_free h ho
        rw [hr', e1]
        refine ⟨e2, ?_⟩
        intro u t' ht
        have := e3 u
        by_cases hu : u = t.node
        · rw [if_pos hu] at this
          have ht' : occupant g' u = some t' := by
            have ht2 : g'.vertexAt u = some (some t') := ht
            unfold occupant; rw [ht2]; rfl
          rw [this] at ht'; cases ht'; exact hu.symm
        · rw [if_neg hu] at this
          have ht' : occupant g' u = some t' := by
            have ht2 : g'.vertexAt u = some (some t') := ht
            unfold occupant; rw [ht2]; rfl
          rw [this] at ht'
          exact h.placed u t' (vertexAt_of_occ ht')
      | some t' =>
        rw [hr', attach_busy h ho]
        exact inv_of_occ h (invalidate_reached h.g ho) (fun u => rfl)
  | detach dbg t =>
    have hr' : s' = (s.detach dbg t).2 := hr
    have key : VInv (s.detach false t).2 := by
      by_cases hv : s.graph.vertexAt t.node = none
      · rw [detach_unknown hv]; exact inv_of_occ h h.g (fun u => rfl)
      · obtain ⟨g', e1, e2, _, e3⟩ := detach_known h hv
        rw [e1]
        refine ⟨e2, placed_of_occ h.placed (fun u t' ht => ?_)⟩
        have ht' : occupant g' u = some t' := ht
        rw [e3] at ht'
        split at ht'
        · cases ht'
        · exact ht'
    cases dbg with
    | false => rw [hr']; exact key
    | true =>
      rcases detach_debug s t with e | ⟨e, _⟩
      · rw [hr', e]; exact h
      · rw [hr', e]; exact key
  | removeSwitch id =>
    have hr' : s' = (s.removeSwitch id).2 := hr
    rcases removeSwitch_eff h id with e | ⟨g', e, _, _, e1, e2, _, e3⟩
    · rw [hr', e]; exact h
    · rw [hr', e1]; exact inv_of_occ h e2 e3
  | removeInternalConnections w n1 n2 =>
    have hr' : s' = (s.removeInternalConnections w n1 n2).2 := hr
    rcases removeInternalConnections_eff h w n1 n2 with e | ⟨g', e1, e2, _, e3⟩
    · rw [hr', e]; exact h
    · rw [hr', e1]; exact inv_of_occ h e2 e3
  | setOpen w sw b =>
    have hr' : s' = s.setOpen w sw b := hr
    rw [hr']; exact inv_sameGraph h (setOpen_sameGraph s w sw b)
  | setRetained w sw b =>
    have hr' : s' = s.setRetained w sw b := hr
    rw [hr']
    have : (s.setRetained w sw b).graph = s.graph := by unfold VL.setRetained; split <;> rfl
    exact ⟨by rw [this]; exact h.g, by rw [this]; exact h.placed⟩
  | getBus view w node =>
    have hr' : s' = (s.getBus view w node).2 := hr
    rw [hr', getBus_snd]; exact inv_update h view w
  | connect w t =>
    obtain ⟨r, hr'⟩ := hr
    exact inv_sameGraph (inv_update h .bus w) (connect_sameGraph hr')
  | disconnect w t =>
    obtain ⟨r, hr'⟩ := hr
    exact inv_sameGraph (inv_update h .bus w) (disconnect_sameGraph hr')
  | cloneVariant src dst =>
    have hr' : s' = s.cloneVariant src dst := hr
    rw [hr']; exact ⟨h.g, h.placed⟩

theorem VReach.inv {id : String} {s : VL} (h : VReach id s) : VInv s := by
  induction h with
  | init => exact ⟨⟨[], rfl⟩, by intro u t ht; simp [G.vertexAt] at ht⟩
  | step _ hr ih => exact inv_run ih hr

/-! ### Sample -/

/-- A busbar section on node 0, a load on node 5, nothing else. -/
def vl0 : VL :=
  (((({ id := "VL" } : VL).attach (term 10 .busbarSection 0) false).2).attach (term 11 .load 5) false).2

theorem vl0_reach : VReach "VL" vl0 := .step (.step .init (a := .attach (term 10 .busbarSection 0) false) rfl)
  (a := .attach (term 11 .load 5) false) rfl

/-! ### C26 -/

/-- C26: the terminal on a node is one attached to that node. -/
theorem terminal_on_own_node {id : String} {s : VL} (h : VReach id s) {u : Nat} {t : Term}
    (hu : occupant s.graph u = some t) : t.node = u := h.inv.placed u t (vertexAt_of_occ hu)

/-- C26: attaching to a free node puts the terminal there and moves nothing else. -/
theorem attach_to_free_node {id : String} {s : VL} (h : VReach id s) {t : Term} (ho : occupant s.graph t.node = none) :
    (s.attach t false).1 = .ok () ∧
    ∀ u, occupant (s.attach t false).2.graph u = if u = t.node then some t else occupant s.graph u := by
  obtain ⟨g', e1, _, e3⟩ := attach_free h.inv ho
  rw [e1]; exact ⟨rfl, e3⟩

/-- C26: attaching to an occupied node is refused; nodes, edges, switch states and caches are as before. -/
theorem attach_to_occupied_node {id : String} {s : VL} (h : VReach id s) {t t' : Term}
    (ho : occupant s.graph t.node = some t') :
    (s.attach t false).1 = .thrown ∧ SameTopo s (s.attach t false).2 ∧ (s.attach t false).2.cache = s.cache := by
  rw [attach_busy h.inv ho]
  exact ⟨rfl, ⟨rfl, rfl, rfl, rfl, rfl, rfl⟩, rfl⟩

/-- C26: the dry run changes nothing (and does not look at the node). -/
theorem attach_dry_run (s : VL) (t : Term) : s.attach t true = (.ok (), s) := rfl

/-- C26 (without assertions, as in release builds): detaching a terminal frees exactly its node. -/
theorem detach_frees_node {id : String} {s : VL} (h : VReach id s) {t : Term} (ho : occupant s.graph t.node = some t) :
    (s.detach false t).1 = .ok () ∧
    ∀ u, occupant (s.detach false t).2.graph u = if u = t.node then none else occupant s.graph u := by
  obtain ⟨g', e1, _, _, e3⟩ := detach_known h.inv (t := t) (by rw [vertexAt_of_occ ho]; simp)
  rw [e1]; exact ⟨rfl, e3⟩

/-- C26: no other call moves a terminal. -/
theorem occupants_kept {id : String} {s s' : VL} (h : VReach id s) {a : Act} (hr : Run s a s')
    (ha : ∀ t b, a ≠ .attach t b) (hd : ∀ t b, a ≠ .detach b t) (u : Nat) :
    occupant s'.graph u = occupant s.graph u := by
  have h := h.inv
  cases a with
  | attach t test => exact absurd rfl (ha t test)
  | detach dbg t => exact absurd rfl (hd t dbg)
  | addInternalConnection w n1 n2 =>
    obtain ⟨g', e1, e2, e3⟩ := addInternalConnection_eff h w n1 n2
    have hr' : s' = (s.addInternalConnection w n1 n2).2 := hr
    rw [hr', e1]; exact e3 u
  | addSwitch reg sw o r n1 n2 =>
    have hr' : s' = (s.addSwitch reg sw o r n1 n2).2 := hr
    cases reg with
    | false => rw [hr']; rfl
    | true =>
      obtain ⟨g', e, e1, e2, e3⟩ := addSwitch_eff h sw o r n1 n2
      rw [hr', e1]; exact e3 u
  | removeSwitch id =>
    have hr' : s' = (s.removeSwitch id).2 := hr
    rcases removeSwitch_eff h id with e | ⟨g', e, _, _, e1, e2, _, e3⟩
    · rw [hr', e]
    · rw [hr', e1]; exact e3 u
  | removeInternalConnections w n1 n2 =>
    have hr' : s' = (s.removeInternalConnections w n1 n2).2 := hr
    rcases removeInternalConnections_eff h w n1 n2 with e | ⟨g', e1, e2, _, e3⟩
    · rw [hr', e]
    · rw [hr', e1]; exact e3 u
  | setOpen w sw b =>
    have hr' : s' = s.setOpen w sw b := hr
    rw [hr', (setOpen_sameGraph s w sw b).graph]
  | setRetained w sw b =>
    have hr' : s' = s.setRetained w sw b := hr
    have : (s.setRetained w sw b).graph = s.graph := by unfold VL.setRetained; split <;> rfl
    rw [hr', this]
  | getBus view w node =>
    have hr' : s' = (s.getBus view w node).2 := hr
    rw [hr', getBus_snd]; exact occ_congr (update_same s h.g view w).1.vertices u
  | connect w t =>
    obtain ⟨r, hr'⟩ := hr
    rw [(connect_sameGraph hr').graph]; exact occ_congr (update_same s h.g .bus w).1.vertices u
  | disconnect w t =>
    obtain ⟨r, hr'⟩ := hr
    rw [(disconnect_sameGraph hr').graph]; exact occ_congr (update_same s h.g .bus w).1.vertices u
  | cloneVariant src dst =>
    have hr' : s' = s.cloneVariant src dst := hr
    rw [hr']; rfl

example : occupant vl0.graph 5 = some (term 11 .load 5) ∧ (vl0.attach (term 12 .load 5) false).1 = .thrown ∧
    (vl0.attach (term 12 .load 3) false).1 = .ok () := by decide

/-- Finding (C26): in a debug build the assertion `node < getVertexCount()` of `detach` fails for the load on node 5: the
    graph has two vertices. -/
theorem detach_assertion_fails :
    ∃ s t, VReach "VL" s ∧ occupant s.graph t.node = some t ∧ (s.detach true t).1 = .ub ∧ (s.detach false t).1 = .ok () :=
  ⟨vl0, term 11 .load 5, vl0_reach, by decide, by decide, by decide⟩

/-- In a debug build, with the node number below the number of nodes, detaching works as in a release build. -/
theorem detach_debug_partial {id : String} {s : VL} (_h : VReach id s) {t : Term} (ho : occupant s.graph t.node = some t)
    (hlt : t.node < s.graph.vertexCount) : s.detach true t = s.detach false t := by
  rcases detach_debug s t with e | ⟨e, _⟩
  · exfalso
    unfold VL.detach at e
    have e1 : s.graph.vertexAt t.node = some (some t) := vertexAt_of_occ ho
    obtain ⟨g', q1, _⟩ := detach_known _h.inv (t := t) (by rw [e1]; simp)
    unfold VL.detach at q1
    simp only [Bool.false_and, Bool.false_eq_true, if_false] at q1
    simp only [hlt, e1, decide_true, Bool.not_true, Bool.and_false, Bool.false_eq_true, if_false] at e
    rw [q1] at e
    cases e
  · exact e

/-! ### C20 -/

/-- The condition under which the calls below invalidate enough: those that do not invalidate (all) the caches are made
    while the caches concerned are empty. -/
def Safe (s : VL) (a : Act) : Prop :=
  match a with
  | .addSwitch .. => ∀ view w, s.cache view w = none
  | .removeSwitch _ => ∀ view w, s.cache view w = none
  | .addInternalConnection w _ _ => ∀ view w', w' ≠ w → s.cache view w' = none
  | .removeInternalConnections w _ _ => ∀ view w', w' ≠ w → s.cache view w' = none
  | _ => True

/-- Histories made of safe calls. -/
inductive SafeReach (id : String) : VL → Prop
  | init : SafeReach id { id := id }
  | step {s s' : VL} {a : Act} : SafeReach id s → Safe s a → Run s a s' → SafeReach id s'

theorem SafeReach.reach {id : String} {s : VL} (h : SafeReach id s) : VReach id s := by
  induction h with
  | init => exact .init
  | step _ _ hr ih => exact .step ih hr

theorem fresh_of_empty {s : VL} (h : ∀ view w, s.cache view w = none) : Fresh s := by
  intro view w c hc; rw [h] at hc; cases hc

theorem fresh_run {s s' : VL} {a : Act} (h : VInv s) (hf : Fresh s) (hs : Safe s a) (hr : Run s a s') : Fresh s' := by
  cases a with
  | addInternalConnection w n1 n2 =>
    obtain ⟨g', e1, e2, e3⟩ := addInternalConnection_eff h w n1 n2
    have hr' : s' = (s.addInternalConnection w n1 n2).2 := hr
    rw [hr', e1]
    refine fresh_of_empty (fun view w' => ?_)
    show upd (s.cache view) w none w' = none
    unfold upd
    split
    · rfl
    · rename_i hw; exact hs view w' hw
  | addSwitch reg sw o r n1 n2 =>
    have hr' : s' = (s.addSwitch reg sw o r n1 n2).2 := hr
    cases reg with
    | false => rw [hr']; exact hf
    | true =>
      obtain ⟨g', e, e1, e2, e3⟩ := addSwitch_eff h sw o r n1 n2
      rw [hr', e1]; exact fresh_of_empty hs
  | attach t test =>
    have hr' : s' = (s.attach t test).2 := hr
    cases test with
    | true => rw [hr']; exact hf
    | false =>
      cases ho : occupant s.graph t.node with
      | none =>
        obtain ⟨g', e1, e2, e3⟩ := attach_free h ho
        rw [hr', e1]
        exact fresh_of_empty (fun _ _ => rfl)
      | some t' =>
        rw [hr', attach_busy h ho]
        exact fresh_of_same (s' := { s with graph := s.graph.invalidate }) h.g (invalidate_reached h.g ho) hf
          ⟨rfl, rfl, rfl, rfl, rfl, rfl⟩ (fun _ _ _ hc => hc)
  | detach dbg t =>
    have hr' : s' = (s.detach dbg t).2 := hr
    have key : Fresh (s.detach false t).2 := by
      by_cases hv : s.graph.vertexAt t.node = none
      · rw [detach_unknown hv]; exact fresh_of_empty (fun _ _ => rfl)
      · obtain ⟨g', e1, _⟩ := detach_known h hv
        rw [e1]; exact fresh_of_empty (fun _ _ => rfl)
    cases dbg with
    | false => rw [hr']; exact key
    | true =>
      rcases detach_debug s t with e | ⟨e, _⟩
      · rw [hr', e]; exact hf
      · rw [hr', e]; exact key
  | removeSwitch id =>
    have hr' : s' = (s.removeSwitch id).2 := hr
    rcases removeSwitch_eff h id with e | ⟨g', e, _, _, e1, e2, _, e3⟩
    · rw [hr', e]; exact hf
    · rw [hr', e1]; exact fresh_of_empty hs
  | removeInternalConnections w n1 n2 =>
    have hr' : s' = (s.removeInternalConnections w n1 n2).2 := hr
    rcases removeInternalConnections_eff h w n1 n2 with e | ⟨g', e1, e2, _, e3⟩
    · rw [hr', e]; exact hf
    · rw [hr', e1]
      refine fresh_of_empty (fun view w' => ?_)
      show upd (s.cache view) w none w' = none
      unfold upd
      split
      · rfl
      · rename_i hw; exact hs view w' hw
  | setOpen w sw b =>
    have hr' : s' = s.setOpen w sw b := hr
    rw [hr']; exact setOpen_fresh hf w sw b
  | setRetained w sw b =>
    have hr' : s' = s.setRetained w sw b := hr
    rw [hr']; exact setRetained_fresh hf w sw b
  | getBus view w node =>
    have hr' : s' = (s.getBus view w node).2 := hr
    rw [hr']; exact (getBus_fresh h.g hf view w node).choose_spec.2.2
  | connect w t =>
    obtain ⟨r, hr'⟩ := hr
    exact (connect_sameGraph hr').fresh (update_fresh h.g hf .bus w).choose_spec.2.2
  | disconnect w t =>
    obtain ⟨r, hr'⟩ := hr
    exact (disconnect_sameGraph hr').fresh (update_fresh h.g hf .bus w).choose_spec.2.2
  | cloneVariant src dst =>
    have hr' : s' = s.cloneVariant src dst := hr
    rw [hr']
    intro view w c hc
    have hc' : upd (s.cache view) dst none w = some c := hc
    unfold upd at hc'
    by_cases hw : w = dst
    · rw [if_pos hw] at hc'; cases hc'
    · rw [if_neg hw] at hc'
      have h1 : (s.cloneVariant src dst).opened w = s.opened w := by
        show (if w = dst then _ else _) = _; rw [if_neg hw]
      have h2 : (s.cloneVariant src dst).retained w = s.retained w := by
        show (if w = dst then _ else _) = _; rw [if_neg hw]
      rw [h1, h2]
      exact hf view w c hc'

theorem SafeReach.fresh {id : String} {s : VL} (h : SafeReach id s) : Fresh s := by
  induction h with
  | init => exact fresh_of_empty (fun _ _ => rfl)
  | step hp hs hr ih => exact fresh_run hp.reach.inv ih hs hr

/-- C20: after any history of safe calls, a bus query in a variant answers from the current topology: two nodes get the
    same bus exactly when they are linked in the current state of this variant and their class qualifies.  Missing for
    the full property: calls that are not `Safe` (see `stale_after_addSwitch`, `stale_after_removeSwitch`,
    `stale_after_addInternalConnection`). -/
theorem buses_current_partial {id : String} {s : VL} (h : SafeReach id s) (view : View) (w u v : Nat) :
    (∃ b, (s.getBus view w u).1 = .ok (some b) ∧ (s.getBus view w v).1 = .ok (some b)) ↔
      OnEdge s.graph u ∧ Qualifies s.graph view (Passing view (s.opened w) (s.retained w)) u ∧
      Conn s.graph (Passing view (s.opened w) (s.retained w)) u v := by
  have hi := h.reach.inv
  obtain ⟨c, h1, h2, _⟩ := getBus_fresh hi.g h.fresh view w u
  obtain ⟨c', h1', h2', _⟩ := getBus_fresh hi.g h.fresh view w v
  rw [h1] at h1'; cases h1'
  rw [h2, h2']
  exact same_bus_iff hi.g h1 u v

/-- C20: in such a history every query on a node of the voltage level answers. -/
theorem query_answers_partial {id : String} {s : VL} (h : SafeReach id s) (view : View) (w u : Nat)
    (hu : s.graph.vertexAt u ≠ none) : ∃ b, (s.getBus view w u).1 = .ok b := by
  have hi := h.reach.inv
  obtain ⟨c, h1, h2, _⟩ := getBus_fresh hi.g h.fresh view w u
  obtain ⟨c', k1, k2⟩ := compute_total s.id hi.g view (s.opened w) (s.retained w)
  rw [h1] at k1; cases k1
  rw [h2]; exact k2 u hu

/-- A history of safe calls with queries between the changes. -/
def vlSafe : VL :=
  let s := ((({ id := "VL" } : VL).attach (term 10 .busbarSection 0) false).2.attach (term 11 .load 1) false).2
  let s := (s.addSwitch true ⟨20, "B1", .breaker⟩ true false 0 1).2
  let s := (s.getBus .bus 0 0).2
  let s := s.cloneVariant 0 1
  let s := s.setOpen 1 20 false
  let s := (s.getBus .bus 1 1).2
  s

theorem vlSafe_reach : SafeReach "VL" vlSafe := by
  refine .step (a := .getBus .bus 1 1) (.step (a := .setOpen 1 20 false) (.step (a := .cloneVariant 0 1)
    (.step (a := .getBus .bus 0 0) (.step (a := .addSwitch true ⟨20, "B1", .breaker⟩ true false 0 1)
    (.step (a := .attach (term 11 .load 1) false) (.step (a := .attach (term 10 .busbarSection 0) false) .init
    trivial rfl) trivial rfl) ?_ rfl) trivial rfl) trivial rfl) trivial rfl) trivial rfl
  intro view w; rfl

example : (vlSafe.getBus .bus 1 1).1 = .ok (some "VL_0") ∧ (vlSafe.getBus .bus 0 1).1 = .ok none := by decide

/-- Finding (C20): `addSwitch` invalidates nothing.  After a query, closing the gap between a busbar section and a load
    with a closed switch leaves both without bus. -/
theorem stale_after_addSwitch :
    ∃ s, VReach "VL" s ∧ (s.getBus .bus 0 0).1 = .ok none ∧
      OnEdge s.graph 0 ∧ Qualifies s.graph .bus (Passing .bus (s.opened 0) (s.retained 0)) 0 := by
  refine ⟨((vl0.getBus .bus 0 0).2.addSwitch true ⟨20, "B1", .breaker⟩ false false 0 5).2,
    .step (.step vl0_reach (a := .getBus .bus 0 0) rfl) (a := .addSwitch true ⟨20, "B1", .breaker⟩ false false 0 5) rfl,
    by decide, ⟨0, ⟨0, 5, some ⟨20, "B1", .breaker⟩⟩, by decide, Or.inl rfl⟩, ?_⟩
  refine Or.inl ⟨0, 5, .refl, ?_, ⟨term 10 .busbarSection 0, by decide, rfl⟩, ⟨term 11 .load 5, by decide, by decide⟩⟩
  exact .step (e := 0) (ed := ⟨0, 5, some ⟨20, "B1", .breaker⟩⟩) .refl (by decide) ⟨by decide, by decide⟩ (Or.inl ⟨rfl, rfl⟩)

/-- A node beyond the cached vector makes the query fail with an out of range exception. -/
theorem query_fails_after_addSwitch :
    ∃ s, VReach "VL" s ∧ s.graph.vertexAt 6 ≠ none ∧ (s.getBus .bus 0 6).1 = .thrown := by
  refine ⟨((vl0.getBus .bus 0 0).2.addSwitch true ⟨20, "B1", .breaker⟩ false false 0 6).2,
    .step (.step vl0_reach (a := .getBus .bus 0 0) rfl) (a := .addSwitch true ⟨20, "B1", .breaker⟩ false false 0 6) rfl,
    by decide, by decide⟩

theorem conn_no_edge {g : Gr} {P : Option Sw → Prop} (h : ∀ e, g.edgeAt e = none) {u w : Nat} (hc : Conn g P u w) :
    u = w := by
  induction hc with
  | refl => rfl
  | step _ h2 _ _ _ => rw [h] at h2; cases h2

/-- Finding (C20): `removeSwitch` invalidates nothing.  Two nodes still share a bus after the removal of the only switch. -/
theorem stale_after_removeSwitch :
    ∃ s, VReach "VL" s ∧ (s.getBus .bus 0 0).1 = .ok (some "VL_0") ∧ (s.getBus .bus 0 5).1 = .ok (some "VL_0") ∧
      ¬ Conn s.graph (Passing .bus (s.opened 0) (s.retained 0)) 0 5 := by
  refine ⟨((((vl0.addSwitch true ⟨20, "B1", .breaker⟩ false false 0 5).2).getBus .bus 0 0).2.removeSwitch "B1").2,
    .step (.step (.step vl0_reach (a := .addSwitch true ⟨20, "B1", .breaker⟩ false false 0 5) rfl)
      (a := .getBus .bus 0 0) rfl) (a := .removeSwitch "B1") rfl, by decide, by decide, ?_⟩
  intro hc
  have := conn_no_edge (fun e => ?_) hc
  · cases this
  · have : ((((vl0.addSwitch true ⟨20, "B1", .breaker⟩ false false 0 5).2).getBus .bus 0 0).2.removeSwitch "B1").2.graph.edges
      = [] := by decide
    unfold G.edgeAt; rw [this]; rfl

/-- Finding (C20): `addInternalConnection` invalidates the caches of the working variant (0) only; variant 1 keeps its
    buses. -/
theorem stale_after_addInternalConnection :
    ∃ s, VReach "VL" s ∧ (s.getBus .bus 1 5).1 = .ok none ∧ (s.getBus .bus 0 5).1 = .ok (some "VL_0") ∧
      OnEdge s.graph 5 ∧ Qualifies s.graph .bus (Passing .bus (s.opened 1) (s.retained 1)) 5 := by
  refine ⟨((((vl0.cloneVariant 0 1)).getBus .bus 1 0).2.addInternalConnection 0 0 5).2,
    .step (.step (.step vl0_reach (a := .cloneVariant 0 1) rfl)
      (a := .getBus .bus 1 0) rfl) (a := .addInternalConnection 0 0 5) rfl, by decide, by decide,
    ⟨0, ⟨0, 5, none⟩, by decide, Or.inr rfl⟩, ?_⟩
  refine Or.inl ⟨0, 5, ?_, .refl, ⟨term 10 .busbarSection 0, by decide, rfl⟩, ⟨term 11 .load 5, by decide, by decide⟩⟩
  exact .step (e := 0) (ed := ⟨0, 5, none⟩) .refl (by decide) trivial (Or.inr ⟨rfl, rfl⟩)

end Verif.NodeBreaker
