import Verif.NodeBreaker.Lookup

/-! Vocabulary and helper lemmas for the lookups of a node/breaker voltage level. -/

namespace Verif.NodeBreaker

open Verif Verif.Graph

/-- The voltage level has the switch `sw`, of this id, between the two nodes. -/
def HasSwitch (s : VL) (id : String) (n1 n2 : Nat) (sw : Sw) : Prop :=
  sw.id = id ∧ ∃ e, s.graph.edgeAt e = some ⟨n1, n2, some sw⟩

/-- What `Network::checkAndAdd` guarantees of a new switch: its id is not empty and no switch of the voltage level has
    it (NetworkIndex.hxx l.32-50). -/
def Reg (s : VL) (a : Act) : Prop :=
  match a with
  | .addSwitch reg sw _ _ _ _ => reg = true → sw.id ≠ "" ∧ ¬ ∃ n1 n2 sw', HasSwitch s sw.id n1 n2 sw'
  | _ => True

/-- Histories in which the ids of the switches are checked by the network. -/
inductive IdReach (vl : String) : VL → Prop
  | init : IdReach vl { id := vl }
  | step {s s' : VL} {a : Act} : IdReach vl s → Reg s a → Run s a s' → IdReach vl s'

theorem IdReach.reach {vl : String} {s : VL} (h : IdReach vl s) : VReach vl s := by
  induction h with
  | init => exact .init
  | step _ _ hr ih => exact .step ih hr

/-! ### Lemmas -/

structure SwInv (s : VL) : Prop where
  sound : ∀ id e, s.switches.get? id = some e → ∃ n1 n2 sw, s.graph.edgeAt e = some ⟨n1, n2, some sw⟩ ∧ sw.id = id
  complete : ∀ e n1 n2 sw, s.graph.edgeAt e = some ⟨n1, n2, some sw⟩ → s.switches.get? sw.id = some e
  named : ∀ e n1 n2 sw, s.graph.edgeAt e = some ⟨n1, n2, some sw⟩ → sw.id ≠ ""

theorem swInv_congr {s s' : VL} (h : SwInv s) (he : s'.graph.edgeAt = s.graph.edgeAt) (hs : s'.switches = s.switches) :
    SwInv s' := ⟨by rw [he, hs]; exact h.sound, by rw [he, hs]; exact h.complete, by rw [he]; exact h.named⟩

theorem addVertex_edges {s : VL} (h : VInv s) (t : Term) (test : Bool) :
    (s.attach t test).2.graph.edgeAt = s.graph.edgeAt ∧ (s.attach t test).2.switches = s.switches := by
  cases test with
  | true => exact ⟨rfl, rfl⟩
  | false =>
    obtain ⟨r1, e1, _⟩ := addVertexIfNotPresent_eff h.g t.node
    unfold VL.attach
    rw [if_neg (by simp)]
    simp only []
    cases hv : (s.graph.addVertexIfNotPresent t.node).2.vertexAt t.node with
    | none => exact ⟨e1, rfl⟩
    | some o =>
      cases o with
      | some t' => exact ⟨e1, rfl⟩
      | none =>
        obtain ⟨g', q1, q2, q3, q4⟩ := setVertexObject_ok r1 (n := t.node) (by rw [hv]; simp) (some t)
        simp only [q1]
        exact ⟨q3.trans e1, rfl⟩

theorem detach_edges {s : VL} (h : VInv s) (dbg : Bool) (t : Term) :
    (s.detach dbg t).2.graph.edgeAt = s.graph.edgeAt ∧ (s.detach dbg t).2.switches = s.switches := by
  have key : (s.detach false t).2.graph.edgeAt = s.graph.edgeAt ∧ (s.detach false t).2.switches = s.switches := by
    by_cases hv : s.graph.vertexAt t.node = none
    · rw [detach_unknown hv]; exact ⟨rfl, rfl⟩
    · obtain ⟨g', e1, _, e3, _⟩ := detach_known h hv
      rw [e1]; exact ⟨e3, rfl⟩
  cases dbg with
  | false => exact key
  | true =>
    rcases detach_debug s t with e | ⟨e, _⟩
    · rw [e]; exact ⟨rfl, rfl⟩
    · rw [e]; exact key

/-- The calls that leave the switches alone. -/
theorem run_other {s s' : VL} {a : Act} (h : VInv s) (hr : Run s a s')
    (h1 : ∀ reg sw o r n1 n2, a ≠ .addSwitch reg sw o r n1 n2) (h2 : ∀ id, a ≠ .removeSwitch id)
    (h3 : ∀ w n1 n2, a ≠ .addInternalConnection w n1 n2) (h4 : ∀ w n1 n2, a ≠ .removeInternalConnections w n1 n2) :
    s'.graph.edgeAt = s.graph.edgeAt ∧ s'.switches = s.switches := by
  cases a with
  | addInternalConnection w n1 n2 => exact absurd rfl (h3 w n1 n2)
  | addSwitch reg sw o r n1 n2 => exact absurd rfl (h1 reg sw o r n1 n2)
  | removeSwitch id => exact absurd rfl (h2 id)
  | removeInternalConnections w n1 n2 => exact absurd rfl (h4 w n1 n2)
  | attach t test =>
    have hr' : s' = (s.attach t test).2 := hr
    rw [hr']; exact addVertex_edges h t test
  | detach dbg t =>
    have hr' : s' = (s.detach dbg t).2 := hr
    rw [hr']; exact detach_edges h dbg t
  | setOpen w sw b =>
    have hr' : s' = s.setOpen w sw b := hr
    have := setOpen_sameGraph s w sw b
    rw [hr', this.graph, this.switches]; exact ⟨rfl, rfl⟩
  | setRetained w sw b =>
    have hr' : s' = s.setRetained w sw b := hr
    rw [hr']
    unfold VL.setRetained
    split <;> exact ⟨rfl, rfl⟩
  | getBus view w node =>
    have hr' : s' = (s.getBus view w node).2 := hr
    obtain ⟨k, _⟩ := update_same s h.g view w
    rw [hr', getBus_snd]
    exact ⟨edgeAt_congr k.edges, k.switches⟩
  | connect w t =>
    obtain ⟨r, hr'⟩ := hr
    obtain ⟨k, _⟩ := update_same s h.g .bus w
    have q := connect_sameGraph hr'
    exact ⟨by rw [q.graph]; exact edgeAt_congr k.edges, q.switches.trans k.switches⟩
  | disconnect w t =>
    obtain ⟨r, hr'⟩ := hr
    obtain ⟨k, _⟩ := update_same s h.g .bus w
    have q := disconnect_sameGraph hr'
    exact ⟨by rw [q.graph]; exact edgeAt_congr k.edges, q.switches.trans k.switches⟩
  | cloneVariant src dst =>
    have hr' : s' = s.cloneVariant src dst := hr
    rw [hr']; exact ⟨rfl, rfl⟩

theorem addConn_edges {s : VL} (h : VInv s) (w n1 n2 : Nat) :
    ∃ e, s.graph.edgeAt e = none ∧
      (∀ i, (s.addInternalConnection w n1 n2).2.graph.edgeAt i = if i = e then some ⟨n1, n2, none⟩ else s.graph.edgeAt i) ∧
      (s.addInternalConnection w n1 n2).2.switches = s.switches := by
  obtain ⟨e, g', r1, r2, r3, r4, r5⟩ := link_ok h.g n1 n2 none
  refine ⟨e, r3, ?_, ?_⟩
  · unfold VL.addInternalConnection; rw [r1]; exact r4
  · unfold VL.addInternalConnection; rw [r1]; rfl

theorem addSwitch_edges {s : VL} (h : VInv s) (sw : Sw) (o r : Bool) (n1 n2 : Nat) :
    ∃ e, s.graph.edgeAt e = none ∧
      (∀ i, (s.addSwitch true sw o r n1 n2).2.graph.edgeAt i = if i = e then some ⟨n1, n2, some sw⟩ else s.graph.edgeAt i) ∧
      (s.addSwitch true sw o r n1 n2).2.switches = AMap.emplace s.switches sw.id e := by
  obtain ⟨e, g', r1, r2, r3, r4, r5⟩ := link_ok h.g n1 n2 (some sw)
  refine ⟨e, r3, ?_, ?_⟩
  · unfold VL.addSwitch; rw [if_neg (by simp), r1]; exact r4
  · unfold VL.addSwitch; rw [if_neg (by simp), r1]

/-- Exact effect of a call on the switches. -/
def After (s : VL) (a : Act) (id : String) (n1 n2 : Nat) (sw : Sw) : Prop :=
  match a with
  | .addSwitch true sw' _ _ m1 m2 => (id = sw'.id ∧ n1 = m1 ∧ n2 = m2 ∧ sw = sw') ∨ HasSwitch s id n1 n2 sw
  | .removeSwitch id' => id ≠ id' ∧ HasSwitch s id n1 n2 sw
  | _ => HasSwitch s id n1 n2 sw

theorem step_sw {s s' : VL} {a : Act} (h : VInv s) (hi : SwInv s) (hreg : Reg s a) (hr : Run s a s') :
    SwInv s' ∧ ∀ id n1 n2 sw, HasSwitch s' id n1 n2 sw ↔ After s a id n1 n2 sw := by
  have same : ∀ (s' : VL), s'.graph.edgeAt = s.graph.edgeAt ∧ s'.switches = s.switches →
      SwInv s' ∧ ∀ id n1 n2 sw, HasSwitch s' id n1 n2 sw ↔ HasSwitch s id n1 n2 sw := by
    intro s' hh
    refine ⟨swInv_congr hi hh.1 hh.2, fun id n1 n2 sw => ?_⟩
    unfold HasSwitch; rw [hh.1]
  cases a with
  | addInternalConnection w m1 m2 =>
    have hr' : s' = (s.addInternalConnection w m1 m2).2 := hr
    obtain ⟨e, k1, k2, k3⟩ := addConn_edges h w m1 m2
    rw [← hr'] at k2 k3
    have hh : ∀ i n1 n2 sw, s'.graph.edgeAt i = some ⟨n1, n2, some sw⟩ ↔ s.graph.edgeAt i = some ⟨n1, n2, some sw⟩ := by
      intro i n1 n2 sw
      rw [k2]
      by_cases hie : i = e
      · rw [if_pos hie, hie, k1]; simp
      · rw [if_neg hie]
    refine ⟨⟨?_, ?_, ?_⟩, ?_⟩
    · intro id i hid
      rw [k3] at hid
      obtain ⟨n1, n2, sw, q1, q2⟩ := hi.sound id i hid
      exact ⟨n1, n2, sw, (hh _ _ _ _).mpr q1, q2⟩
    · intro i n1 n2 sw q; rw [k3]; exact hi.complete i n1 n2 sw ((hh _ _ _ _).mp q)
    · intro i n1 n2 sw q; exact hi.named i n1 n2 sw ((hh _ _ _ _).mp q)
    · intro id n1 n2 sw
      show HasSwitch s' id n1 n2 sw ↔ HasSwitch s id n1 n2 sw
      unfold HasSwitch; simp only [hh]
  | removeInternalConnections w m1 m2 =>
    have hr' : s' = (s.removeInternalConnections w m1 m2).2 := hr
    rcases removeInternalConnections_eff h w m1 m2 with e | ⟨g', e1, e2, e3, _⟩
    · rw [e] at hr'; rw [hr']; exact same s ⟨rfl, rfl⟩
    · rw [e1] at hr'
      have k2 : ∀ i, s'.graph.edgeAt i = if (∃ ed, s.graph.edgeAt i = some ed ∧ isConnection m1 m2 ed = true) then none
        else s.graph.edgeAt i := by rw [hr']; exact e3
      have k3 : s'.switches = s.switches := by rw [hr']; rfl
      have hh : ∀ i n1 n2 sw, s'.graph.edgeAt i = some ⟨n1, n2, some sw⟩ ↔ s.graph.edgeAt i = some ⟨n1, n2, some sw⟩ := by
        intro i n1 n2 sw
        rw [k2]
        by_cases hie : ∃ ed, s.graph.edgeAt i = some ed ∧ isConnection m1 m2 ed = true
        · rw [if_pos hie]
          obtain ⟨ed, q1, q2⟩ := hie
          refine ⟨nofun, fun q => ?_⟩
          rw [q1] at q; cases q
          simp [isConnection] at q2
        · rw [if_neg hie]
      refine ⟨⟨?_, ?_, ?_⟩, ?_⟩
      · intro id i hid
        rw [k3] at hid
        obtain ⟨n1, n2, sw, q1, q2⟩ := hi.sound id i hid
        exact ⟨n1, n2, sw, (hh _ _ _ _).mpr q1, q2⟩
      · intro i n1 n2 sw q; rw [k3]; exact hi.complete i n1 n2 sw ((hh _ _ _ _).mp q)
      · intro i n1 n2 sw q; exact hi.named i n1 n2 sw ((hh _ _ _ _).mp q)
      · intro id n1 n2 sw
        show HasSwitch s' id n1 n2 sw ↔ HasSwitch s id n1 n2 sw
        unfold HasSwitch; simp only [hh]
  | addSwitch reg sw0 o r m1 m2 =>
    have hr' : s' = (s.addSwitch reg sw0 o r m1 m2).2 := hr
    cases reg with
    | false =>
      have : (s.addSwitch false sw0 o r m1 m2).2 = s := rfl
      rw [this] at hr'; rw [hr']; exact same s ⟨rfl, rfl⟩
    | true =>
      obtain ⟨hne, hfresh⟩ := hreg rfl
      obtain ⟨e, k1, k2, k3⟩ := addSwitch_edges h sw0 o r m1 m2
      rw [← hr'] at k2 k3
      have hnone : s.switches.get? sw0.id = none := by
        cases hg : s.switches.get? sw0.id with
        | none => rfl
        | some i =>
          obtain ⟨n1, n2, sw, q1, q2⟩ := hi.sound _ i hg
          exact absurd ⟨n1, n2, sw, q2, i, q1⟩ hfresh
      refine ⟨⟨?_, ?_, ?_⟩, ?_⟩
      · intro id i hid
        rw [k3, AMap.get?_emplace] at hid
        by_cases hie : id = sw0.id
        · subst hie
          simp [hnone] at hid
          subst hid
          exact ⟨m1, m2, sw0, by rw [k2, if_pos rfl], rfl⟩
        · rw [if_neg (fun hh => hie hh.symm)] at hid
          obtain ⟨n1, n2, sw, q1, q2⟩ := hi.sound id i hid
          refine ⟨n1, n2, sw, ?_, q2⟩
          rw [k2, if_neg (by rintro rfl; rw [k1] at q1; cases q1)]
          exact q1
      · intro i n1 n2 sw q
        rw [k2] at q
        rw [k3, AMap.get?_emplace]
        by_cases hie : i = e
        · rw [if_pos hie] at q; cases q
          simp [hnone, hie]
        · rw [if_neg hie] at q
          have hid : sw.id ≠ sw0.id := fun hh => hfresh ⟨n1, n2, sw, hh, i, q⟩
          rw [if_neg (fun hh => hid hh.symm)]
          exact hi.complete i n1 n2 sw q
      · intro i n1 n2 sw q
        rw [k2] at q
        by_cases hie : i = e
        · rw [if_pos hie] at q; cases q; exact hne
        · rw [if_neg hie] at q; exact hi.named i n1 n2 sw q
      · intro id n1 n2 sw
        show HasSwitch s' id n1 n2 sw ↔ (id = sw0.id ∧ n1 = m1 ∧ n2 = m2 ∧ sw = sw0) ∨ HasSwitch s id n1 n2 sw
        unfold HasSwitch
        constructor
        · rintro ⟨q1, i, q2⟩
          rw [k2] at q2
          by_cases hie : i = e
          · rw [if_pos hie] at q2; cases q2
            exact Or.inl ⟨q1.symm, rfl, rfl, rfl⟩
          · rw [if_neg hie] at q2; exact Or.inr ⟨q1, i, q2⟩
        · rintro (⟨q1, q2, q3, q4⟩ | ⟨q1, i, q2⟩)
          · subst q2 q3 q4; exact ⟨q1.symm, e, by rw [k2, if_pos rfl]⟩
          · refine ⟨q1, i, ?_⟩
            rw [k2, if_neg (by rintro rfl; rw [k1] at q2; cases q2)]
            exact q2
  | removeSwitch id0 =>
    have hr' : s' = (s.removeSwitch id0).2 := hr
    rcases removeSwitch_eff h id0 with e | ⟨g', e, e0, e00, e1, e2, e3, _⟩
    · have hthrown : ¬ ∃ n1 n2 sw, HasSwitch s id0 n1 n2 sw := by
        rintro ⟨n1, n2, sw, q1, i, q2⟩
        have hg := hi.complete i n1 n2 sw q2
        rw [q1] at hg
        have hne : s.graph.edgeAt i ≠ none := by rw [q2]; simp
        obtain ⟨o, g1, p1, p2, _⟩ := removeEdge_ok h.g hne
        obtain ⟨g2, p3, _⟩ := clean_ok p2
        have : s.removeSwitch id0 = (.ok (), { s with graph := g2, switches := AMap.erase s.switches id0 }) := by
          unfold VL.removeSwitch; rw [hg]; simp only []; rw [p1]; simp only []; rw [p3]
        rw [this] at e
        cases e
      rw [e] at hr'
      rw [hr']
      refine ⟨hi, fun id n1 n2 sw => ?_⟩
      show HasSwitch s id n1 n2 sw ↔ id ≠ id0 ∧ HasSwitch s id n1 n2 sw
      refine ⟨fun q => ⟨?_, q⟩, fun q => q.2⟩
      rintro rfl; exact hthrown ⟨n1, n2, sw, q⟩
    · rw [e1] at hr'
      have k2 : ∀ i, s'.graph.edgeAt i = if i = e then none else s.graph.edgeAt i := by rw [hr']; exact e3
      have k3 : s'.switches = AMap.erase s.switches id0 := by rw [hr']
      obtain ⟨m1, m2, sw0, p1, p2⟩ := hi.sound id0 e e0
      have hid : ∀ i n1 n2 sw, s.graph.edgeAt i = some ⟨n1, n2, some sw⟩ → (i = e ↔ sw.id = id0) := by
        intro i n1 n2 sw q
        constructor
        · rintro rfl; rw [p1] at q; cases q; exact p2
        · intro hh
          have := hi.complete i n1 n2 sw q
          rw [hh, e0] at this; exact (Option.some.inj this).symm
      refine ⟨⟨?_, ?_, ?_⟩, ?_⟩
      · intro id i hg
        rw [k3, AMap.get?_erase] at hg
        by_cases hh : id = id0
        · simp [hh] at hg
        · rw [if_neg (fun hx => hh hx.symm)] at hg
          obtain ⟨n1, n2, sw, q1, q2⟩ := hi.sound id i hg
          refine ⟨n1, n2, sw, ?_, q2⟩
          rw [k2, if_neg]
          · exact q1
          · intro hie
            exact hh (q2.symm.trans ((hid i n1 n2 sw q1).mp hie))
      · intro i n1 n2 sw q
        rw [k2] at q
        by_cases hie : i = e
        · rw [if_pos hie] at q; cases q
        · rw [if_neg hie] at q
          rw [k3, AMap.get?_erase]
          have : sw.id ≠ id0 := fun hh => hie ((hid i n1 n2 sw q).mpr hh)
          rw [if_neg (fun hx => this hx.symm)]
          exact hi.complete i n1 n2 sw q
      · intro i n1 n2 sw q
        rw [k2] at q
        by_cases hie : i = e
        · rw [if_pos hie] at q; cases q
        · rw [if_neg hie] at q; exact hi.named i n1 n2 sw q
      · intro id n1 n2 sw
        show HasSwitch s' id n1 n2 sw ↔ id ≠ id0 ∧ HasSwitch s id n1 n2 sw
        unfold HasSwitch
        constructor
        · rintro ⟨q1, i, q2⟩
          rw [k2] at q2
          by_cases hie : i = e
          · rw [if_pos hie] at q2; cases q2
          · rw [if_neg hie] at q2
            exact ⟨fun hh => hie ((hid i n1 n2 sw q2).mpr (q1.trans hh)), q1, i, q2⟩
        · rintro ⟨q0, q1, i, q2⟩
          refine ⟨q1, i, ?_⟩
          rw [k2, if_neg]
          · exact q2
          · intro hie; exact q0 (q1.symm.trans ((hid i n1 n2 sw q2).mp hie))
  | attach t test => exact same s' (run_other h hr nofun nofun nofun nofun)
  | detach dbg t => exact same s' (run_other h hr nofun nofun nofun nofun)
  | setOpen w sw b => exact same s' (run_other h hr nofun nofun nofun nofun)
  | setRetained w sw b => exact same s' (run_other h hr nofun nofun nofun nofun)
  | getBus view w node => exact same s' (run_other h hr nofun nofun nofun nofun)
  | connect w t => exact same s' (run_other h hr nofun nofun nofun nofun)
  | disconnect w t => exact same s' (run_other h hr nofun nofun nofun nofun)
  | cloneVariant src dst => exact same s' (run_other h hr nofun nofun nofun nofun)

theorem IdReach.sw {vl : String} {s : VL} (h : IdReach vl s) : SwInv s := by
  induction h with
  | init => exact ⟨nofun, nofun, nofun⟩
  | step hp hreg hr ih => exact (step_sw hp.reach.inv ih hreg hr).1

end Verif.NodeBreaker
