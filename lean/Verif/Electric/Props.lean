import Verif.Electric.RunLemmas

/-! Property C91: the components of a network are those of the paths of the current. -/

namespace Verif.Electric

open Verif Verif.Graph
open Verif.NodeBreaker (EqType Passing Branchy Conn)
open Verif.CompBuses (Level LevelsOk EndsOk Filler Fills Tells viewBuses listAll)
open Verif.BusState (Bus)
open Verif.NetComponents (Snap Sorter AnyLink AcLink Joined Right fillAll fillAc)

/-- **C91** After any history of changes of topology and of queries, and for both kinds of components: the places of the network that are on a bus of the bus view are told to be in the same
component exactly when the current can go from one to the other, through closed switches, internal connections, and lines, transformers (and HVDC lines, for the connected components)
connected at both ends; also when the path goes through places that are on no bus of the bus view. -/
theorem components_are_paths (dc : Bool) {srt : Sorter} (hs : srt.Ok) {ops : List Op} (ho : ∀ op ∈ ops, OpOk op) :
    ∃ st bs, run (fillOf dc) srt ops init = .ok st ∧ listAll viewBuses st.core.levels = .ok bs ∧
      ∀ p q i j, OnView st.core.levels p i → OnView st.core.levels q j → ∃ b c n z n' z', (i, b) ∈ bs ∧ (j, c) ∈ bs ∧
        Tells (fillOf dc) srt st.core b (some (n, z)) ∧ Tells (fillOf dc) srt st.core c (some (n', z')) ∧ (n = n' ↔ Chain st.core.levels (ends dc st.equip) p q) := by
  obtain ⟨st, xs, hr, h1, h2, hl, he, hk⟩ := run_ok (fill := fillOf dc) (srt := srt) ops init ho ⟨[], rfl, fun _ h => absurd h List.not_mem_nil⟩
    ⟨fun _ h => absurd h List.not_mem_nil, .nil, .nil⟩ ⟨fun l h => absurd h List.not_mem_nil, .nil⟩ rfl
  obtain ⟨bs, comp, k1, k2, k3, _⟩ := CompBuses.component_told (fills_of dc) hs h2
  rw [← h1] at k1 k2 k3
  obtain ⟨s, e1, e2⟩ := links_ok hl he
  rw [hk] at e1
  cases Out.ok.inj e1
  refine ⟨st, bs, hr, k1, fun p q i j hp hq => ?_⟩
  obtain ⟨b, hb⟩ := onView_listed hl hp k1
  obtain ⟨c, hc⟩ := onView_listed hl hq k1
  have mem : ∀ {i b}, (i, b) ∈ bs → i ∈ (st.core.snap bs).buses := fun h => List.mem_map.2 ⟨_, h, rfl⟩
  obtain ⟨n, z, en⟩ := k2.total i (mem hb)
  obtain ⟨n', z', en'⟩ := k2.total j (mem hc)
  have tell : ∀ {i b}, (i, b) ∈ bs → Tells (fillOf dc) srt st.core b (comp i) := by
    intro i b h
    obtain ⟨v, hv, l, e, hm⟩ := (CompBuses.listAll_mem k1 _).1 h
    exact k3.view v hv l e i b hm
  have hR : ∀ a b, Rel dc (st.core.snap bs) a b ↔ Rel dc st.core.links a b := by
    exact fun a b => ⟨fun h => rel_mono (s := st.core.snap bs) (s' := st.core.links) rfl rfl rfl rfl h, fun h => rel_mono (s := st.core.links) (s' := st.core.snap bs) rfl rfl rfl rfl h⟩
  have hJ : ∀ a b, Joined (Rel dc (st.core.snap bs)) a b ↔ Joined (Rel dc st.core.links) a b := fun a b => by
    have : Rel dc (st.core.snap bs) = Rel dc st.core.links := funext fun a => funext fun b => propext (hR a b)
    rw [this]
  have hsame := k2.same i (mem hb) j (mem hc)
  rw [en, en', hJ] at hsame
  refine ⟨b, c, n, z, n', z', hb, hc, en ▸ tell hb, en' ▸ tell hc, ?_⟩
  rw [show n = n' ↔ some n = some n' from ⟨fun h => h ▸ rfl, fun h => Option.some.inj h⟩]
  refine Iff.trans hsame ⟨fun h => chain_of_joined hl (e2 dc).1 h hp hq, fun h => ?_⟩
  rcases joined_of_chain hl he (e2 dc).2 hp h with ⟨j', hj', hJ'⟩ | ⟨hn, _⟩
  · rw [onView_unique hl hq hj']
    exact hJ'
  · exact absurd ⟨j, hq⟩ hn

/-- **C91** The bus of the bus view that a terminal is on: one if and only if it is connected, and its place is linked to a busbar section and another equipment or to a branch and another
equipment (in a bus/breaker voltage level, to a branch). -/
theorem terminal_view {levels : List Level} (hl : LevelsOk levels) {a : End} (ha : EndOk levels a) :
    (∀ i, viewBus levels a = .ok (some i) ↔ a.Live ∧ OnView levels a.spot i) ∧ (∃ r, viewBus levels a = .ok r) ∧
    ∀ p, (∃ i, OnView levels p i) ↔ Energized levels p :=
  ⟨fun _ => viewBus_some hl ha, (viewBus_ok hl ha).imp fun _ h => h.1, fun _ => energized_iff hl⟩

/-- **C91** Within the voltage levels, two places are on the same bus of the bus view exactly when one is energized and switches link them. -/
theorem same_view_bus {levels : List Level} (hl : LevelsOk levels) {p q : Spot} :
    (∃ i, OnView levels p i ∧ OnView levels q i) ↔ Energized levels p ∧ Chain levels [] p q := by
  constructor
  · rintro ⟨i, h, h'⟩
    exact ⟨(energized_iff hl).1 ⟨i, h⟩, local_of_onView hl h h'⟩
  · rintro ⟨h, h'⟩
    obtain ⟨i, h⟩ := (energized_iff hl).2 h
    exact ⟨i, h, (Local.onView hl h').1 h⟩

/-! ### Example

P is node/breaker: a busbar section on node 0, a line on 1, a transformer leg on 2 and a converter station on 3, all linked to node 0.  Q is node/breaker: the second leg of the transformer is
on node 0, linked to node 1, where there is nothing: no bus.  W is bus/breaker (C23): A and B are linked, B and C are not, C and D are, E is alone.  The line goes from P to A, the third leg of
the transformer is on E, the other converter station on C. -/

def exP : NodeBreaker.Gr := Graph.run {} [.addVertexIfNotPresent 0, .addVertexIfNotPresent 1, .addVertexIfNotPresent 2, .addVertexIfNotPresent 3,
  .setVertexObject 0 (some ⟨100, .busbarSection, 0⟩), .setVertexObject 1 (some ⟨101, .line, 1⟩), .setVertexObject 2 (some ⟨102, .threeWindingsTransformer, 2⟩),
  .setVertexObject 3 (some ⟨103, .hvdcConverterStation, 3⟩), .addEdge 0 1 none, .addEdge 0 2 (some ⟨200, "B1", .breaker⟩), .addEdge 0 3 (some ⟨201, "B2", .breaker⟩)]

def exQ : NodeBreaker.Gr := Graph.run {} [.addVertexIfNotPresent 0, .addVertexIfNotPresent 1, .setVertexObject 0 (some ⟨104, .threeWindingsTransformer, 0⟩),
  .addEdge 0 1 (some ⟨202, "B3", .breaker⟩)]

def exTypes (h : Nat) : List EqType := if h = 10 then [.line] else if h = 12 then [.hvdcConverterStation] else if h = 14 then [.threeWindingsTransformer] else []

def exLevels : List Level :=
  [.node "P" exP (fun _ => false) (fun _ => false), .node "Q" exQ (fun _ => false) (fun _ => false), .conf "W" BusBreaker.sampleG BusBreaker.sampleOpen exTypes]

def exEquip : Equip := ⟨[(.node "P" 1, .bus "W" 10 true)], [], [(.node "P" 2, .node "Q" 0, .bus "W" 14 true)], [(.node "P" 3, .bus "W" 12 true)]⟩

def exOps : List Op := [.topology exLevels ⟨[], [], [], []⟩, .ask (.conf 12), .topology exLevels exEquip]

theorem distinct_of {g : NodeBreaker.Gr} {n : Nat} (len : g.vertices.length = n)
    (key : ∀ u < n, ∀ u' < n, ∀ t ∈ (g.vertexAt u).join, ∀ t' ∈ (g.vertexAt u').join, t.handle = t'.handle → u = u') : BusState.Distinct g := by
  intro u u' t t' h h' e
  refine key u ?_ u' ?_ t (by rw [h]; rfl) t' (by rw [h']; rfl) e
  · rw [← len]; exact vertexAt_lt (by rw [h]; simp)
  · rw [← len]; exact vertexAt_lt (by rw [h']; simp)

theorem exTypes_ok : BusBreaker.NoBusbar exTypes := by
  intro h; unfold exTypes; split
  · decide
  · split
    · decide
    · split <;> decide

theorem exLevels_ok : LevelsOk exLevels := by
  have hP : BusState.Distinct exP := distinct_of (n := 4) (by decide) (by decide)
  have hQ : BusState.Distinct exQ := distinct_of (n := 2) (by decide) (by decide)
  refine ⟨?_, by decide, ?_⟩
  · intro v hv
    simp only [exLevels, List.mem_cons, List.not_mem_nil, or_false] at hv
    rcases hv with rfl | rfl | rfl
    · exact ⟨⟨_, rfl⟩, hP⟩
    · exact ⟨⟨_, rfl⟩, hQ⟩
    · exact ⟨BusBreaker.sampleG_reached, BusBreaker.sampleG_furnished, exTypes_ok, BusBreaker.no_gap_of_first (by decide) BusBreaker.sampleG_reached⟩
  · have hPQ : ∀ h, ¬ (CompBuses.Level.Has (.node "P" exP (fun _ => false) (fun _ => false)) h ∧ CompBuses.Level.Has (.node "Q" exQ (fun _ => false) (fun _ => false)) h) := by
      intro h k
      cases h with
      | bus h => exact k.1
      | terminal h =>
        obtain ⟨⟨u, t, hu, e⟩, ⟨w, t', hw, e'⟩⟩ := k
        have key : ∀ u < 4, ∀ w < 2, ∀ t ∈ (exP.vertexAt u).join, ∀ t' ∈ (exQ.vertexAt w).join, t.handle ≠ t'.handle := by decide
        refine key u ?_ w ?_ t (by rw [hu]; rfl) t' (by rw [hw]; rfl) (e.trans e'.symm)
        · rw [← show exP.vertices.length = 4 by decide]; exact vertexAt_lt (by rw [hu]; simp)
        · rw [← show exQ.vertices.length = 2 by decide]; exact vertexAt_lt (by rw [hw]; simp)
    have hN : ∀ id g o r id' g' o' t h, ¬ (CompBuses.Level.Has (.node id g o r) h ∧ CompBuses.Level.Has (.conf id' g' o' t) h) := by
      intro _ _ _ _ _ _ _ _ h k
      cases h with
      | bus h => exact k.1
      | terminal h => exact k.2
    refine .cons ?_ (.cons ?_ (.cons (fun w hw => absurd hw List.not_mem_nil) .nil))
    · intro w hw
      rcases List.mem_cons.1 hw with rfl | hw
      · exact hPQ
      · cases List.mem_singleton.1 hw
        exact hN _ _ _ _ _ _ _ _
    · intro w hw
      cases List.mem_singleton.1 hw
      exact hN _ _ _ _ _ _ _ _

theorem exEquip_ok : EquipOk exLevels exEquip := by
  have m0 : exLevels[0] ∈ exLevels := by simp [exLevels]
  have m1 : exLevels[1] ∈ exLevels := by simp [exLevels]
  have m2 : exLevels[2] ∈ exLevels := by simp [exLevels]
  refine ⟨fun l hl a ha => ?_, by decide⟩
  have : a ∈ [End.node "P" 1, .bus "W" 10 true, .node "P" 2, .node "Q" 0, .bus "W" 14 true, .node "P" 3, .bus "W" 12 true] := by
    have h : a ∈ (ends true exEquip).flatten := List.mem_flatten.2 ⟨l, hl, ha⟩
    exact h
  simp only [List.mem_cons, List.not_mem_nil, or_false] at this
  rcases this with rfl | rfl | rfl | rfl | rfl | rfl | rfl
  · exact ⟨_, _, _, ⟨101, .line, 1⟩, m0, by decide, .inl rfl⟩
  · exact ⟨_, _, _, 0, ⟨10, "A"⟩, m2, (by unfold BusBreaker.BusAt; decide), rfl, fun _ => ⟨.line, by decide, .inl rfl⟩⟩
  · exact ⟨_, _, _, ⟨102, .threeWindingsTransformer, 2⟩, m0, by decide, .inr (.inr (.inl rfl))⟩
  · exact ⟨_, _, _, ⟨104, .threeWindingsTransformer, 0⟩, m1, by decide, .inr (.inr (.inl rfl))⟩
  · exact ⟨_, _, _, 4, ⟨14, "E"⟩, m2, (by unfold BusBreaker.BusAt; decide), rfl, fun _ => ⟨.threeWindingsTransformer, by decide, .inr (.inr (.inl rfl))⟩⟩
  · exact ⟨_, _, _, ⟨103, .hvdcConverterStation, 3⟩, m0, by decide, .inr (.inr (.inr (.inl rfl)))⟩
  · exact ⟨_, _, _, 2, ⟨12, "C"⟩, m2, (by unfold BusBreaker.BusAt; decide), rfl, fun _ => ⟨.hvdcConverterStation, by decide, .inr (.inr (.inr (.inl rfl)))⟩⟩

theorem exOps_ok : ∀ op ∈ exOps, OpOk op := by
  intro op h
  simp only [exOps, List.mem_cons, List.not_mem_nil, or_false] at h
  rcases h with rfl | rfl | rfl
  · exact ⟨exLevels_ok, fun l hl => absurd hl List.not_mem_nil, .nil⟩
  · trivial
  · exact ⟨exLevels_ok, exEquip_ok⟩

example : ∃ st bs, run (fillOf true) NetComponents.sorter exOps init = .ok st ∧ listAll viewBuses st.core.levels = .ok bs ∧
    ∀ p q i j, OnView st.core.levels p i → OnView st.core.levels q j → ∃ b c n z n' z', (i, b) ∈ bs ∧ (j, c) ∈ bs ∧
      Tells (fillOf true) NetComponents.sorter st.core b (some (n, z)) ∧ Tells (fillOf true) NetComponents.sorter st.core c (some (n', z')) ∧
      (n = n' ↔ Chain st.core.levels (ends true st.equip) p q) :=
  components_are_paths true NetComponents.sorter_ok exOps_ok

/-- The busbar section of P and the bus D: a path with the HVDC line, none without. -/
example : Chain exLevels (ends true exEquip) (.node "P" 0) (.bus "W" 13) := by
  have m0 : .node "P" exP (fun _ => false) (fun _ => false) ∈ exLevels := by simp [exLevels]
  have m2 : .conf "W" BusBreaker.sampleG BusBreaker.sampleOpen exTypes ∈ exLevels := by simp [exLevels]
  have s1 : Step exLevels (ends true exEquip) (.node "P" 0) (.node "P" 3) :=
    .switch (e := 2) (ed := ⟨0, 3, some ⟨201, "B2", .breaker⟩⟩) m0 (by decide) ⟨rfl, nofun⟩ (.inl ⟨rfl, rfl⟩)
  have s2 : Step exLevels (ends true exEquip) (.node "P" 3) (.bus "W" 12) :=
    .through (l := [.node "P" 3, .bus "W" 12 true]) (a := .node "P" 3) (b := .bus "W" 12 true) (by decide) (by decide) (by decide) trivial rfl
  have s3 : Step exLevels (ends true exEquip) (.bus "W" 12) (.bus "W" 13) :=
    .coupler (e := 2) (ed := ⟨2, 3, some ⟨22, "S3"⟩⟩) (u := 2) (w := 3) (b := ⟨12, "C"⟩) (c := ⟨13, "D"⟩) m2 (by decide) (show (22 == 21) = false from rfl) (.inl ⟨rfl, rfl⟩)
      (by unfold BusBreaker.BusAt; decide) (by unfold BusBreaker.BusAt; decide)
  exact .step (.step (.step .refl s1) s2) s3

/-- What is told: with the HVDC line, one component of 4 buses; without, C and D are apart. -/
example :
    ((run (fillOf true) NetComponents.sorter exOps init).bind fun st => (CompBuses.componentOf (fillOf true) NetComponents.sorter st.core (.conf 13)).map Prod.fst) = .ok (some ⟨2, 0, 4⟩) ∧
    ((run (fillOf false) NetComponents.sorter exOps init).bind fun st => (CompBuses.componentOf (fillOf false) NetComponents.sorter st.core (.conf 13)).map Prod.fst) = .ok (some ⟨2, 1, 1⟩) ∧
    ((run (fillOf false) NetComponents.sorter exOps init).bind fun st => (CompBuses.componentOf (fillOf false) NetComponents.sorter st.core (.conf 14)).map Prod.fst) = .ok (some ⟨2, 0, 3⟩) ∧
    ((run (fillOf false) NetComponents.sorter exOps init).bind fun st => (CompBuses.componentOf (fillOf false) NetComponents.sorter st.core (.conf 10)).map Prod.fst) = .ok (some ⟨2, 0, 3⟩) ∧
    viewBus exLevels (.node "Q" 0) = .ok none ∧ viewBus exLevels (.node "P" 2) = .ok (some "P_0") ∧ viewBus exLevels (.bus "W" 14 true) = .ok (some "W_2") := by decide +kernel

example : (∃ i, viewBus exLevels (.bus "W" 14 true) = .ok (some i)) ∧ Energized exLevels (.bus "W" 14) ∧ ¬ Energized exLevels (.node "Q" 0) := by
  have h1 : viewBus exLevels (.bus "W" 14 true) = .ok (some "W_2") := by decide +kernel
  have h2 : viewBus exLevels (.node "Q" 0) = .ok none := by decide +kernel
  have e1 : EndOk exLevels (.bus "W" 14 true) := exEquip_ok.each [.node "P" 2, .node "Q" 0, .bus "W" 14 true] (by decide) _ (by decide)
  have e2 : EndOk exLevels (.node "Q" 0) := exEquip_ok.each [.node "P" 2, .node "Q" 0, .bus "W" 14 true] (by decide) _ (by decide)
  have t1 := terminal_view exLevels_ok e1
  have t2 := terminal_view exLevels_ok e2
  refine ⟨⟨_, h1⟩, (t1.2.2 (.bus "W" 14)).1 ⟨_, ((t1.1 _).1 h1).2⟩, fun h => ?_⟩
  obtain ⟨i, hi⟩ := (t2.2.2 (.node "Q" 0)).2 h
  have := (t2.1 i).2 ⟨trivial, hi⟩
  rw [h2] at this
  cases this

end Verif.Electric
