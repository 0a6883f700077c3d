import Verif.Build.AddedProps

/-!
C98: the adders of buses, switches, voltage levels, substations and branches.
-/

namespace Verif.Build

open Verif Verif.Xml Verif.XmlNet Verif.Setters Verif.ReadBack

variable {T : Type} {l : List Item}

/-! ### Topologies -/

/-- **C98** A bus is added in a bus/breaker voltage level exactly when its name is free, without voltage nor angle. -/
theorem bus_added_iff (hs : Countable l) {v w : VL} {b : Base} : (VLAdd.bus b).add l v = .ok w ↔
    ∃ n buses sws, NewName l b n ∧ v.topo = .bus buses sws ∧ w = { v with topo := .bus (buses ++ [⟨⟨⟨n, b.name, b.fictitious⟩, [], []⟩, .nan, .nan⟩]) sws } := by
  simp only [VLAdd.add, map_ok_iff]
  cases ht : v.topo with
  | node bbs sws conns calcs => simp [addBus]
  | bus buses sws =>
    simp only [addBus]
    cases hn : newId l b with
    | none =>
      have := (newName_iff hs).1 hn
      simp only [reduceCtorEq, false_and, exists_false, false_iff]
      rintro ⟨n, _, _, h, _⟩; exact this ⟨n, h⟩
    | some n =>
      simp only [Out.ok.injEq]
      constructor
      · rintro ⟨t, rfl, rfl⟩; exact ⟨n, buses, sws, (newId_iff hs).1 hn, rfl, rfl⟩
      · rintro ⟨m, bs, ss, h, h2, rfl⟩
        cases h2
        rw [(newId_iff hs).2 h] at hn
        cases hn
        exact ⟨_, rfl, rfl⟩

/-- **C98** A switch of a bus/breaker voltage level is added exactly when its name is free and its buses are in the voltage level. -/
theorem busSwitch_added_iff (hs : Countable l) {v w : VL} {b : Base} {b1 b2 : String} {op : Bool} : (VLAdd.busSwitch b b1 b2 op).add l v = .ok w ↔
    ∃ n buses sws, NewName l b n ∧ v.topo = .bus buses sws ∧ b1 ≠ "" ∧ b2 ≠ "" ∧ (∃ y ∈ l, y.id = b1 ∧ y.obj = .bus v.ident.head.id) ∧ (∃ y ∈ l, y.id = b2 ∧ y.obj = .bus v.ident.head.id) ∧
      w = { v with topo := .bus buses (sws ++ [⟨⟨⟨n, b.name, b.fictitious⟩, [], []⟩, op, b1, b2⟩]) } := by
  simp only [VLAdd.add, map_ok_iff]
  cases ht : v.topo with
  | node bbs sws conns calcs => simp [addBusSwitch]
  | bus buses sws =>
    simp only [addBusSwitch]
    cases hn : newId l b with
    | none =>
      have := (newName_iff hs).1 hn
      simp only [reduceCtorEq, false_and, exists_false, false_iff]
      rintro ⟨n, _, _, h, _⟩; exact this ⟨n, h⟩
    | some n =>
      simp only [grd_ok, Bool.or_eq_false_iff, beq_eq_false_iff_ne, Bool.not_eq_false', suits_of, true_and, and_assoc]
      constructor
      · rintro ⟨t, h1, h2, h3, h4, rfl, rfl⟩; exact ⟨n, buses, sws, (newId_iff hs).1 hn, rfl, h1, h2, h3, h4, rfl⟩
      · rintro ⟨m, bs, ss, h, h2, h3, h4, h5, h6, rfl⟩
        cases h2
        rw [(newId_iff hs).2 h] at hn
        cases hn
        exact ⟨_, h3, h4, h5, h6, rfl, rfl⟩

/-- **C98** A busbar section is added in a node/breaker voltage level exactly when its name and its node are free. -/
theorem busbar_added_iff (hs : Countable l) {v w : VL} {b : Base} {node : Option Nat} : (VLAdd.busbar b node).add l v = .ok w ↔
    ∃ n k bbs sws conns calcs, NewName l b n ∧ node = some k ∧ v.topo = .node bbs sws conns calcs ∧ (∀ x ∈ l, ∀ e ∈ x.ends, e.vl = v.ident.head.id → e.place ≠ .node k) ∧
      w = { v with topo := .node (bbs ++ [⟨⟨⟨n, b.name, b.fictitious⟩, [], []⟩, k⟩]) sws conns calcs } := by
  simp only [VLAdd.add, map_ok_iff]
  cases ht : v.topo with
  | bus buses sws => simp [addBusbar]
  | node bbs sws conns calcs =>
    cases node with
    | none => simp [addBusbar, given, Out.bind]
    | some k =>
      simp only [addBusbar, given, Out.bind_ok]
      have hv : vacant (l.flatMap Item.ends) v.ident.head.id (.node k) = true ↔ ∀ x ∈ l, ∀ e ∈ x.ends, e.vl = v.ident.head.id → e.place ≠ .node k := by
        rw [vacant_iff]
        constructor
        · intro h x hx e he; exact h k rfl e (List.mem_flatMap.2 ⟨x, hx, he⟩)
        · rintro h m hm e he; cases hm; obtain ⟨x, hx, he⟩ := List.mem_flatMap.1 he; exact h x hx e he
      cases hn : newId l b with
      | none =>
        have := (newName_iff hs).1 hn
        simp only [reduceCtorEq, false_and, exists_false, false_iff]
        rintro ⟨n, _, _, _, _, _, h, _⟩; exact this ⟨n, h⟩
      | some n =>
        dsimp only
        constructor
        · rintro ⟨t, h, rfl⟩
          split at h
          · rename_i hf; cases h; exact ⟨n, k, bbs, sws, conns, calcs, (newId_iff hs).1 hn, rfl, rfl, hv.1 hf, rfl⟩
          · cases h
        · rintro ⟨m, j, _, _, _, _, h, hj, h2, h3, rfl⟩
          cases hj; cases h2
          rw [(newId_iff hs).2 h] at hn
          cases hn
          exact ⟨_, by rw [if_pos (hv.2 h3)]; rfl, rfl⟩

/-- **C98** A switch of a node/breaker voltage level is added exactly when its name is free and its nodes and its kind are given. -/
theorem nodeSwitch_added_iff (hs : Countable l) {v w : VL} {b : Base} {i j k : Option Nat} {op r : Bool} : (VLAdd.nodeSwitch b i j k op r).add l v = .ok w ↔
    ∃ n i' j' k' bbs sws conns calcs, NewName l b n ∧ i = some i' ∧ j = some j' ∧ k = some k' ∧ v.topo = .node bbs sws conns calcs ∧
      w = { v with topo := .node bbs (sws ++ [⟨⟨⟨n, b.name, b.fictitious⟩, [], []⟩, k', r, op, i', j'⟩]) conns calcs } := by
  simp only [VLAdd.add, map_ok_iff]
  cases ht : v.topo with
  | bus buses sws => simp [addNodeSwitch]
  | node bbs sws conns calcs =>
    simp only [addNodeSwitch, Out.bind_eq_ok, given_ok]
    cases hn : newId l b with
    | none =>
      have := (newName_iff hs).1 hn
      simp only [reduceCtorEq, and_false, exists_false, false_and, false_iff]
      rintro ⟨n, _, _, _, _, _, _, _, h, _⟩; exact this ⟨n, h⟩
    | some n =>
      simp only [Out.ok.injEq]
      constructor
      · rintro ⟨t, ⟨i', h1, j', h2, k', h3, rfl⟩, rfl⟩; exact ⟨n, i', j', k', bbs, sws, conns, calcs, (newId_iff hs).1 hn, h1, h2, h3, rfl, rfl⟩
      · rintro ⟨m, i', j', k', _, _, _, _, h, h1, h2, h3, h4, rfl⟩
        cases h4
        rw [(newId_iff hs).2 h] at hn
        cases hn
        exact ⟨_, ⟨i', h1, j', h2, k', h3, rfl⟩, rfl⟩

/-- **C98** Internal connections need both their nodes. -/
theorem connection_added_iff {v w : VL} {i j : Option Nat} : (VLAdd.connection i j).add l v = .ok w ↔
    ∃ i' j' bbs sws conns calcs, i = some i' ∧ j = some j' ∧ v.topo = .node bbs sws conns calcs ∧ w = { v with topo := .node bbs sws (conns ++ [(i', j')]) calcs } := by
  simp only [VLAdd.add, map_ok_iff]
  cases ht : v.topo with
  | bus buses sws => simp [addConnection]
  | node bbs sws conns calcs =>
    simp only [addConnection, Out.bind_eq_ok, given_ok, Out.ok.injEq]
    constructor
    · rintro ⟨t, ⟨i', h1, j', h2, rfl⟩, rfl⟩; exact ⟨i', j', bbs, sws, conns, calcs, h1, h2, rfl, rfl⟩
    · rintro ⟨i', j', _, _, _, _, h1, h2, h3, rfl⟩; cases h3; exact ⟨_, ⟨i', h1, j', h2, rfl⟩, rfl⟩

/-! ### Voltage levels and transformers -/

/-- The kinds of topology. -/
inductive NewTopo : Nat → Topo → Prop
  | node : NewTopo 0 (.node [] [] [] [])
  | bus : NewTopo 1 (.bus [] [])

theorem emptyTopo_iff {k : Nat} {t : Topo} : emptyTopo k = .ok t ↔ NewTopo k t := by
  constructor
  · intro h
    unfold emptyTopo at h
    split at h
    · cases h; exact .node
    · cases h; exact .bus
    · cases h
  · rintro ⟨⟩ <;> rfl

theorem noEquip_valid : EquipValid noEquip := by constructor <;> intro x hx <;> cases hx

theorem newTopo_valid {k : Nat} {t : Topo} (h : NewTopo k t) : TopoValid t := by cases h <;> exact ⟨nofun, nofun⟩

/-- **C98** A voltage level is added exactly when its name is free, its topology is one of the two that are known, and it is valid. -/
theorem level_added_iff (hs : Countable l) {s z : Substation} {b : Base} {nom low high : Dbl} {kind : Option Nat} : (SubAdd.level b nom low high kind).add l s = .ok z ↔
    ∃ n k t, NewName l b n ∧ kind = some k ∧ NewTopo k t ∧ VLValid ⟨⟨⟨n, b.name, b.fictitious⟩, [], []⟩, nom, low, high, t, noEquip⟩ ∧
      z = { s with vls := s.vls ++ [⟨⟨⟨n, b.name, b.fictitious⟩, [], []⟩, nom, low, high, t, noEquip⟩] } := by
  simp only [SubAdd.add, Out.bind_eq_ok, given_ok, map_ok_iff, grd_unit, emptyTopo_iff, newId_iff hs, exists_const, Bool.or_eq_false_iff]
  constructor
  · rintro ⟨k, h1, ⟨⟨h2, h3⟩, h4⟩, t, h5, n, h6, rfl⟩
    obtain ⟨e1, e2, e3⟩ := voltages_valid h4
    exact ⟨n, k, t, h6, h1, h5, ⟨ident_new b n, nominal_valid (by simp [h2, h3]), e1, e2, e3, newTopo_valid h5, noEquip_valid⟩, rfl⟩
  · rintro ⟨n, k, t, h6, h1, h5, hv, rfl⟩
    have hn := good_nominal hv.nominal
    simp only [Bool.or_eq_false_iff] at hn
    exact ⟨k, h1, ⟨hn, good_voltages hv.low hv.high hv.range⟩, t, h5, n, h6, rfl⟩

theorem side_valid_of {only : Option String} {e : String × Adders.Args} {s : Side} (h : SideOf l only e s) : PlaceValid s.term.place := by
  obtain ⟨_, v, _, _, sub, node, p, _, _, hw, _, rfl⟩ := h
  exact wanted_valid hw

theorem placed_valid {b : Base} {ss : List Side} {i : Ident} (h : Placed l b ss i) : IdentValid i := by
  obtain ⟨n, _, _, rfl⟩ := h
  exact ident_new b n

/-- **C98** A two windings transformer is added exactly when its name is free, its sides are at free places of voltage levels of the substation, and it is valid. -/
theorem tw2_added_iff (hn : (l.flatMap Item.names).Nodup) (hs : Countable l) {s z : Substation} {b : Base} {e1 e2 : String × Adders.Args} {x : Tw2} :
    (SubAdd.tw2 b e1 e2 x).add l s = .ok z ↔ ∃ s1 s2 i, SideOf l (some s.ident.head.id) e1 s1 ∧ SideOf l (some s.ident.head.id) e2 s2 ∧ Placed l b [s1, s2] i ∧
      Tw2Valid { x with ident := i, side1 := s1, side2 := s2, rtc := none, ptc := none, lims := ⟨noLims, noLims⟩ } ∧
      z = { s with tw2s := s.tw2s ++ [{ x with ident := i, side1 := s1, side2 := s2, rtc := none, ptc := none, lims := ⟨noLims, noLims⟩ }] } := by
  simp only [SubAdd.add, Out.bind_eq_ok, given_ok, map_ok_iff, grd_unit, resolve_iff hn, placed_iff hs, exists_const, Bool.or_eq_false_iff, and_assoc]
  constructor
  · rintro ⟨s1, h1, s2, h2, v1, v2, v3, v4, v5, v6, v7, i, h3, rfl⟩
    exact ⟨s1, s2, i, h1, h2, h3, ⟨placed_valid h3, ⟨side_valid_of h1, side_valid_of h2⟩, ⟨v1, v2, v3, v4, v5, v6⟩, rated_valid v7, nofun, nofun, by simp [flags], noLims_valid, noLims_valid⟩, rfl⟩
  · rintro ⟨s1, s2, i, h1, h2, h3, hv, rfl⟩
    obtain ⟨v1, v2, v3, v4, v5, v6⟩ := hv.values
    exact ⟨s1, h1, s2, h2, v1, v2, v3, v4, v5, v6, good_rated hv.ratedS, i, h3, rfl⟩

theorem leg_checks {z : LegZ} : badLeg z = false ↔ (IsSet z.r ∧ IsSet z.x ∧ IsSet z.g ∧ IsSet z.b ∧ IsSet z.ratedU) ∧ RatedValid z.ratedS := by
  simp only [badLeg, Bool.or_eq_false_iff, and_assoc]
  exact ⟨fun ⟨a, b, c, d, e, f⟩ => ⟨a, b, c, d, e, rated_valid f⟩, fun ⟨a, b, c, d, e, f⟩ => ⟨a, b, c, d, e, good_rated f⟩⟩

theorem newLeg_valid {only : Option String} {e : String × Adders.Args} {z : LegZ} {s : Side} (h : SideOf l only e s) (hz : badLeg z = false) : LegValid (newLeg z s) :=
  ⟨side_valid_of h, (leg_checks.1 hz).1, (leg_checks.1 hz).2, ⟨nofun, nofun, noLims_valid⟩⟩

/-- The no-load voltage of a three windings transformer: that of the first leg when it is not given. -/
def NoLoad (u0 u1 u : Dbl) : Prop := (IsSet u0 → u = u0) ∧ (u0 = .nan → u = u1)

theorem noLoad_iff {u0 u1 u : Dbl} : u = (if u0.isNan then u1 else u0) ↔ NoLoad u0 u1 u := by
  unfold NoLoad IsSet
  cases u0 <;> simp [Dbl.isNan]

/-- **C98** A three windings transformer is added exactly when its name is free, its legs are defined, at free places of voltage levels of the substation, and it is valid. -/
theorem tw3_added_iff (hn : (l.flatMap Item.names).Nodup) (hs : Countable l) {s z : Substation} {b : Base} {l1 l2 l3 : Option LegArgs} {u0 : Dbl} :
    (SubAdd.tw3 b l1 l2 l3 u0).add l s = .ok z ↔ ∃ a1 a2 a3 s1 s2 s3 i u, l1 = some a1 ∧ l2 = some a2 ∧ l3 = some a3 ∧
      SideOf l (some s.ident.head.id) (a1.level, a1.args) s1 ∧ SideOf l (some s.ident.head.id) (a2.level, a2.args) s2 ∧ SideOf l (some s.ident.head.id) (a3.level, a3.args) s3 ∧
      Placed l b [s1, s2, s3] i ∧ NoLoad u0 a1.z.ratedU u ∧ Tw3Valid ⟨i, newLeg a1.z s1, newLeg a2.z s2, newLeg a3.z s3, u⟩ ∧
      z = { s with tw3s := s.tw3s ++ [⟨i, newLeg a1.z s1, newLeg a2.z s2, newLeg a3.z s3, u⟩] } := by
  simp only [SubAdd.add, Out.bind_eq_ok, given_ok, map_ok_iff, grd_unit, resolve_iff hn, placed_iff hs, exists_const, Bool.or_eq_false_iff, and_assoc]
  constructor
  · rintro ⟨a1, h1, a2, h2, a3, h3, v1, v2, v3, s1, g1, s2, g2, s3, g3, i, hp, rfl⟩
    refine ⟨a1, a2, a3, s1, s2, s3, i, _, h1, h2, h3, g1, g2, g3, hp, noLoad_iff.1 rfl, ⟨placed_valid hp, ⟨newLeg_valid g1 v1, newLeg_valid g2 v2, newLeg_valid g3 v3⟩, ?_, by simp [flags, newLeg]⟩, rfl⟩
    have := (leg_checks.1 v1).1.2.2.2.2
    cases hu : u0.isNan with
    | true => exact this
    | false => exact hu
  · rintro ⟨a1, a2, a3, s1, s2, s3, i, u, h1, h2, h3, g1, g2, g3, hp, hu, hv, rfl⟩
    obtain rfl := noLoad_iff.2 hu
    exact ⟨a1, h1, a2, h2, a3, h3, leg_checks.2 ⟨hv.legs.1.values, hv.legs.1.ratedS⟩, leg_checks.2 ⟨hv.legs.2.1.values, hv.legs.2.1.ratedS⟩,
      leg_checks.2 ⟨hv.legs.2.2.values, hv.legs.2.2.ratedS⟩, s1, g1, s2, g2, s3, g3, i, hp, rfl⟩

/-! ### The network -/

theorem mem_insertTag {t u : String} : ∀ {ts : List String}, u ∈ insertTag t ts ↔ u = t ∨ u ∈ ts := by
  intro ts
  induction ts with
  | nil => simp [insertTag]
  | cons a ts ih =>
    simp only [insertTag]
    split
    · simp
    · split
      · rename_i h; subst h; simp
      · simp only [List.mem_cons, ih]
        constructor <;> rintro (h | h | h) <;> simp [h]

theorem increasing_unique : ∀ {ts us : List String}, ts.Pairwise (· < ·) → us.Pairwise (· < ·) → (∀ t, t ∈ ts ↔ t ∈ us) → ts = us := by
  intro ts
  induction ts with
  | nil =>
    intro us _ _ h
    cases us with
    | nil => rfl
    | cons a us => exact absurd ((h a).2 List.mem_cons_self) (List.not_mem_nil)
  | cons a ts ih =>
    intro us h1 h2 h
    cases us with
    | nil => exact absurd ((h a).1 List.mem_cons_self) (List.not_mem_nil)
    | cons b us =>
      obtain ⟨a1, a2⟩ := List.pairwise_cons.1 h1
      obtain ⟨b1, b2⟩ := List.pairwise_cons.1 h2
      have hab : a = b := by
        rcases List.mem_cons.1 ((h a).1 List.mem_cons_self) with e | e
        · exact e
        · rcases List.mem_cons.1 ((h b).2 List.mem_cons_self) with e' | e'
          · exact e'.symm
          · exact absurd (b1 a e) (String.lt_asymm (a1 b e'))
      subst hab
      rw [ih a2 b2 fun t => ?_]
      constructor
      · intro ht
        rcases List.mem_cons.1 ((h t).1 (List.mem_cons_of_mem _ ht)) with e | e
        · exact absurd (e ▸ a1 t ht) (String.lt_irrefl _)
        · exact e
      · intro ht
        rcases List.mem_cons.1 ((h t).2 (List.mem_cons_of_mem _ ht)) with e | e
        · exact absurd (e ▸ b1 t ht) (String.lt_irrefl _)
        · exact e

theorem tags_increasing : ∀ (tags acc : List String), acc.Pairwise (· < ·) → (tags.foldl (fun ts t => insertTag t ts) acc).Pairwise (· < ·) := by
  intro tags
  induction tags with
  | nil => intro acc h; exact h
  | cons t tags ih => intro acc h; exact ih _ (insertTag_increasing t h)

theorem charac_checks {z : Charac} : badCharac z = false ↔ CharacValid z := by
  simp only [badCharac, CharacValid, Bool.or_eq_false_iff, and_assoc]

/-- **C98** A line is added exactly when its name is free, its sides are at free places of voltage levels of the network, and it is valid. -/
theorem line_added_iff {x y : Net T} (hn : ((netItems x).flatMap Item.names).Nodup) (hs : Countable (netItems x)) {b : Base} {e1 e2 : String × Adders.Args} {z : Charac} :
    (NetAdd.line b e1 e2 z).add x = .ok y ↔ ∃ s1 s2 i, SideOf (netItems x) none e1 s1 ∧ SideOf (netItems x) none e2 s2 ∧ Placed (netItems x) b [s1, s2] i ∧
      LineValid ⟨i, z, s1, s2, ⟨noLims, noLims⟩⟩ ∧ y = { x with lines := x.lines ++ [.line ⟨i, z, s1, s2, ⟨noLims, noLims⟩⟩] } := by
  simp only [NetAdd.add, Out.bind_eq_ok, given_ok, map_ok_iff, grd_unit, resolve_iff hn, placed_iff hs, exists_const, charac_checks]
  constructor
  · rintro ⟨s1, h1, s2, h2, hz, i, h3, rfl⟩
    exact ⟨s1, s2, i, h1, h2, h3, ⟨placed_valid h3, ⟨side_valid_of h1, side_valid_of h2⟩, hz, noLims_valid, noLims_valid⟩, rfl⟩
  · rintro ⟨s1, s2, i, h1, h2, h3, hv, rfl⟩
    exact ⟨s1, h1, s2, h2, hv.z, i, h3, rfl⟩

/-- A half with its name: its identifier when there is none. -/
def Named (h k : Half) : Prop := k.id = h.id ∧ k.fictitious = h.fictitious ∧ k.z = h.z ∧ (h.name ≠ "" → k.name = h.name) ∧ (h.name = "" → k.name = h.id)

theorem named_iff {h k : Half} : k = newHalf h ↔ Named h k := by
  obtain ⟨i, n, f, z⟩ := h
  obtain ⟨i', n', f', z'⟩ := k
  by_cases hn : n = "" <;> simp [newHalf, Named, hn, and_comm, and_left_comm]

theorem half_checks {h : Half} : badHalf h = false ↔ HalfValid (newHalf h) := by
  simp only [badHalf, Bool.or_eq_false_iff, beq_eq_false_iff_ne, charac_checks]
  constructor
  · rintro ⟨h1, h2⟩
    refine ⟨h1, ?_, h2⟩
    simp only [newHalf]
    split
    · exact h1
    · assumption
  · rintro ⟨h1, _, h2⟩; exact ⟨h1, h2⟩

/-- **C98** Tie lines. -/
theorem tie_added_iff {x y : Net T} (hn : ((netItems x).flatMap Item.names).Nodup) (hs : Countable (netItems x)) {b : Base} {e1 e2 : String × Adders.Args} {u : String} {h1 h2 : Option Half} :
    (NetAdd.tie b e1 e2 u h1 h2).add x = .ok y ↔ ∃ s1 s2 i a1 a2 k1 k2, SideOf (netItems x) none e1 s1 ∧ SideOf (netItems x) none e2 s2 ∧ Placed (netItems x) b [s1, s2] i ∧
      h1 = some a1 ∧ h2 = some a2 ∧ Named a1 k1 ∧ Named a2 k2 ∧ TieValid ⟨i, u, k1, k2, s1, s2, ⟨noLims, noLims⟩⟩ ∧
      y = { x with lines := x.lines ++ [.tie ⟨i, u, k1, k2, s1, s2, ⟨noLims, noLims⟩⟩] } := by
  simp only [NetAdd.add, Out.bind_eq_ok, given_ok, map_ok_iff, grd_unit, resolve_iff hn, placed_iff hs, exists_const, Bool.or_eq_false_iff, half_checks, beq_eq_false_iff_ne, and_assoc]
  constructor
  · rintro ⟨s1, g1, s2, g2, a1, e1, a2, e2, v1, v2, v3, i, h3, rfl⟩
    exact ⟨s1, s2, i, a1, a2, _, _, g1, g2, h3, e1, e2, named_iff.1 rfl, named_iff.1 rfl, ⟨placed_valid h3, ⟨side_valid_of g1, side_valid_of g2⟩, v1, ⟨v2, v3⟩, noLims_valid, noLims_valid⟩, rfl⟩
  · rintro ⟨s1, s2, i, a1, a2, k1, k2, g1, g2, h3, e1, e2, n1, n2, hv, rfl⟩
    obtain rfl := named_iff.2 n1
    obtain rfl := named_iff.2 n2
    exact ⟨s1, g1, s2, g2, a1, e1, a2, e2, hv.ucte, hv.halves.1, hv.halves.2, i, h3, rfl⟩

/-- The converter station of this name, by its identifier. -/
def StationOf (l : List Item) (n : String) (t : String) : Prop := n ≠ "" ∧ ∃ s ∈ l, n ∈ s.names ∧ s.obj = .station ∧ t = s.id

theorem station_iff (hn : (l.flatMap Item.names).Nodup) {n t : String} : findStation l n = some t ↔ StationOf l n t := by
  unfold findStation
  constructor
  · intro h
    split at h
    · cases h
    · rename_i h0
      split at h
      · rename_i s hs
        obtain ⟨hm, hname⟩ := called_some hs
        split at h
        · rename_i ho; cases h; exact ⟨h0, s, hm, hname, ho, rfl⟩
        · cases h
      · cases h
  · rintro ⟨h0, s, hs, hname, ho, rfl⟩
    rw [if_neg h0, called_of hn hs hname]
    dsimp only
    rw [if_pos ho]

theorem stationOf_ne {n t : String} (hi : ∀ x ∈ l, x.id ≠ "") (h : StationOf l n t) : t ≠ "" := by
  obtain ⟨_, s, hs, _, _, rfl⟩ := h
  exact hi s hs

/-- **C98** An HVDC line is added exactly when its name is free, its stations are in the network, and it is valid. -/
theorem hvdc_added_iff {x y : Net T} (hn : ((netItems x).flatMap Item.names).Nodup) (hi : ∀ z ∈ netItems x, z.id ≠ "") (hs : Countable (netItems x)) {b : Base} {mode : Option Nat}
    {z : HvdcLine} : (NetAdd.hvdc b mode z).add x = .ok y ↔ ∃ n m t1 t2, NewName (netItems x) b n ∧ mode = some m ∧ StationOf (netItems x) z.station1 t1 ∧
      StationOf (netItems x) z.station2 t2 ∧ HvdcValid { z with ident := ⟨⟨n, b.name, b.fictitious⟩, [], []⟩, mode := m, station1 := t1, station2 := t2 } ∧
      y = { x with hvdcs := x.hvdcs ++ [{ z with ident := ⟨⟨n, b.name, b.fictitious⟩, [], []⟩, mode := m, station1 := t1, station2 := t2 }] } := by
  have e2 : Enums.hvdcLineConvertersMode.enumerators.length = 2 := rfl
  simp only [NetAdd.add, Out.bind_eq_ok, given_ok, map_ok_iff, grd_unit, station_iff hn, newId_iff hs, exists_const, Bool.or_eq_false_iff, decide_eq_false_iff_not, Nat.not_le, and_assoc]
  constructor
  · rintro ⟨m, h1, v1, v2, v3, v4, v5, v6, v7, v8, t1, g1, t2, g2, n, h3, rfl⟩
    exact ⟨n, m, t1, t2, h3, h1, g1, g2, ⟨ident_new b n, by rw [e2]; exact v2, v1, nominal_valid (by simp [v3, v4]), positive_valid (by simp [v5, v6]), positive_valid (by simp [v7, v8]),
      stationOf_ne hi g1, stationOf_ne hi g2⟩, rfl⟩
  · rintro ⟨n, m, t1, t2, h3, h1, g1, g2, hv, rfl⟩
    have a := good_nominal hv.nominalV
    have p := good_max hv.setpoint
    have q := good_max hv.maxP
    simp only [Bool.or_eq_false_iff] at a p q
    exact ⟨m, h1, hv.r, by have := hv.mode; rwa [e2] at this, a.1, a.2, p.1, p.2, q.1, q.2, t1, g1, t2, g2, n, h3, rfl⟩

/-- **C98** A substation is added exactly when its name is free; its tags are those that are given, in order and once. -/
theorem substation_added_iff {x y : Net T} (hs : Countable (netItems x)) {b : Base} {c : Option Nat} {tso : String} {tags : List String} :
    (NetAdd.substation b c tso tags).add x = .ok y ↔ ∃ n ts, NewName (netItems x) b n ∧ ts.Pairwise (· < ·) ∧ (∀ t, t ∈ ts ↔ t ∈ tags) ∧
      y = { x with subs := x.subs ++ [⟨⟨⟨n, b.name, b.fictitious⟩, [], []⟩, c, tso, ts, [], [], []⟩] } := by
  have mem : ∀ (tags acc : List String) (t : String), t ∈ tags.foldl (fun ts t => insertTag t ts) acc ↔ t ∈ acc ∨ t ∈ tags := by
    intro tags
    induction tags with
    | nil => simp
    | cons a tags ih => intro acc t; simp only [List.foldl_cons, ih, mem_insertTag, List.mem_cons]; simp only [or_assoc, or_left_comm]
  simp only [NetAdd.add, given_ok, map_ok_iff, newId_iff hs]
  constructor
  · rintro ⟨n, hn, rfl⟩; exact ⟨n, _, hn, tags_increasing tags [] List.Pairwise.nil, fun t => by simp [mem], rfl⟩
  · rintro ⟨n, ts, hn, h1, h2, rfl⟩
    refine ⟨n, hn, ?_⟩
    have : tags.foldl (fun ts t => insertTag t ts) [] = ts := increasing_unique (tags_increasing tags [] List.Pairwise.nil) h1 fun t => by simp [mem, h2]
    rw [this]
    rfl

/-! ### What new objects have -/

/-- A bound of the generation of a dangling line: the one that was given, or that of the doubles. -/
def Bound (given limit bound : Dbl) : Prop := (IsSet given ∧ bound = given) ∨ (¬ IsSet given ∧ bound = limit)

/-- **C98** A new generation has the bounds that were given or those of the doubles, the targets that were given, and the default limits. -/
theorem generation_defaults (y : DlGen) : ∃ lo hi, Bound y.minP (.fin (-Dbl.maxRat)) lo ∧ Bound y.maxP (.fin Dbl.maxRat) hi ∧
    newGeneration y = ⟨lo, hi, y.on, y.targetP, y.targetV, y.targetQ, .minMax (.fin (-Dbl.maxRat)) (.fin Dbl.maxRat)⟩ := by
  refine ⟨_, _, ?_, ?_, rfl⟩
  · cases h : y.minP.isNan with
    | false => exact .inl ⟨h, by simp⟩
    | true => exact .inr ⟨by simp [IsSet, h], by simp⟩
  · cases h : y.maxP.isNan with
    | false => exact .inl ⟨h, by simp⟩
    | true => exact .inr ⟨by simp [IsSet, h], by simp [dblMax]⟩

/-- **C98** New objects have the values that were given, the reactive limits of the doubles, no equipment, no loading limits and no tap changers. -/
theorem new_parts {z : LegZ} {s : Side} : newLeg z s = ⟨z, s, ⟨none, none, ⟨none, none, none⟩⟩⟩ ∧ noLims = ⟨none, none, none⟩ ∧ noEquip = ⟨[], [], [], [], [], [], [], []⟩ ∧
    defaultReactive = .minMax (.fin (-Dbl.maxRat)) (.fin Dbl.maxRat) := ⟨rfl, rfl, rfl, rfl⟩

example : newGeneration ⟨.nan, 10, false, 5, .nan, 1, .minMax 0 0⟩ = ⟨.fin (-Dbl.maxRat), 10, false, 5, .nan, 1, .minMax (.fin (-Dbl.maxRat)) (.fin Dbl.maxRat)⟩ := by decide +kernel

end Verif.Build
