import Verif.XmlNet.Accept

/-!
Lists of operations that can be run, and what the network is then.  Helper lemmas of C72.
-/

namespace Verif.XmlNet

open Verif Verif.Xml

def objsOf (ops : List Op) : List (String × Obj) := ops.filterMap fun | .new i o => some (i, o) | _ => none
def namesOf (ops : List Op) : List String := ops.filterMap fun | .new i _ => some i | .alias _ a => some a | _ => none
def endsOf (ops : List Op) : List End := ops.filterMap fun | .attach e => some e | _ => none
def hvdcsOf (ops : List Op) : List (String × String × String) := ops.filterMap fun | .hvdc i a b => some (i, a, b) | _ => none

theorem mem_objsOf {ops : List Op} {i : String} {o : Obj} : (i, o) ∈ objsOf ops ↔ Op.new i o ∈ ops := by
  unfold objsOf
  rw [List.mem_filterMap]
  constructor
  · rintro ⟨x, hx, h⟩
    split at h
    · simp only [Option.some.injEq, Prod.mk.injEq] at h; obtain ⟨rfl, rfl⟩ := h; exact hx
    · cases h
  · exact fun h => ⟨_, h, rfl⟩

theorem mem_namesOf {ops : List Op} {n : String} : n ∈ namesOf ops ↔ (∃ o, Op.new n o ∈ ops) ∨ ∃ i, Op.alias i n ∈ ops := by
  unfold namesOf
  rw [List.mem_filterMap]
  constructor
  · rintro ⟨x, hx, h⟩
    split at h
    · simp only [Option.some.injEq] at h; subst h; exact .inl ⟨_, hx⟩
    · simp only [Option.some.injEq] at h; subst h; exact .inr ⟨_, hx⟩
    · cases h
  · rintro (⟨o, h⟩ | ⟨i, h⟩)
    · exact ⟨_, h, rfl⟩
    · exact ⟨_, h, rfl⟩

/-- The name stands for the object with this identifier. -/
def Means (ops : List Op) (n i : String) : Prop := n = i ∨ Op.alias i n ∈ ops

/-- The voltage level of a terminal. -/
def Des (ops : List Op) (e : End) (v : String) : Prop := (e.lookup = true ∧ e.vl ≠ "" ∧ Means ops e.vl v) ∨ (e.lookup = false ∧ e.vl = v)

def Fits (ops : List Op) (v : String) (node : Bool) : Adders.Place → Prop
  | .node _ => node = true
  | .bus b _ => node = false ∧ Op.new b (.bus v) ∈ ops

def EndOk (ops : List Op) (e : End) (v : String) : Prop :=
  Des ops e v ∧ ∃ sub node, Op.new v (.level sub node) ∈ ops ∧ Fits ops v node e.place ∧ ∀ s, e.only = some s → s = sub

def StationOk (ops : List Op) (n i : String) : Prop := n ≠ "" ∧ Means ops n i ∧ Op.new i .station ∈ ops

/-- Two lists of the same length, related element by element. -/
def All2 {α β : Type} (R : α → β → Prop) : List α → List β → Prop
  | [], [] => True
  | a :: as, b :: bs => R a b ∧ All2 R as bs
  | _, _ => False

theorem All2.snoc {α β : Type} {R : α → β → Prop} : ∀ {as : List α} {bs : List β} {a : α} {b : β}, All2 R as bs → R a b → All2 R (as ++ [a]) (bs ++ [b])
  | [], [], _, _, _, h => ⟨h, trivial⟩
  | _ :: _, _ :: _, _, _, h, h' => ⟨h.1, All2.snoc h.2 h'⟩

theorem All2.imp {α β : Type} {R S : α → β → Prop} (hi : ∀ a b, R a b → S a b) : ∀ {as : List α} {bs : List β}, All2 R as bs → All2 S as bs
  | [], [], _ => trivial
  | _ :: _, _ :: _, h => ⟨hi _ _ h.1, All2.imp hi h.2⟩

theorem All2.left {α β : Type} {R : α → β → Prop} : ∀ {as : List α} {bs : List β}, All2 R as bs → ∀ a ∈ as, ∃ b ∈ bs, R a b
  | [], _, _, _, h => nomatch h
  | a :: as, b :: bs, h, c, hc => by
    rcases List.mem_cons.1 hc with e | e
    · exact ⟨b, List.mem_cons_self, e ▸ h.1⟩
    · obtain ⟨d, hd, hr⟩ := All2.left h.2 c e
      exact ⟨d, List.mem_cons_of_mem _ hd, hr⟩

theorem All2.right {α β : Type} {R : α → β → Prop} : ∀ {as : List α} {bs : List β}, All2 R as bs → ∀ b ∈ bs, ∃ a ∈ as, R a b
  | _, [], _, _, h => nomatch h
  | a :: as, b :: bs, h, c, hc => by
    rcases List.mem_cons.1 hc with e | e
    · exact ⟨a, List.mem_cons_self, e ▸ h.1⟩
    · obtain ⟨d, hd, hr⟩ := All2.right h.2 c e
      exact ⟨d, List.mem_cons_of_mem _ hd, hr⟩

theorem All2.pairwise {α β : Type} {R : α → β → Prop} {P : α → α → Prop} {Q : β → β → Prop} (hi : ∀ a a' b b', R a b → R a' b' → Q b b' → P a a') :
    ∀ {as : List α} {bs : List β}, All2 R as bs → bs.Pairwise Q → as.Pairwise P
  | [], [], _, _ => .nil
  | a :: as, b :: bs, h, hq => by
    have hq := List.pairwise_cons.1 hq
    refine List.pairwise_cons.2 ⟨fun c hc => ?_, All2.pairwise hi h.2 hq.2⟩
    obtain ⟨d, hd, hr⟩ := All2.left h.2 c hc
    exact hi _ _ _ _ h.1 hr (hq.1 d hd)

/-- The state is the one of a network where these operations were run. -/
structure Ran (ops : List Op) (st : St) : Prop where
  objs : st.objs = objsOf ops
  al1 : ∀ a i, (a, i) ∈ st.aliases → Op.alias i a ∈ ops
  al2 : ∀ a i, Op.alias i a ∈ ops → a = i ∨ (a, i) ∈ st.aliases
  names : (st.objs.map Prod.fst ++ st.aliases.map Prod.fst).Nodup
  owners : ∀ a i, (a, i) ∈ st.aliases → ∃ o, (i, o) ∈ st.objs
  owned : ∀ a i, Op.alias i a ∈ ops → ∃ o, (i, o) ∈ st.objs
  ne : ∀ i o, (i, o) ∈ st.objs → i ≠ ""
  ends : All2 (fun e p => p.2 = e.place ∧ EndOk ops e p.1) (endsOf ops) st.ends
  nodes : st.ends.Pairwise fun p q => ∀ n, p.2 = .node n → p ≠ q
  needs : ∀ vl b, Op.need vl b ∈ ops → Op.new b (.bus vl) ∈ ops
  hvdcs : All2 (fun h t => t.1 = h.1 ∧ StationOk ops h.2.1 t.2.1 ∧ StationOk ops h.2.2 t.2.2) (hvdcsOf ops) st.hvdcs

theorem ran_empty : Ran [] St.empty where
  objs := rfl
  al1 := nofun
  al2 := nofun
  names := .nil
  owners := nofun
  owned := nofun
  ne := nofun
  ends := trivial
  nodes := .nil
  needs := nofun
  hvdcs := trivial

/-! ### Names -/

theorem find_key {β : Type} {l : List (String × β)} (hn : (l.map Prod.fst).Nodup) {k : String} {p : String × β} :
    (l.find? fun o => o.1 == k) = some p ↔ p ∈ l ∧ p.1 = k := by
  constructor
  · intro h
    exact ⟨List.mem_of_find?_eq_some h, by simpa using List.find?_some h⟩
  · rintro ⟨hp, rfl⟩
    induction l with
    | nil => cases hp
    | cons q l ih =>
      rw [List.map_cons, List.nodup_cons] at hn
      rcases List.mem_cons.1 hp with h | h
      · subst h; simp
      · have : q.1 ≠ p.1 := fun e => hn.1 (e ▸ List.mem_map.2 ⟨p, h, rfl⟩)
        rw [List.find?_cons_of_neg (by simpa using this)]
        exact ih hn.2 h

theorem Ran.ids {ops : List Op} {st : St} (h : Ran ops st) : (st.objs.map Prod.fst).Nodup := (List.nodup_append.1 h.names).1

theorem Ran.als {ops : List Op} {st : St} (h : Ran ops st) : (st.aliases.map Prod.fst).Nodup := (List.nodup_append.1 h.names).2.1

theorem Ran.sep {ops : List Op} {st : St} (h : Ran ops st) {a i : String} {o : Obj} (ha : (a, i) ∈ st.aliases) (ho : (a, o) ∈ st.objs) : False :=
  (List.nodup_append.1 h.names).2.2 a (List.mem_map.2 ⟨_, ho, rfl⟩) a (List.mem_map.2 ⟨_, ha, rfl⟩) rfl

theorem Ran.byId {ops : List Op} {st : St} (h : Ran ops st) {i j : String} {o : Obj} : st.byId i = some (j, o) ↔ j = i ∧ Op.new i o ∈ ops := by
  unfold St.byId
  rw [find_key h.ids, h.objs, mem_objsOf]
  constructor
  · rintro ⟨h1, rfl⟩; exact ⟨rfl, h1⟩
  · rintro ⟨rfl, h1⟩; exact ⟨h1, rfl⟩

theorem Ran.byId_none {ops : List Op} {st : St} (h : Ran ops st) {i : String} (hn : ∀ o, Op.new i o ∉ ops) : st.byId i = none := by
  cases hb : st.byId i with
  | none => rfl
  | some p => exact absurd (h.byId.1 (show st.byId i = some (p.1, p.2) from hb)).2 (hn _)

theorem Ran.find {ops : List Op} {st : St} (h : Ran ops st) {n i : String} {o : Obj} : st.find n = some (i, o) ↔ Means ops n i ∧ Op.new i o ∈ ops := by
  unfold St.find
  cases ha : st.aliases.find? fun a => a.1 == n with
  | some a =>
    obtain ⟨a, j⟩ := a
    obtain ⟨h1, h2⟩ := (find_key h.als).1 ha
    simp only at h2
    subst h2
    simp only [h.byId]
    constructor
    · rintro ⟨rfl, h3⟩; exact ⟨.inr (h.al1 _ _ h1), h3⟩
    · rintro ⟨h3, h4⟩
      have h5 : (a, i) ∈ st.aliases := by
        rcases h3 with h3 | h3
        · subst h3
          exact (h.sep h1 (h.objs ▸ mem_objsOf.2 h4)).elim
        · rcases h.al2 _ _ h3 with h6 | h6
          · subst h6
            exact (h.sep h1 (h.objs ▸ mem_objsOf.2 h4)).elim
          · exact h6
      have h6 := (find_key h.als).2 ⟨h5, rfl⟩
      rw [ha] at h6
      simp only [Option.some.injEq, Prod.mk.injEq, true_and] at h6
      subst h6
      exact ⟨rfl, h4⟩
  | none =>
    simp only [h.byId]
    constructor
    · rintro ⟨rfl, h3⟩; exact ⟨.inl rfl, h3⟩
    · rintro ⟨h3 | h3, h4⟩
      · subst h3; exact ⟨rfl, h4⟩
      · rcases h.al2 _ _ h3 with h6 | h6
        · subst h6; exact ⟨rfl, h4⟩
        · rw [List.find?_eq_none] at ha
          exact (ha _ h6 (by simp)).elim

theorem Ran.find_none {ops : List Op} {st : St} (h : Ran ops st) {n : String} : st.find n = none ↔ n ∉ namesOf ops := by
  constructor
  · intro hn hm
    rcases mem_namesOf.1 hm with ⟨o, ho⟩ | ⟨i, hi⟩
    · rw [h.find.2 ⟨.inl rfl, ho⟩] at hn; cases hn
    · obtain ⟨o, ho⟩ := h.owned _ _ hi
      rw [h.find.2 ⟨.inr hi, mem_objsOf.1 (h.objs ▸ ho)⟩] at hn; cases hn
  · intro hn
    cases hf : st.find n with
    | none => rfl
    | some p =>
      obtain ⟨h1, h2⟩ := h.find.1 (show st.find n = some (p.1, p.2) from hf)
      rcases h1 with h1 | h1
      · exact absurd (mem_namesOf.2 (.inl ⟨_, h1 ▸ h2⟩)) hn
      · exact absurd (mem_namesOf.2 (.inr ⟨_, h1⟩)) hn

/-- A name stands for one object. -/
theorem Ran.unique {ops : List Op} {st : St} (h : Ran ops st) {n i j : String} {o p : Obj} (hi : Means ops n i) (ho : Op.new i o ∈ ops) (hj : Means ops n j) (hp : Op.new j p ∈ ops) :
    i = j ∧ o = p := by
  have h1 := h.find.2 ⟨hi, ho⟩
  rw [h.find.2 ⟨hj, hp⟩] at h1
  simp only [Option.some.injEq, Prod.mk.injEq] at h1
  exact ⟨h1.1.symm, h1.2.symm⟩

theorem Ran.station {ops : List Op} {st : St} (h : Ran ops st) {n i : String} : st.station n = some i ↔ StationOk ops n i := by
  unfold St.station StationOk
  by_cases hn : n = ""
  · simp [hn]
  · simp only [hn, if_false, ne_eq, not_false_eq_true, true_and]
    rw [← h.find]
    split
    · rename_i j hj
      rw [hj]
      simp
    · rename_i hne
      constructor
      · intro h'; cases h'
      · intro h'; exact absurd h' (hne i)

/-! ### Growth -/

theorem mem_grow {ops : List Op} {o p : Op} (h : p ∈ ops) : p ∈ ops ++ [o] := List.mem_append_left _ h

theorem Means.grow {ops : List Op} {n i : String} {o : Op} (h : Means ops n i) : Means (ops ++ [o]) n i := h.imp id mem_grow

theorem Des.grow {ops : List Op} {e : End} {v : String} {o : Op} (h : Des ops e v) : Des (ops ++ [o]) e v := h.imp (fun h => ⟨h.1, h.2.1, h.2.2.grow⟩) id

theorem Des.means {ops : List Op} {e : End} {v : String} (h : Des ops e v) : Means ops e.vl v := h.elim (fun h => h.2.2) fun h => .inl h.2

theorem Fits.grow {ops : List Op} {v : String} {b : Bool} {o : Op} : ∀ {p : Adders.Place}, Fits ops v b p → Fits (ops ++ [o]) v b p
  | .node _, h => h
  | .bus _ _, h => ⟨h.1, mem_grow h.2⟩

theorem EndOk.grow {ops : List Op} {e : End} {v : String} {o : Op} (h : EndOk ops e v) : EndOk (ops ++ [o]) e v := by
  obtain ⟨h1, s, n, h2, h3, h4⟩ := h
  exact ⟨h1.grow, s, n, mem_grow h2, h3.grow, h4⟩

theorem StationOk.grow {ops : List Op} {n i : String} {o : Op} (h : StationOk ops n i) : StationOk (ops ++ [o]) n i := ⟨h.1, h.2.1.grow, mem_grow h.2.2⟩

theorem mem_snoc_ne {ops : List Op} {o p : Op} (h : p ∈ ops ++ [o]) (hne : p ≠ o) : p ∈ ops := by
  rcases List.mem_append.1 h with h | h
  · exact h
  · exact absurd (List.mem_singleton.1 h) hne

theorem objsOf_snoc (ops : List Op) (o : Op) : objsOf (ops ++ [o]) = objsOf ops ++ objsOf [o] := List.filterMap_append
theorem namesOf_append (a b : List Op) : namesOf (a ++ b) = namesOf a ++ namesOf b := List.filterMap_append
theorem endsOf_append (a b : List Op) : endsOf (a ++ b) = endsOf a ++ endsOf b := List.filterMap_append
theorem hvdcsOf_append (a b : List Op) : hvdcsOf (a ++ b) = hvdcsOf a ++ hvdcsOf b := List.filterMap_append

theorem nodup_snoc {α : Type} {l : List α} {x : α} (h : l.Nodup) (hx : x ∉ l) : (l ++ [x]).Nodup := by
  rw [List.nodup_append]
  exact ⟨h, by simp, fun a ha b hb e => hx (by simp only [List.mem_singleton] at hb; exact hb ▸ e ▸ ha)⟩

theorem All2.growEnds {ops : List Op} {o : Op} {es : List End} {ps : List (String × Adders.Place)} (h : All2 (fun e p => p.2 = e.place ∧ EndOk ops e p.1) es ps) :
    All2 (fun e p => p.2 = e.place ∧ EndOk (ops ++ [o]) e p.1) es ps := h.imp fun _ _ h => ⟨h.1, h.2.grow⟩

theorem All2.growHvdcs {ops : List Op} {o : Op} {hs ts : List (String × String × String)}
    (h : All2 (fun h t => t.1 = h.1 ∧ StationOk ops h.2.1 t.2.1 ∧ StationOk ops h.2.2 t.2.2) hs ts) :
    All2 (fun h t => t.1 = h.1 ∧ StationOk (ops ++ [o]) h.2.1 t.2.1 ∧ StationOk (ops ++ [o]) h.2.2 t.2.2) hs ts := h.imp fun _ _ h => ⟨h.1, h.2.1.grow, h.2.2.grow⟩

/-! ### One operation -/

theorem ran_new {ops : List Op} {st st' : St} {i : String} {o : Obj} (h : Ran ops st) (hs : step st (.new i o) = .ok st') : Ran (ops ++ [.new i o]) st' := by
  simp only [step] at hs
  split at hs
  · cases hs
  rename_i hn
  simp only [Out.ok.injEq] at hs
  subst hs
  rw [not_or, Option.not_isSome_iff_eq_none, h.find_none] at hn
  have h1 : i ∉ st.objs.map Prod.fst := fun hi => by
    obtain ⟨p, hp, rfl⟩ := List.mem_map.1 hi
    exact hn.2 (mem_namesOf.2 (.inl ⟨p.2, mem_objsOf.1 (h.objs ▸ hp)⟩))
  have h2 : i ∉ st.aliases.map Prod.fst := fun hi => by
    obtain ⟨p, hp, rfl⟩ := List.mem_map.1 hi
    exact hn.2 (mem_namesOf.2 (.inr ⟨p.2, h.al1 _ _ hp⟩))
  exact {
    objs := by rw [objsOf_snoc, ← h.objs]; rfl
    al1 := fun a j hj => mem_grow (h.al1 a j hj)
    al2 := fun a j hj => h.al2 a j (mem_snoc_ne hj nofun)
    names := by
      have := List.nodup_append.1 h.names
      show ((st.objs ++ [(i, o)]).map Prod.fst ++ st.aliases.map Prod.fst).Nodup
      rw [List.map_append, List.nodup_append]
      refine ⟨nodup_snoc this.1 h1, this.2.1, fun a ha b hb e => ?_⟩
      rcases List.mem_append.1 ha with ha | ha
      · exact this.2.2 a ha b hb e
      · simp only [List.map_cons, List.map_nil, List.mem_singleton] at ha
        exact h2 (ha ▸ e ▸ hb)
    owners := fun a j hj => let ⟨p, hp⟩ := h.owners a j hj; ⟨p, List.mem_append_left _ hp⟩
    owned := fun a j hj => let ⟨p, hp⟩ := h.owned a j (mem_snoc_ne hj nofun); ⟨p, List.mem_append_left _ hp⟩
    ne := fun j p hj => by
      rcases List.mem_append.1 hj with hj | hj
      · exact h.ne j p hj
      · simp only [List.mem_singleton, Prod.mk.injEq] at hj
        exact hj.1 ▸ hn.1
    ends := by rw [endsOf_append]; simpa [endsOf] using h.ends.growEnds
    nodes := h.nodes
    needs := fun v b hb => mem_grow (h.needs v b (mem_snoc_ne hb nofun))
    hvdcs := by rw [hvdcsOf_append]; simpa [hvdcsOf] using h.hvdcs.growHvdcs }

theorem ran_same {ops : List Op} {st : St} {o : Op} (h : Ran ops st) (ho : objsOf [o] = []) (he : endsOf [o] = []) (hh : hvdcsOf [o] = [])
    (ha : ∀ a i, o = Op.alias i a → (a = i ∨ (a, i) ∈ st.aliases) ∧ ∃ p, (i, p) ∈ st.objs) (hn : ∀ v b, o = Op.need v b → Op.new b (.bus v) ∈ ops) : Ran (ops ++ [o]) st := by
  exact {
    objs := by rw [objsOf_snoc, ← h.objs, ho, List.append_nil]
    al1 := fun a j hj => mem_grow (h.al1 a j hj)
    al2 := fun a j hj => by
      rcases List.mem_append.1 hj with hj | hj
      · exact h.al2 a j hj
      · exact (ha a j (List.mem_singleton.1 hj).symm).1
    names := h.names
    owners := h.owners
    owned := fun a j hj => by
      rcases List.mem_append.1 hj with hj | hj
      · exact h.owned a j hj
      · exact (ha a j (List.mem_singleton.1 hj).symm).2
    ne := h.ne
    ends := by rw [endsOf_append, he, List.append_nil]; exact h.ends.growEnds
    nodes := h.nodes
    needs := fun v b hb => by
      rcases List.mem_append.1 hb with hb | hb
      · exact mem_grow (h.needs v b hb)
      · exact mem_grow (hn v b (List.mem_singleton.1 hb).symm)
    hvdcs := by rw [hvdcsOf_append, hh, List.append_nil]; exact h.hvdcs.growHvdcs }

theorem ran_alias {ops : List Op} {st st' : St} {i a : String} (h : Ran ops st) (hs : step st (.alias i a) = .ok st') : Ran (ops ++ [.alias i a]) st' := by
  simp only [step] at hs
  split at hs
  · cases hs
  rename_i p hp
  have hi : ∃ o, (i, o) ∈ st.objs := by
    have := h.byId.1 (show st.byId i = some (p.1, p.2) from hp)
    exact ⟨p.2, h.objs ▸ mem_objsOf.2 this.2⟩
  split at hs
  · split at hs
    · rename_i hai
      simp only [Out.ok.injEq] at hs
      subst hs
      exact ran_same h rfl rfl rfl (by rintro b j ⟨⟩; exact ⟨.inl hai, hi⟩) nofun
    · cases hs
  rename_i hno
  rw [Option.not_isSome_iff_eq_none] at hno
  have hno' : ∀ o, (a, o) ∉ st.objs := fun o ho => by
    rw [h.byId.2 ⟨rfl, mem_objsOf.1 (h.objs ▸ ho)⟩] at hno; cases hno
  split at hs
  · rename_i q hq
    obtain ⟨h1, h2⟩ := (find_key h.als).1 hq
    split at hs
    · rename_i h3
      simp only [Out.ok.injEq] at hs
      subst hs
      refine ran_same h rfl rfl rfl ?_ nofun
      rintro b j ⟨⟩
      exact ⟨.inr (by rw [← h2, ← h3]; exact h1), hi⟩
    · cases hs
  · rename_i hq
    simp only [Out.ok.injEq] at hs
    subst hs
    have hna : a ∉ st.aliases.map Prod.fst := fun hm => by
      obtain ⟨q, hq', rfl⟩ := List.mem_map.1 hm
      rw [List.find?_eq_none] at hq
      exact hq q hq' (by simp)
    exact {
      objs := by rw [objsOf_snoc, ← h.objs]; simp [objsOf]
      al1 := fun b j hj => by
        rcases List.mem_append.1 hj with hj | hj
        · exact mem_grow (h.al1 b j hj)
        · simp only [List.mem_singleton, Prod.mk.injEq] at hj
          obtain ⟨rfl, rfl⟩ := hj
          exact List.mem_append_right _ (List.mem_singleton.2 rfl)
      al2 := fun b j hj => by
        rcases List.mem_append.1 hj with hj | hj
        · exact (h.al2 b j hj).imp id fun h => List.mem_append_left _ h
        · simp only [List.mem_singleton, Op.alias.injEq] at hj
          obtain ⟨rfl, rfl⟩ := hj
          exact .inr (List.mem_append_right _ (List.mem_singleton.2 rfl))
      names := by
        show (st.objs.map Prod.fst ++ (st.aliases ++ [(a, i)]).map Prod.fst).Nodup
        rw [List.map_append, ← List.append_assoc]
        refine nodup_snoc h.names fun hm => ?_
        rcases List.mem_append.1 hm with hm | hm
        · obtain ⟨q, hq', hqa⟩ := List.mem_map.1 hm
          exact hno' q.2 (by rw [show a = q.1 from hqa.symm]; exact hq')
        · exact hna hm
      owners := fun b j hj => by
        rcases List.mem_append.1 hj with hj | hj
        · exact h.owners b j hj
        · simp only [List.mem_singleton, Prod.mk.injEq] at hj
          exact hj.2 ▸ hi
      owned := fun b j hj => by
        rcases List.mem_append.1 hj with hj | hj
        · exact h.owned b j hj
        · simp only [List.mem_singleton, Op.alias.injEq] at hj
          exact hj.1 ▸ hi
      ne := h.ne
      ends := by rw [endsOf_append]; simpa [endsOf] using h.ends.growEnds
      nodes := h.nodes
      needs := fun v b hb => mem_grow (h.needs v b (mem_snoc_ne hb nofun))
      hvdcs := by rw [hvdcsOf_append]; simpa [hvdcsOf] using h.hvdcs.growHvdcs }

theorem Ran.accepts {ops : List Op} {st : St} (h : Ran ops st) {v : String} {node : Bool} {p : Adders.Place} :
    st.accepts v node p = true ↔ Fits ops v node p ∧ ∀ n, p = .node n → (v, p) ∉ st.ends := by
  cases p with
  | node n => simp [St.accepts, Fits]
  | bus b c => simp [St.accepts, Fits, ← mem_objsOf, h.objs]

theorem attachTo_ok {ops : List Op} {st st' : St} (h : Ran ops st) {e : End} {o : Option (String × Obj)} :
    attachTo st e o = .ok st' ↔ ∃ v sub node, o = some (v, .level sub node) ∧ Fits ops v node e.place ∧ (∀ n, e.place = .node n → (v, e.place) ∉ st.ends) ∧
      (∀ s, e.only = some s → s = sub) ∧ st' = { st with ends := st.ends ++ [(v, e.place)] } := by
  have hall : ∀ sub : String, (e.only.all fun s => s == sub) = true ↔ ∀ s, e.only = some s → s = sub := by
    intro sub
    cases e.only <;> simp
  unfold attachTo
  split
  · rename_i v sub node
    by_cases hc : (st.accepts v node e.place && e.only.all fun s => s == sub) = true
    · rw [if_pos hc]
      rw [Bool.and_eq_true, h.accepts, hall] at hc
      constructor
      · intro hs
        simp only [Out.ok.injEq] at hs
        exact ⟨v, sub, node, rfl, hc.1.1, hc.1.2, hc.2, hs.symm⟩
      · rintro ⟨v', sub', node', ho, _, _, _, rfl⟩
        simp only [Option.some.injEq, Prod.mk.injEq, Obj.level.injEq] at ho
        obtain ⟨rfl, rfl, rfl⟩ := ho
        rfl
    · rw [if_neg hc]
      constructor
      · intro hs; cases hs
      · rintro ⟨v', sub', node', ho, h1, h2, h3, _⟩
        simp only [Option.some.injEq, Prod.mk.injEq, Obj.level.injEq] at ho
        obtain ⟨rfl, rfl, rfl⟩ := ho
        exact (hc (by rw [Bool.and_eq_true, h.accepts, hall]; exact ⟨⟨h1, h2⟩, h3⟩)).elim
  · rename_i hne
    constructor
    · intro hs; cases hs
    · rintro ⟨v, sub, node, rfl, _⟩
      exact (hne v sub node rfl).elim

theorem step_attach {ops : List Op} {st st' : St} (h : Ran ops st) {e : End} :
    step st (.attach e) = .ok st' ↔ ∃ v, EndOk ops e v ∧ (∀ n, e.place = .node n → (v, e.place) ∉ st.ends) ∧ st' = { st with ends := st.ends ++ [(v, e.place)] } := by
  simp only [step]
  cases hl : e.lookup with
  | true =>
    simp only [if_true]
    by_cases hne : e.vl = ""
    · rw [if_pos hne]
      constructor
      · intro hs; cases hs
      · rintro ⟨v, ⟨hd, _⟩, _⟩
        rcases hd with hd | hd
        · exact absurd hne hd.2.1
        · rw [hl] at hd; cases hd.1
    · rw [if_neg hne, attachTo_ok h]
      constructor
      · rintro ⟨v, sub, node, ho, h1, h2, h3, h4⟩
        obtain ⟨h5, h6⟩ := h.find.1 ho
        exact ⟨v, ⟨.inl ⟨hl, hne, h5⟩, sub, node, h6, h1, h3⟩, h2, h4⟩
      · rintro ⟨v, ⟨hd, sub, node, h6, h1, h3⟩, h2, h4⟩
        exact ⟨v, sub, node, h.find.2 ⟨hd.means, h6⟩, h1, h2, h3, h4⟩
  | false =>
    simp only [Bool.false_eq_true, if_false]
    by_cases hb : (st.byId e.vl).isSome = true
    · rw [if_pos hb, attachTo_ok h]
      constructor
      · rintro ⟨v, sub, node, ho, h1, h2, h3, h4⟩
        obtain ⟨h5, h6⟩ := h.byId.1 ho
        exact ⟨v, ⟨.inr ⟨hl, h5.symm⟩, sub, node, h5 ▸ h6, h1, h3⟩, h2, h4⟩
      · rintro ⟨v, ⟨hd, sub, node, h6, h1, h3⟩, h2, h4⟩
        have hv : e.vl = v := hd.elim (fun h => by rw [hl] at h; cases h.1) fun h => h.2
        subst hv
        exact ⟨_, sub, node, h.byId.2 ⟨rfl, h6⟩, h1, h2, h3, h4⟩
    · rw [if_neg hb]
      constructor
      · intro hs; cases hs
      · rintro ⟨v, ⟨hd, sub, node, h6, h1, h3⟩, h2, h4⟩
        have hv : e.vl = v := hd.elim (fun h => by rw [hl] at h; cases h.1) fun h => h.2
        subst hv
        exact (hb (by rw [h.byId.2 ⟨rfl, h6⟩]; rfl)).elim

theorem ran_attach {ops : List Op} {st st' : St} {e : End} (h : Ran ops st) (hs : step st (.attach e) = .ok st') : Ran (ops ++ [.attach e]) st' := by
  obtain ⟨v, h1, h2, rfl⟩ := (step_attach h).1 hs
  exact {
    objs := by rw [objsOf_snoc, ← h.objs]; simp [objsOf]
    al1 := fun a j hj => mem_grow (h.al1 a j hj)
    al2 := fun a j hj => h.al2 a j (mem_snoc_ne hj nofun)
    names := h.names
    owners := h.owners
    owned := fun a j hj => h.owned a j (mem_snoc_ne hj nofun)
    ne := h.ne
    ends := by
      rw [endsOf_append]
      exact h.ends.growEnds.snoc ⟨rfl, h1.grow⟩
    nodes := by
      show (st.ends ++ [(v, e.place)]).Pairwise _
      rw [List.pairwise_append]
      refine ⟨h.nodes, by simp, fun p hp q hq n hn hpq => ?_⟩
      simp only [List.mem_singleton] at hq
      subst hq
      subst hpq
      exact h2 n hn hp
    needs := fun v b hb => mem_grow (h.needs v b (mem_snoc_ne hb nofun))
    hvdcs := by rw [hvdcsOf_append]; simpa [hvdcsOf] using h.hvdcs.growHvdcs }

theorem step_hvdc {ops : List Op} {st st' : St} (h : Ran ops st) {i s1 s2 : String} :
    step st (.hvdc i s1 s2) = .ok st' ↔ ∃ t1 t2, StationOk ops s1 t1 ∧ StationOk ops s2 t2 ∧ st' = { st with hvdcs := st.hvdcs ++ [(i, t1, t2)] } := by
  simp only [step]
  split
  · rename_i t1 t2 h1 h2
    rw [h.station] at h1 h2
    constructor
    · intro hs
      simp only [Out.ok.injEq] at hs
      exact ⟨t1, t2, h1, h2, hs.symm⟩
    · rintro ⟨u1, u2, h3, h4, rfl⟩
      have e1 := (h.unique h1.2.1 h1.2.2 h3.2.1 h3.2.2).1
      have e2 := (h.unique h2.2.1 h2.2.2 h4.2.1 h4.2.2).1
      rw [e1, e2]
  · rename_i hne
    constructor
    · intro hs; cases hs
    · rintro ⟨u1, u2, h3, h4, _⟩
      exact (hne u1 u2 (h.station.2 h3) (h.station.2 h4)).elim

theorem ran_hvdc {ops : List Op} {st st' : St} {i s1 s2 : String} (h : Ran ops st) (hs : step st (.hvdc i s1 s2) = .ok st') : Ran (ops ++ [.hvdc i s1 s2]) st' := by
  obtain ⟨t1, t2, h1, h2, rfl⟩ := (step_hvdc h).1 hs
  exact {
    objs := by rw [objsOf_snoc, ← h.objs]; simp [objsOf]
    al1 := fun a j hj => mem_grow (h.al1 a j hj)
    al2 := fun a j hj => h.al2 a j (mem_snoc_ne hj nofun)
    names := h.names
    owners := h.owners
    owned := fun a j hj => h.owned a j (mem_snoc_ne hj nofun)
    ne := h.ne
    ends := by rw [endsOf_append]; simpa [endsOf] using h.ends.growEnds
    nodes := h.nodes
    needs := fun v b hb => mem_grow (h.needs v b (mem_snoc_ne hb nofun))
    hvdcs := by
      rw [hvdcsOf_append]
      exact h.hvdcs.growHvdcs.snoc ⟨rfl, h1.grow, h2.grow⟩ }

theorem step_need {ops : List Op} {st st' : St} (h : Ran ops st) {vl b : String} : step st (.need vl b) = .ok st' ↔ Op.new b (.bus vl) ∈ ops ∧ st' = st := by
  simp only [step]
  by_cases hc : st.objs.contains (b, Obj.bus vl) = true
  · rw [if_pos hc]
    rw [List.contains_iff_mem, h.objs, mem_objsOf] at hc
    simp [hc, eq_comm]
  · rw [if_neg hc]
    rw [List.contains_iff_mem, h.objs, mem_objsOf] at hc
    simp [hc]

theorem ran_step {ops : List Op} {st st' : St} (h : Ran ops st) : ∀ {o : Op}, step st o = .ok st' → Ran (ops ++ [o]) st'
  | .new _ _, hs => ran_new h hs
  | .alias _ _, hs => ran_alias h hs
  | .attach _, hs => ran_attach h hs
  | .hvdc _ _ _, hs => ran_hvdc h hs
  | .need vl b, hs => by
    obtain ⟨h1, rfl⟩ := (step_need h).1 hs
    exact ran_same h rfl rfl rfl nofun (by rintro v c ⟨⟩; exact h1)

/-- What was run is described by the list of the operations. -/
theorem ran_run {ops : List Op} : ∀ {pre : List Op} {st st' : St}, Ran pre st → run st ops = .ok st' → Ran (pre ++ ops) st' := by
  induction ops with
  | nil => intro pre st st' h hs; simp only [run, Out.ok.injEq] at hs; rw [List.append_nil]; exact hs ▸ h
  | cons o ops ih =>
    intro pre st st' h hs
    simp only [run] at hs
    obtain ⟨s1, h1, hs⟩ := Out.bind_eq_ok.1 hs
    have := ih (ran_step h h1) hs
    rwa [List.append_assoc] at this

/-! ### Lists that can be run -/

/-- The operation can be run after these. -/
def CanRun (pre : List Op) : Op → Prop
  | .new i _ => i ≠ "" ∧ i ∉ namesOf pre
  | .alias i a => (∃ o, Op.new i o ∈ pre) ∧ a ∉ namesOf pre
  | .need vl b => Op.new b (.bus vl) ∈ pre
  | .attach e => ∃ v, EndOk pre e v ∧ ∀ n, e.place = .node n → ∀ f ∈ endsOf pre, f.place = .node n → ¬ Means pre f.vl v
  | .hvdc _ s1 s2 => (∃ t, StationOk pre s1 t) ∧ ∃ t, StationOk pre s2 t

def CanRunAll (pre : List Op) : List Op → Prop
  | [] => True
  | o :: os => CanRun pre o ∧ CanRunAll (pre ++ [o]) os

theorem canRunAll_append {a b : List Op} : ∀ {pre : List Op}, CanRunAll pre a → CanRunAll (pre ++ a) b → CanRunAll pre (a ++ b) := by
  induction a with
  | nil => intro pre _ h; simpa using h
  | cons o a ih =>
    intro pre h1 h2
    exact ⟨h1.1, ih h1.2 (by simpa using h2)⟩

theorem step_can {ops : List Op} {st : St} (h : Ran ops st) : ∀ {o : Op}, CanRun ops o → ∃ st', step st o = .ok st'
  | .new i o, hc => by
    have := h.find_none.2 hc.2
    exact ⟨_, by simp [step, hc.1, this]; rfl⟩
  | .alias i a, hc => by
    obtain ⟨⟨o, ho⟩, ha⟩ := hc
    have h1 := h.byId.2 ⟨rfl, ho⟩
    have h2 : st.byId a = none := h.byId_none fun o ho => ha (mem_namesOf.2 (.inl ⟨o, ho⟩))
    have h3 : (st.aliases.find? fun p => p.1 == a) = none := by
      rw [List.find?_eq_none]
      intro p hp hpa
      simp only [beq_iff_eq] at hpa
      exact ha (mem_namesOf.2 (.inr ⟨p.2, hpa ▸ h.al1 _ _ hp⟩))
    exact ⟨_, by simp only [step, h1, h2, h3]; rfl⟩
  | .need vl b, hc => ⟨st, (step_need h).2 ⟨hc, rfl⟩⟩
  | .attach e, hc => by
    obtain ⟨v, h1, h2⟩ := hc
    refine ⟨_, (step_attach h).2 ⟨v, h1, fun n hn hm => ?_, rfl⟩⟩
    obtain ⟨f, hf, hp, hd, _⟩ := h.ends.right _ hm
    exact h2 n hn f hf (hp.symm.trans hn) hd.means
  | .hvdc i s1 s2, hc => by
    obtain ⟨⟨t1, h1⟩, t2, h2⟩ := hc
    exact ⟨_, (step_hvdc h).2 ⟨t1, t2, h1, h2, rfl⟩⟩

theorem run_can {ops : List Op} : ∀ {pre : List Op} {st : St}, Ran pre st → CanRunAll pre ops → ∃ st', run st ops = .ok st' := by
  induction ops with
  | nil => intro pre st _ _; exact ⟨st, rfl⟩
  | cons o ops ih =>
    intro pre st h hc
    obtain ⟨s1, h1⟩ := step_can h hc.1
    obtain ⟨s2, h2⟩ := ih (ran_step h h1) hc.2
    exact ⟨s2, by simp only [run, h1, Out.monad_bind_ok]; exact h2⟩

end Verif.XmlNet
