import Verif.Build.Spec
import Verif.ReadBack.HonestProps

/-! Helper lemmas of C98: names, places, and an object that joins the others. -/

namespace Verif.Build

open Verif Verif.Xml Verif.XmlNet Verif.Setters Verif.ReadBack

variable {T : Type} {l : List Item}

/-! ### Names -/

theorem taken_iff {n : String} : taken l n = true ↔ ¬ Free l n := by
  simp only [taken, called, Free, Item.names, List.find?_isSome, List.contains_iff_mem, Classical.not_forall, Classical.not_not]
  constructor
  · rintro ⟨x, hx, h⟩; exact ⟨x, hx, h⟩
  · rintro ⟨x, hx, h⟩; exact ⟨x, hx, h⟩

theorem taken_false {n : String} : taken l n = false ↔ Free l n := by
  rw [← Bool.not_eq_true, taken_iff, Classical.not_not]

theorem newId_free {b : Base} {n : String} (h : newId l b = some n) : n ≠ "" ∧ Free l n := by
  unfold newId at h
  split at h
  · cases h
  · rename_i hb
    split at h
    · dsimp only at h
      split at h
      · cases h
      · rename_i hn
        simp only [Option.some.injEq] at h
        subst h
        simp only [Bool.or_eq_true, beq_iff_eq, not_or, Bool.not_eq_true] at hn
        exact ⟨hn.2, taken_false.1 hn.1⟩
    · split at h
      · cases h
      · rename_i hn
        simp only [Option.some.injEq] at h
        subst h
        exact ⟨hb, taken_false.1 (by simpa using hn)⟩

theorem taken_mem : taken l = fun n => decide (n ∈ l.flatMap Item.names) := by
  funext n
  by_cases h : n ∈ l.flatMap Item.names
  · rw [decide_eq_true h, taken_iff]
    intro hf
    obtain ⟨x, hx, hn⟩ := List.mem_flatMap.1 h
    exact hf x hx hn
  · rw [decide_eq_false h, taken_false]
    intro x hx hn
    exact h (List.mem_flatMap.2 ⟨x, hx, hn⟩)

/-- The names of a network are fewer than the numbers that may be appended to them. -/
def Countable (l : List Item) : Prop := (l.flatMap Item.names).length < UniqueId.ulongMax

theorem free_mem {n : String} : (¬ Free l n) = (n ∈ l.flatMap Item.names) := by
  rw [← taken_iff, taken_mem]; simp

theorem newId_iff (hs : Countable l) {b : Base} {n : String} : newId l b = some n ↔ NewName l b n := by
  have hc := UniqueId.getUniqueId_correct b.id (l.flatMap Item.names) hs
  have hf := UniqueId.getUniqueId_fresh b.id (l.flatMap Item.names) hs
  have hne := UniqueId.getUniqueId_nonempty b.id (l.flatMap Item.names) hs
  rw [← taken_mem] at hc hf hne
  rw [← free_mem, Classical.not_not] at hf
  have hu : (fun m => ¬ Free l m) = (· ∈ l.flatMap Item.names) := by funext m; exact free_mem
  unfold newId NewName
  rw [hu]
  by_cases hb : b.id = ""
  · simp [hb]
  · rw [if_neg hb]
    cases he : b.ensure with
    | true =>
      have : (taken l (UniqueId.getUniqueId b.id (taken l)) || UniqueId.getUniqueId b.id (taken l) == "") = false := by
        rw [taken_false.2 hf]; simpa using hne
      simp only [if_true, this, Bool.false_eq_true, if_false, Option.some.injEq]
      constructor
      · rintro rfl; exact ⟨hb, hf, nofun, fun _ => hc⟩
      · rintro ⟨_, _, _, h⟩; exact UniqueId.isUniqueName_unique _ _ _ _ hc (h trivial)
    | false =>
      simp only [Bool.false_eq_true, if_false]
      split
      · rename_i ht
        simp only [reduceCtorEq, false_iff]
        rintro ⟨_, h1, h2, _⟩
        exact taken_iff.1 ht (h2 trivial ▸ h1)
      · rename_i ht
        simp only [Option.some.injEq]
        constructor
        · rintro rfl; exact ⟨hb, taken_false.1 (by simpa using ht), fun _ => rfl, nofun⟩
        · rintro ⟨_, _, h, _⟩; exact (h trivial).symm

theorem newName_iff (hs : Countable l) {b : Base} : newId l b = none ↔ ¬ ∃ n, NewName l b n := by
  cases h : newId l b with
  | none =>
    simp only [true_iff]
    rintro ⟨n, hn⟩
    rw [(newId_iff hs).2 hn] at h; cases h
  | some n => simp only [reduceCtorEq, false_iff, Classical.not_not]; exact ⟨n, (newId_iff hs).1 h⟩

/-! ### Places -/

theorem suits_iff {v : Item} {node : Bool} {p : Adders.Place} : suits l v.id node p = true ↔ Suits l v node p := by
  cases p with
  | node n => rfl
  | bus b c => simp [suits, Suits, List.any_eq_true]

theorem suits_of {vl : String} {node : Bool} {b : String} {c : Bool} : suits l vl node (.bus b c) = true ↔ node = false ∧ ∃ y ∈ l, y.id = b ∧ y.obj = .bus vl := by
  simp [suits, List.any_eq_true]

theorem vacant_iff {es : List End} {vl : String} {p : Adders.Place} : vacant es vl p = true ↔ ∀ n, p = .node n → ∀ e ∈ es, e.vl = vl → e.place ≠ .node n := by
  cases p with
  | node m =>
    simp only [vacant, Bool.not_eq_true', List.any_eq_false, Bool.and_eq_true, beq_iff_eq, not_and]
    constructor
    · rintro h n hn; cases hn; exact h
    · intro h; exact h m rfl
  | bus b c => simp [vacant]

theorem vacantAll_iff : ∀ (ss : List Side) (es : List End), vacantAll es ss = true ↔
    (∀ s ∈ ss, ∀ n, s.term.place = .node n → ∀ e ∈ es, e.vl = s.vl → e.place ≠ .node n) ∧
      ss.Pairwise fun s t => s.vl = t.vl → ∀ n, s.term.place = .node n → t.term.place ≠ .node n := by
  intro ss
  induction ss with
  | nil => intro es; simp [vacantAll]
  | cons s ss ih =>
    intro es
    simp only [vacantAll, Bool.and_eq_true, vacant_iff, ih, List.mem_cons, List.pairwise_cons, forall_eq_or_imp]
    constructor
    · rintro ⟨h1, h2, h3⟩
      refine ⟨⟨h1, fun t ht n hn => (h2 t ht n hn).2⟩, fun t ht hv n hn hp => (h2 t ht n hp).1 hv hn, h3⟩
    · rintro ⟨⟨h1, h2⟩, h3, h4⟩
      exact ⟨h1, fun t ht n hn => ⟨fun hv hp => h3 t ht hv n hp hn, h2 t ht n hn⟩, h4⟩

theorem wanted_valid {a : Adders.Args} {p : Adders.Place} (h : Adders.Wanted a p) : PlaceValid p := by
  cases p with
  | node n => trivial
  | bus b c => exact h.1

theorem fits_iff {vl : String} {node : Bool} {p : Adders.Place} : (suits l vl node p && vacant (l.flatMap Item.ends) vl p) = true ↔ Fits l vl node p := by
  rw [Bool.and_eq_true, vacant_iff]
  cases p with
  | node n =>
    simp only [suits, Fits, List.mem_flatMap]
    constructor
    · rintro ⟨h1, h2⟩; exact ⟨h1, fun x hx e he => h2 n rfl e ⟨x, hx, he⟩⟩
    · rintro ⟨h1, h2⟩; refine ⟨h1, ?_⟩; rintro m hm e ⟨x, hx, he⟩; cases hm; exact h2 x hx e he
  | bus b c => rw [suits_of]; simp [Fits]

theorem ident_new (b : Base) (n : String) : IdentValid (b.ident n) := ⟨nofun, List.nodup_nil, List.Pairwise.nil, by simp [Base.ident, AMap.NodupKeys]⟩

/-! ### Terminals -/

theorem attach1_ok {vl : String} {node first : Bool} {b : Base} {a : Adders.Args} {i : Ident} {t : Term} (h : attach1 l vl node first b a = .ok (i, t)) :
    ∃ n p, newId l b = some n ∧ Adders.Wanted a p ∧ Fits l vl node p ∧ i = b.ident n ∧ t = newTerm p := by
  unfold attach1 at h
  split at h
  · cases h
  · rename_i n hn
    split at h
    · rename_i p hp
      split at h
      · rename_i hf
        simp only [Out.ok.injEq, Prod.mk.injEq] at h
        exact ⟨n, p, hn, (Adders.terminal_spec a p).1 hp, fits_iff.1 hf, h.1.symm, h.2.symm⟩
      · cases h
    · split at h <;> cases h

theorem attach1_of {vl : String} {node first : Bool} {b : Base} {a : Adders.Args} {n : String} {p : Adders.Place} (hn : newId l b = some n) (hp : Adders.Wanted a p)
    (hf : Fits l vl node p) : attach1 l vl node first b a = .ok (b.ident n, newTerm p) := by
  unfold attach1
  rw [hn, (Adders.terminal_spec a p).2 hp]
  dsimp only
  rw [if_pos (fits_iff.2 hf)]

theorem resolve_iff {only : Option String} {e : String × Adders.Args} {s : Side} (hn : (l.flatMap Item.names).Nodup) : resolveSide l only e = some s ↔ SideOf l only e s := by
  unfold resolveSide
  constructor
  · intro h
    split at h
    · cases h
    · rename_i h0
      split at h
      · cases h
      · rename_i v hv
        obtain ⟨hm, hname⟩ := called_some hv
        split at h
        · rename_i sub node ho
          split at h
          · rename_i hs
            split at h
            · rename_i p hp
              split at h
              · rename_i hf
                simp only [Option.some.injEq] at h
                refine ⟨h0, v, hm, hname, sub, node, p, ho, ?_, (Adders.terminal_spec _ p).1 hp, suits_iff.1 hf, h.symm⟩
                rintro o rfl; simpa using hs
              · cases h
            · cases h
          · cases h
        · cases h
  · rintro ⟨h0, v, hv, hname, sub, node, p, ho, hs, hw, hf, rfl⟩
    have ho' : (only.all fun s => s == sub) = true := by
      cases only with
      | none => rfl
      | some o => simpa using hs o rfl
    rw [if_neg h0, called_of hn hv hname]
    dsimp only
    rw [ho]
    dsimp only
    rw [if_pos ho', (Adders.terminal_spec _ p).2 hw]
    dsimp only
    rw [if_pos (suits_iff.2 hf)]
    rfl

theorem sidesFree_iff {ss : List Side} : vacantAll (l.flatMap Item.ends) ss = true ↔ SidesFree l ss := by
  rw [vacantAll_iff]
  refine and_congr_left fun _ => ?_
  constructor
  · intro h s hs n hn x hx e he; exact h s hs n hn e (List.mem_flatMap.2 ⟨x, hx, he⟩)
  · intro h s hs n hn e he; obtain ⟨x, hx, he⟩ := List.mem_flatMap.1 he; exact h s hs n hn x hx e he

theorem attachAll_ok {b : Base} {ss : List Side} {i : Ident} : attachAll l b ss = .ok i ↔ ∃ n, newId l b = some n ∧ SidesFree l ss ∧ i = b.ident n := by
  unfold attachAll
  cases hn : newId l b with
  | none => simp
  | some n =>
    simp only [Option.some.injEq]
    split
    · rename_i hf
      simp only [Out.ok.injEq]
      constructor
      · rintro rfl; exact ⟨n, rfl, sidesFree_iff.1 hf, rfl⟩
      · rintro ⟨m, rfl, _, rfl⟩; rfl
    · rename_i hf
      simp only [reduceCtorEq, false_iff]
      rintro ⟨m, _, h, _⟩
      exact hf (sidesFree_iff.2 h)

theorem given_ok {α : Type} {o : Option α} {a : α} : given o = .ok a ↔ o = some a := by cases o <;> simp [given]

theorem attached_iff (hs : Countable l) {v : VL} {b : Base} {a : Adders.Args} {i : Ident} {t : Term} {first : Bool} :
    attach1 l v.ident.head.id v.topo.isNode first b a = .ok (i, t) ↔ Attached l v b a i t := by
  constructor
  · intro h
    obtain ⟨n, p, h1, h2, h3, h4, h5⟩ := attach1_ok h
    exact ⟨n, p, (newId_iff hs).1 h1, h2, h3, h4, h5⟩
  · rintro ⟨n, p, h1, h2, h3, rfl, rfl⟩
    exact attach1_of ((newId_iff hs).2 h1) h2 h3

theorem placed_iff (hs : Countable l) {b : Base} {ss : List Side} {i : Ident} : attachAll l b ss = .ok i ↔ Placed l b ss i := by
  rw [attachAll_ok]
  constructor
  · rintro ⟨n, h1, h2, h3⟩; exact ⟨n, (newId_iff hs).1 h1, h2, h3⟩
  · rintro ⟨n, h1, h2, h3⟩; exact ⟨n, (newId_iff hs).2 h1, h2, h3⟩

/-! ### An object that joins the others -/

theorem keeps_insert {pre post : List Item} {a : Item} (hl : l = pre ++ post) : Keeps l (pre ++ a :: post) := by
  intro x hx
  refine ⟨x, ?_, rfl, rfl⟩
  subst hl
  simp only [List.mem_append, List.mem_cons] at hx ⊢
  exact hx.imp_right .inr

theorem tidy_insert {pre post : List Item} {a : Item} (hl : l = pre ++ post) (h : Tidy l) (ha : Joins l a) : Tidy (pre ++ a :: post) := by
  have hk : Keeps l (pre ++ a :: post) := keeps_insert hl
  have hn := h.together.names
  have old : ∀ {x}, x ∈ pre ++ a :: post → x = a ∨ x ∈ l := by
    intro x hx
    simp only [List.mem_append, List.mem_cons, hl] at hx ⊢
    rcases hx with hx | hx | hx
    · exact .inr (.inl hx)
    · exact .inl hx
    · exact .inr (.inr hx)
  have named : ∀ {n}, (∃ v ∈ l, n = v.id) → ∃ v ∈ pre ++ a :: post, n = v.id := by
    rintro n ⟨v, hv, rfl⟩
    obtain ⟨u, hu, e1, _⟩ := hk v hv
    exact ⟨u, hu, e1.symm⟩
  have ends : ∀ x ∈ pre ++ a :: post, ∀ e ∈ x.ends, EndValid l e ∧ ∃ v ∈ l, e.vl = v.id := by
    intro x hx e he
    rcases old hx with rfl | hx
    · obtain ⟨v, hv, h1, sub, node, h2, h3, h4⟩ := ha.ends e he
      exact ⟨⟨h1 ▸ h.together.ids v hv, v, hv, h1 ▸ id_mem_names v, sub, node, h2, h3, h4⟩, v, hv, h1⟩
    · exact ⟨h.together.ends x hx e he, h.levels x hx e he⟩
  have levels : ∀ x ∈ pre ++ a :: post, ∀ e ∈ x.ends, ∃ v ∈ pre ++ a :: post, e.vl = v.id := fun x hx e he => named (ends x hx e he).2
  have names : ((pre ++ a :: post).flatMap Item.names).Nodup := by
    have ea : a.names = [a.id] := by simp [Item.names, ha.aliases]
    simp only [List.flatMap_append, List.flatMap_cons, ea, List.singleton_append]
    refine List.perm_middle.nodup_iff.2 (List.nodup_cons.2 ⟨fun hm => ?_, ?_⟩)
    · rw [← List.flatMap_append, ← hl] at hm
      obtain ⟨x, hx, hm⟩ := List.mem_flatMap.1 hm
      exact ha.fresh x hx hm
    · rw [← List.flatMap_append, ← hl]; exact hn
  refine ⟨⟨names, fun x hx => ?_, fun x hx n hm => ?_, fun x hx e he => endValid_keeps hn hk (ends x hx e he).1 (ends x hx e he).2, ?_, fun x hx s hs => ?_⟩, levels, fun x hx s hs => ?_⟩
  · rcases old hx with rfl | hx
    · exact ha.named
    · exact h.together.ids x hx
  · have : ∃ c ∈ l, c.id = n.2 ∧ c.obj = .bus n.1 := by
      rcases old hx with rfl | hx
      · exact ha.needs n hm
      · exact h.together.needs x hx n hm
    obtain ⟨c, hc, h1, h2⟩ := this
    obtain ⟨d, hd, h3, h4⟩ := hk c hc
    exact ⟨d, hd, h3.trans h1, h4.trans h2⟩
  · have hi : ∀ e ∈ l.flatMap Item.ends, ∃ v ∈ l, e.vl = v.id := by
      intro e hm
      obtain ⟨x, hx, hm⟩ := List.mem_flatMap.1 hm
      exact h.levels x hx e hm
    have ap := (nodes_apart hn hi).1 h.together.nodes
    refine (nodes_apart names ?_).2 ?_
    · intro e hm
      obtain ⟨x, hx, hm⟩ := List.mem_flatMap.1 hm
      exact levels x hx e hm
    · have hfree : ∀ e ∈ a.ends, ∀ f ∈ l.flatMap Item.ends, f.vl = e.vl → ∀ n, e.place = .node n → f.place ≠ .node n := by
        intro e he f hf hv n hp
        obtain ⟨x, hx, hf⟩ := List.mem_flatMap.1 hf
        exact ha.free e he n hp x hx f hf hv
      subst hl
      simp only [List.flatMap_append, List.flatMap_cons, Apart, List.pairwise_append, List.mem_append] at ap hfree ⊢
      obtain ⟨h1, h2, h3⟩ := ap
      refine ⟨h1, ⟨ha.apart, h2, fun e he f hf hv => hfree e he f (.inr hf) hv.symm⟩, fun e he f hf => ?_⟩
      rcases hf with hf | hf
      · exact fun hv n hp hq => hfree f hf e (.inl he) hv n hq hp
      · exact h3 e he f hf
  · have : (StationNamed l s.1 ∧ StationNamed l s.2) ∧ (∃ y ∈ l, s.1 = y.id) ∧ ∃ y ∈ l, s.2 = y.id := by
      rcases old hx with rfl | hx
      · obtain ⟨⟨y, hy, h1, h2⟩, z, hz, h3, h4⟩ := ha.stations s hs
        exact ⟨⟨⟨h1 ▸ h.together.ids y hy, y, hy, h1 ▸ id_mem_names y, h2⟩, ⟨h3 ▸ h.together.ids z hz, z, hz, h3 ▸ id_mem_names z, h4⟩⟩, ⟨y, hy, h1⟩, z, hz, h3⟩
      · exact ⟨h.together.stations x hx s hs, h.stations x hx s hs⟩
    exact ⟨station_keeps hn hk this.1.1 this.2.1, station_keeps hn hk this.1.2 this.2.2⟩
  · rcases old hx with rfl | hx
    · obtain ⟨⟨y, hy, h1, _⟩, z, hz, h3, _⟩ := ha.stations s hs
      exact ⟨named ⟨y, hy, h1⟩, named ⟨z, hz, h3⟩⟩
    · exact ⟨named (h.stations x hx s hs).1, named (h.stations x hx s hs).2⟩

/-- At most one object joins. -/
def Gained (l m m' : List Item) : Prop := m' = m ∨ ∃ pre a post, m = pre ++ post ∧ m' = pre ++ a :: post ∧ Joins l a

theorem gained_left {m m' : List Item} (p : List Item) (h : Gained l m m') : Gained l (p ++ m) (p ++ m') := by
  rcases h with rfl | ⟨pre, a, post, rfl, rfl, h⟩
  · exact .inl rfl
  · exact .inr ⟨p ++ pre, a, post, by simp, by simp, h⟩

theorem gained_right {m m' : List Item} (p : List Item) (h : Gained l m m') : Gained l (m ++ p) (m' ++ p) := by
  rcases h with rfl | ⟨pre, a, post, rfl, rfl, h⟩
  · exact .inl rfl
  · exact .inr ⟨pre, a, post ++ p, by simp, by simp, h⟩

theorem gained_last {α : Type} {xs : List α} {x : α} {g : α → Item} (h : Joins l (g x)) : Gained l (xs.map g) ((xs ++ [x]).map g) :=
  .inr ⟨xs.map g, g x, [], by simp, by simp, h⟩

theorem gained_lastM {α : Type} {xs : List α} {x : α} {g : α → List Item} {a : Item} (he : g x = [a]) (h : Joins l a) : Gained l (xs.flatMap g) ((xs ++ [x]).flatMap g) :=
  .inr ⟨xs.flatMap g, a, [], by simp, by simp [he], h⟩

theorem gained_set {α : Type} {f : α → Out α} {i : Nat} {xs ys : List α} (h : setAt f i xs = .ok ys) {g : α → List Item}
    (hg : ∀ x y, xs[i]? = some x → f x = .ok y → Gained l (g x) (g y)) : Gained l (xs.flatMap g) (ys.flatMap g) := by
  obtain ⟨x, y, hx, hy, rfl⟩ := setAt_ok h
  obtain ⟨pre, post, h1, h2⟩ := set_split (y := y) hx
  rw [h2]; conv => arg 2; rw [h1]
  simp only [List.flatMap_append, List.flatMap_cons]
  exact gained_left _ (gained_right _ (hg x y hx hy))

theorem grown_last {α : Type} {N : Ref → Prop} {xs : List α} {x : α} {g : α → List Ref} (h : ∀ r ∈ g x, N r) : Grown N (xs.flatMap g) ((xs ++ [x]).flatMap g) := by
  intro r hr
  simp only [List.flatMap_append, List.flatMap_cons, List.flatMap_nil, List.append_nil, List.mem_append] at hr
  exact hr.imp_right (h r)

theorem joins_plain {i : Ident} {o : XmlNet.Obj} {b : Base} {n : String} (hn : newId l b = some n) (hi : i = b.ident n) : Joins l (plain i o) := by
  subst hi
  obtain ⟨h1, h2⟩ := newId_free hn
  exact ⟨h2, h1, rfl, nofun, nofun, nofun, List.Pairwise.nil, nofun⟩

theorem joins_injection {sub : String} {v : VL} {i : Ident} {t : Term} {o : XmlNet.Obj} {b : Base} {a : Adders.Args} {first : Bool} (hv : vlItem sub v ∈ l)
    (h : attach1 l v.ident.head.id v.topo.isNode first b a = .ok (i, t)) : Joins l (injection v.ident.head.id i o t.place) := by
  obtain ⟨n, p, hn, _, hf, rfl, rfl⟩ := attach1_ok h
  obtain ⟨h1, h2⟩ := newId_free hn
  refine ⟨h2, h1, rfl, nofun, ?_, ?_, List.pairwise_singleton .., nofun⟩
  · intro e he
    simp only [injection, List.mem_singleton] at he
    subst he
    refine ⟨_, hv, rfl, sub, _, rfl, ?_, nofun⟩
    cases p with
    | node m => exact hf.1
    | bus c d => exact hf
  · intro e he m hm
    simp only [injection, List.mem_singleton] at he
    subst he
    simp only [newTerm] at hm
    subst hm
    exact hf.2

theorem joins_branch {only : Option String} {b : Base} {ss : List Side} {i : Ident} (hs : ∀ s ∈ ss, ∃ e, SideOf l only e s) (h : attachAll l b ss = .ok i) :
    Joins l (branch only i ss) := by
  obtain ⟨n, hn, ⟨hf, hp⟩, rfl⟩ := attachAll_ok.1 h
  obtain ⟨h1, h2⟩ := newId_free hn
  refine ⟨h2, h1, rfl, nofun, ?_, ?_, ?_, nofun⟩
  · intro e he
    simp only [branch, List.mem_map] at he
    obtain ⟨s, hm, rfl⟩ := he
    obtain ⟨e, _, v, hv, _, sub, node, p, h3, h4, _, h5, rfl⟩ := hs s hm
    exact ⟨v, hv, rfl, sub, node, h3, h5, h4⟩
  · intro e he
    simp only [branch, List.mem_map] at he
    obtain ⟨s, hm, rfl⟩ := he
    exact hf s hm
  · simp only [branch, List.pairwise_map]
    exact hp

end Verif.Build
