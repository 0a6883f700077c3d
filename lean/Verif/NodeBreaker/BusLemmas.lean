import Verif.NodeBreaker.Spec
import Verif.UniqueId.Lemmas

/-! Helper lemmas on the bus computation. -/

namespace Verif.NodeBreaker

open Verif Verif.Graph

theorem Joins.symm {ε : Type} {ed : Edge ε} {u w : Nat} (h : Joins ed u w) : Joins ed w u := by
  rcases h with ⟨a, b⟩ | ⟨a, b⟩
  · exact Or.inr ⟨b, a⟩
  · exact Or.inl ⟨b, a⟩

theorem Conn.trans {ν ε : Type} {g : G ν ε} {P : Option ε → Prop} {a b c : Nat} (h1 : Conn g P a b) (h2 : Conn g P b c) : Conn g P a c := by
  induction h2 with
  | refl => exact h1
  | step _ h3 h4 h5 ih => exact .step ih h3 h4 h5

theorem Conn.symm {ν ε : Type} {g : G ν ε} {P : Option ε → Prop} {a b : Nat} (h : Conn g P a b) : Conn g P b a := by
  induction h with
  | refl => exact .refl
  | step _ h3 h4 h5 ih => exact Conn.trans (.step .refl h3 h4 (Joins.symm h5)) ih

theorem Conn.onEdge {ν ε : Type} {g : G ν ε} {P : Option ε → Prop} {a b : Nat} (h : Conn g P a b) (hb : OnEdge g a) : OnEdge g b := by
  induction h with
  | refl => exact hb
  | step _ h3 h4 h5 ih =>
    refine ⟨_, _, h3, ?_⟩
    rcases h5 with ⟨_, k⟩ | ⟨_, k⟩
    · exact Or.inr k
    · exact Or.inl k

theorem Conn.onEdge_of_ne {ν ε : Type} {g : G ν ε} {P : Option ε → Prop} {a b : Nat} (h : Conn g P a b) (hb : a ≠ b) : OnEdge g a := by
  refine h.symm.onEdge ?_
  cases h with
  | refl => exact absurd rfl hb
  | step _ h3 h4 h5 =>
    refine ⟨_, _, h3, ?_⟩
    rcases h5 with ⟨_, k⟩ | ⟨_, k⟩
    · exact Or.inr k
    · exact Or.inl k

theorem accept_iff {view : View} {g : Gr} {opened retained : Nat → Bool} {a e b : Nat} {ed : Edge Sw}
    (he : g.edgeAt e = some ed) : accept view g opened retained a e b = true ↔ Passing view opened retained ed.obj := by
  unfold accept
  rw [he]
  simp only []
  cases ed.obj with
  | none => simp [Passing]
  | some s => cases view <;> simp [Passing, terminate]

theorem stepR_iff {view : View} {g : Gr} {opened retained : Nat → Bool} {u w : Nat} :
    StepR g (accept view g opened retained) u w ↔
      ∃ e ed, g.edgeAt e = some ed ∧ Joins ed u w ∧ Passing view opened retained ed.obj := by
  constructor
  · rintro ⟨e, ed, h1, h2, h3⟩; exact ⟨e, ed, h1, h2, (accept_iff h1).mp h3⟩
  · rintro ⟨e, ed, h1, h2, h3⟩; exact ⟨e, ed, h1, h2, (accept_iff h1).mpr h3⟩

/-- Reachability outside a closed set is the whole class. -/
theorem reach_iff_conn {ν ε : Type} {g : G ν ε} {acc : Nat → Nat → Nat → Bool} {P : Option ε → Prop} {M : Nat → Prop}
    (hacc : ∀ a e b ed, g.edgeAt e = some ed → (acc a e b = true ↔ P ed.obj)) {v : Nat} (hv : ¬ M v)
    (hc : ∀ u w, M u → Conn g P u w → M w) (u : Nat) : Reach (StepR g acc) M v u ↔ Conn g P v u := by
  constructor
  · intro h
    induction h with
    | refl => exact .refl
    | step _ h2 _ ih =>
      obtain ⟨e, ed, k1, k2, k3⟩ := h2
      exact .step ih k1 ((hacc _ _ _ _ k1).mp k3) k2
  · intro h
    induction h with
    | refl => exact .refl
    | @step a b e ed h1 h3 h4 h5 ih =>
      refine .step ih ⟨e, ed, h3, h5, (hacc _ _ _ _ h3).mpr h4⟩ ?_
      intro hm
      exact hv (hc _ _ hm (Conn.symm (.step h1 h3 h4 h5)))

theorem reach_iff {view : View} {g : Gr} {opened retained : Nat → Bool} {M : Nat → Prop} {v : Nat} (hv : ¬ M v)
    (hc : ∀ u w, M u → Conn g (Passing view opened retained) u w → M w) (u : Nat) :
    Reach (StepR g (accept view g opened retained)) M v u ↔ Conn g (Passing view opened retained) v u := by
  constructor
  · intro h
    induction h with
    | refl => exact .refl
    | step _ h2 _ ih =>
      obtain ⟨e, ed, k1, k2, k3⟩ := stepR_iff.mp h2
      exact .step ih k1 k3 k2
  · intro h
    induction h with
    | refl => exact .refl
    | @step a b e ed h1 h3 h4 h5 ih =>
      refine .step ih (stepR_iff.mpr ⟨e, ed, h3, h5, h4⟩) ?_
      intro hm
      exact hv (hc _ _ hm (Conn.symm (.step h1 h3 h4 h5)))

/-! ### Names -/

theorem name_inj {vl : String} {i j : Nat} (h : vl ++ "_" ++ toString i = vl ++ "_" ++ toString j) : i = j := by
  have := congrArg String.toList h
  simp only [String.toList_append] at this
  exact UniqueId.toString_nat_inj (String.toList_inj.mp (List.append_cancel_left this))

theorem busId_spec {vl : String} {nodes : List Nat} {P : Nat → Prop} (hm : ∀ x, x ∈ nodes ↔ P x) (hne : nodes ≠ []) :
    ∃ m, P m ∧ (∀ x, P x → m ≤ x) ∧ busId vl nodes = some (vl ++ "_" ++ toString m) := by
  unfold busId
  cases h : nodes.min? with
  | none => exact absurd (List.min?_eq_none_iff.mp h) hne
  | some m =>
    rw [List.min?_eq_some_iff] at h
    exact ⟨m, (hm m).mp h.1, fun x hx => h.2 x ((hm x).mpr hx), rfl⟩

/-! ### Validity -/

theorem terminalsOn_eq (g : Gr) (vs : List Nat) : terminalsOn g vs = vs.filterMap (fun v => (g.vertexAt v).join) := by
  induction vs with
  | nil => rfl
  | cons v vs ih =>
    unfold terminalsOn
    cases h : g.vertexAt v with
    | none => simp [ih, h]
    | some o => cases o <;> simp [ih, h]

theorem counts_eq (ts : List Term) :
    counts ts = (ts.countP (fun t => t.type.isFeeder), ts.countP (fun t => t.type.isBranch),
      ts.countP (fun t => decide (t.type = .busbarSection))) := by
  induction ts with
  | nil => rfl
  | cons t ts ih =>
    unfold counts
    rw [ih]
    simp only []
    cases ht : t.type <;> simp [List.countP_cons, ht, EqType.isFeeder, EqType.isBranch]

def hasB (g : Gr) (p : EqType → Bool) (v : Nat) : Bool :=
  match g.vertexAt v with
  | some (some t) => p t.type
  | _ => false

theorem countP_terminalsOn (g : Gr) (p : EqType → Bool) (vs : List Nat) :
    (terminalsOn g vs).countP (fun t => p t.type) = vs.countP (hasB g p) := by
  induction vs with
  | nil => rfl
  | cons v vs ih =>
    unfold terminalsOn
    cases h : g.vertexAt v with
    | none => simp [List.countP_cons, hasB, h, ih]
    | some o => cases o <;> simp [List.countP_cons, hasB, h, ih]

theorem hasB_iff {g : Gr} {p : EqType → Bool} {P : EqType → Prop} (hp : ∀ t, p t = true ↔ P t) (v : Nat) :
    hasB g p v = true ↔ Has g P v := by
  unfold hasB Has
  cases h : g.vertexAt v with
  | none => simp
  | some o => cases o <;> simp [hp]

theorem isFeeder_iff (t : EqType) : t.isFeeder = true ↔ t ≠ .busbarSection := by cases t <;> simp [EqType.isFeeder]
theorem isBranch_iff (t : EqType) : t.isBranch = true ↔ Branchy t := by cases t <;> simp [EqType.isBranch, Branchy]

theorem two_le_countP {p : Nat → Bool} {l : List Nat} (hn : l.Nodup) {x : Nat} (hx : x ∈ l) (hpx : p x = true) :
    2 ≤ l.countP p ↔ ∃ y, x ≠ y ∧ y ∈ l ∧ p y = true := by
  have hperm := List.perm_cons_erase hx
  rw [hperm.countP_eq, List.countP_cons, if_pos hpx]
  have : 2 ≤ (l.erase x).countP p + 1 ↔ 0 < (l.erase x).countP p := by omega
  rw [this, List.countP_pos_iff]
  constructor
  · rintro ⟨y, h1, h2⟩
    have := (hn.mem_erase_iff).mp h1
    exact ⟨y, Ne.symm this.1, this.2, h2⟩
  · rintro ⟨y, h1, h2, h3⟩
    exact ⟨y, (hn.mem_erase_iff).mpr ⟨Ne.symm h1, h2⟩, h3⟩

theorem isBusValid_iff {view : View} {g : Gr} {P : Option Sw → Prop} {v : Nat} {nodes : List Nat} (hn : nodes.Nodup)
    (hm : ∀ x, x ∈ nodes ↔ Conn g P v x) : isBusValid view g nodes = true ↔ Qualifies g view P v := by
  cases view with
  | busBreaker =>
    have : v ∈ nodes := (hm v).mpr .refl
    cases nodes with
    | nil => simp at this
    | cons => simp [isBusValid, Qualifies]
  | bus =>
    unfold isBusValid Qualifies
    simp only [counts_eq]
    rw [countP_terminalsOn g EqType.isFeeder, countP_terminalsOn g EqType.isBranch,
      countP_terminalsOn g (fun t => decide (t = .busbarSection))]
    simp only [Bool.or_eq_true, Bool.and_eq_true, decide_eq_true_eq]
    have hpos : ∀ (p : EqType → Bool), 1 ≤ nodes.countP (hasB g p) ↔ ∃ x, x ∈ nodes ∧ hasB g p x = true := by
      intro p
      rw [show (1 ≤ nodes.countP (hasB g p)) = (0 < nodes.countP (hasB g p)) from rfl, List.countP_pos_iff]
    have hB : ∀ x, hasB g (fun t => decide (t = .busbarSection)) x = true ↔ Has g (· = .busbarSection) x :=
      fun x => hasB_iff (fun t => by simp) x
    have hF : ∀ x, hasB g EqType.isFeeder x = true ↔ Has g (· ≠ .busbarSection) x := fun x => hasB_iff isFeeder_iff x
    have hR : ∀ x, hasB g EqType.isBranch x = true ↔ Has g Branchy x := fun x => hasB_iff isBranch_iff x
    have hRF : ∀ x, hasB g EqType.isBranch x = true → hasB g EqType.isFeeder x = true := by
      intro x h
      obtain ⟨t, h1, h2⟩ := (hR x).mp h
      refine (hF x).mpr ⟨t, h1, ?_⟩
      intro hh; rw [hh] at h2; simp [Branchy] at h2
    constructor
    · rintro (⟨h1, h2⟩ | ⟨h1, h2⟩)
      · obtain ⟨x, hx, hx'⟩ := (hpos _).mp h1
        obtain ⟨y, hy, hy'⟩ := (hpos _).mp h2
        exact Or.inl ⟨x, y, (hm x).mp hx, (hm y).mp hy, (hB x).mp hx', (hF y).mp hy'⟩
      · obtain ⟨x, hx, hx'⟩ := (hpos _).mp h1
        obtain ⟨y, hy1, hy2, hy3⟩ := (two_le_countP hn hx (hRF x hx')).mp h2
        exact Or.inr ⟨x, y, hy1, (hm x).mp hx, (hm y).mp hy2, (hR x).mp hx', (hF y).mp hy3⟩
    · rintro (⟨x, y, h1, h2, h3, h4⟩ | ⟨x, y, h0, h1, h2, h3, h4⟩)
      · exact Or.inl ⟨(hpos _).mpr ⟨x, (hm x).mpr h1, (hB x).mpr h3⟩, (hpos _).mpr ⟨y, (hm y).mpr h2, (hF y).mpr h4⟩⟩
      · have hx' := (hR x).mpr h3
        exact Or.inr ⟨(hpos _).mpr ⟨x, (hm x).mpr h1, hx'⟩,
          (two_le_countP hn ((hm x).mpr h1) (hRF x hx')).mpr ⟨y, h0, (hm y).mpr h2, (hF y).mpr h4⟩⟩

/-- Class invariance of the specification. -/
theorem OnBus.conn {vl : String} {g : Gr} {view : View} {P : Option Sw → Prop} {u w : Nat} {id : String}
    (h : OnBus vl g view P u id) (hc : Conn g P u w) : OnBus vl g view P w id := by
  obtain ⟨h1, h2, m, h3, h4, h5⟩ := h
  refine ⟨hc.onEdge h1, ?_, m, hc.symm.trans h3, fun x hx => h4 x (hc.trans hx), h5⟩
  cases view with
  | busBreaker => exact True.intro
  | bus =>
    rcases h2 with ⟨x, y, k1, k2, k3⟩ | ⟨x, y, k0, k1, k2, k3⟩
    · exact Or.inl ⟨x, y, hc.symm.trans k1, hc.symm.trans k2, k3⟩
    · exact Or.inr ⟨x, y, k0, hc.symm.trans k1, hc.symm.trans k2, k3⟩

theorem OnBus.unique {vl : String} {g : Gr} {view : View} {P : Option Sw → Prop} {u : Nat} {id id' : String}
    (h : OnBus vl g view P u id) (h' : OnBus vl g view P u id') : id = id' := by
  obtain ⟨_, _, m, h3, h4, h5⟩ := h
  obtain ⟨_, _, m', h3', h4', h5'⟩ := h'
  have : m = m' := Nat.le_antisymm (h4 _ h3') (h4' _ h3)
  rw [h5, h5', this]

/-- Two nodes on buses with the same id are linked. -/
theorem OnBus.same {vl : String} {g : Gr} {view : View} {P : Option Sw → Prop} {u w : Nat} {id : String}
    (h : OnBus vl g view P u id) (h' : OnBus vl g view P w id) : Conn g P u w := by
  obtain ⟨_, _, m, h3, h4, h5⟩ := h
  obtain ⟨_, _, m', h3', h4', h5'⟩ := h'
  have : m = m' := name_inj (h5.symm.trans h5')
  subst this
  exact h3.trans h3'.symm

/-! ### The computation -/

theorem assignNodes_ok (id : String) (vs : List Nat) : ∀ (l : List (Option String)), (∀ v ∈ vs, v < l.length) →
    ∃ l', assignNodes id vs l = .ok l' ∧ l'.length = l.length ∧
      ∀ u : Nat, l'[u]? = if u ∈ vs then some (some id) else l[u]? := by
  induction vs with
  | nil => intro l _; exact ⟨l, rfl, rfl, by simp⟩
  | cons v vs ih =>
    intro l h
    unfold assignNodes
    have hv := h v (by simp)
    rw [if_pos hv]
    obtain ⟨l', e, len, a⟩ := ih (l.set v (some id)) (by simpa using fun x hx => h x (List.mem_cons_of_mem _ hx))
    refine ⟨l', e, by simpa using len, fun u => ?_⟩
    rw [a u]
    by_cases h1 : u ∈ vs
    · simp [h1]
    · by_cases h2 : u = v
      · subst h2; simp [h1, hv]
      · simp [h1, h2, List.getElem?_set_ne (Ne.symm h2)]

/-- The bus is the class of the node. -/
structure BusOk (g : Gr) (P : Option Sw → Prop) (u : Nat) (b : Bus) : Prop where
  nodup : b.nodes.Nodup
  mem : ∀ x, x ∈ b.nodes ↔ Conn g P u x
  terms : b.terminals = b.nodes.filterMap (fun v => (g.vertexAt v).join)

structure Inv (vl : String) (g : Gr) (view : View) (P : Option Sw → Prop) (st : BSt) : Prop where
  lenc : st.enc.length = g.vertices.length
  lnode : st.cache.byNode.length = g.vertices.length
  closed : ∀ u w, Enc st.enc u → Conn g P u w → Enc st.enc w
  on : ∀ u, Enc st.enc u → OnEdge g u
  node : ∀ (u : Nat) id, st.cache.byNode[u]? = some (some id) ↔ Enc st.enc u ∧ OnBus vl g view P u id
  ids : ∀ id b, st.cache.byId.get? id = some b → ∃ u, Enc st.enc u ∧ OnBus vl g view P u id ∧ BusOk g P u b
  full : ∀ u id, Enc st.enc u → OnBus vl g view P u id → ∃ b, st.cache.byId.get? id = some b
  nodup : AMap.NodupKeys st.cache.byId

theorem Conn.live {ν ε : Type} {g : G ν ε} (hwf : WF g) {P : Option ε → Prop} {a b : Nat} (h : Conn g P a b) (ha : g.vertexAt a ≠ none) :
    g.vertexAt b ≠ none := by
  induction h with
  | refl => exact ha
  | step _ h3 h4 h5 ih =>
    obtain ⟨k1, k2⟩ := hwf.ends _ _ h3
    rcases h5 with ⟨_, k⟩ | ⟨_, k⟩
    · rw [← k]; exact k2
    · rw [← k]; exact k1

theorem traverse_ok {vl : String} {g : Gr} (hg : Reached g) {view : View} {opened retained : Nat → Bool} {st : BSt}
    (h : Inv vl g view (Passing view opened retained) st) {v : Nat} (hv : OnEdge g v) :
    ∃ st', traverse vl view g opened retained v st = .ok st' ∧ Inv vl g view (Passing view opened retained) st' ∧
      Enc st'.enc v ∧ ∀ u, Enc st.enc u → Enc st'.enc u := by
  have hwf := hg.wf
  have hlive : g.vertexAt v ≠ none := by
    obtain ⟨e, ed, h1, h2⟩ := hv
    obtain ⟨k1, k2⟩ := hwf.ends e ed h1
    rcases h2 with rfl | rfl
    · exact k1
    · exact k2
  have hlt : v < st.enc.length := by rw [h.lenc]; exact vertexAt_lt hlive
  unfold traverse
  cases hb : st.enc[v]? with
  | none => rw [List.getElem?_eq_none_iff] at hb; omega
  | some b =>
    cases b with
    | true => exact ⟨st, rfl, h, hb, fun _ hu => hu⟩
    | false =>
      have hnv : ¬ Enc st.enc v := by unfold Enc; rw [hb]; simp
      have hex : g.vertexExists v = true := Option.isSome_iff_ne_none.mpr hlive
      obtain ⟨t, e1, e2, e3⟩ := traverse_visits_reachable hg (accept view g opened retained) hex h.lenc
      obtain ⟨_, c2, c3, _⟩ := traverse_calls hg (accept view g opened retained) hex h.lenc e1
      have hreach := fun u => reach_iff (view := view) (opened := opened) (retained := retained) hnv h.closed u
      have hin : ∀ u, Enc t.enc u ↔ Enc st.enc u ∨ Conn g (Passing view opened retained) v u := by
        intro u; rw [e3, hreach]
      have hdis : ∀ u, Conn g (Passing view opened retained) v u → ¬ Enc st.enc u :=
        fun u hc hu => hnv (h.closed u v hu hc.symm)
      have hnodes : ∀ x, x ∈ v :: ((t.log.filter Call.go).map Call.dst) ↔ Conn g (Passing view opened retained) v x := by
        intro x
        rw [List.mem_cons, c3, hin]
        constructor
        · rintro (rfl | ⟨h1 | h1, h2, _⟩)
          · exact .refl
          · exact absurd h1 h2
          · exact h1
        · intro hc
          by_cases hx : x = v
          · exact Or.inl hx
          · exact Or.inr ⟨Or.inr hc, hdis x hc, hx⟩
      have hnd : (v :: ((t.log.filter Call.go).map Call.dst)).Nodup := by
        rw [List.nodup_cons]
        refine ⟨?_, c2⟩
        rw [c3]; rintro ⟨_, _, h3⟩; exact h3 rfl
      rw [e1]
      simp only [Out.bind_ok]
      generalize hN : v :: ((t.log.filter Call.go).map Call.dst) = N at hnodes hnd
      obtain ⟨m, m1, m2, m3⟩ := busId_spec (vl := vl) hnodes (by rw [← hN]; simp)
      rw [m3]
      simp only []
      have hval := isBusValid_iff (view := view) hnd hnodes
      -- what is common to both cases
      have hclosed : ∀ u w, Enc t.enc u → Conn g (Passing view opened retained) u w → Enc t.enc w := by
        intro u w hu hc
        rcases (hin u).mp hu with hu | hu
        · exact (hin w).mpr (Or.inl (h.closed u w hu hc))
        · exact (hin w).mpr (Or.inr (hu.trans hc))
      have hon : ∀ u, Enc t.enc u → OnEdge g u := by
        intro u hu
        rcases (hin u).mp hu with hu | hu
        · exact h.on u hu
        · exact hu.onEdge hv
      have hvv : Enc t.enc v := (hin v).mpr (Or.inr .refl)
      have hmono : ∀ u, Enc st.enc u → Enc t.enc u := fun u hu => (hin u).mpr (Or.inl hu)
      by_cases hq : isBusValid view g N = true
      · rw [if_pos hq]
        have hQ := hval.mp hq
        have hob : OnBus vl g view (Passing view opened retained) v (vl ++ "_" ++ toString m) := ⟨hv, hQ, m, m1, m2, rfl⟩
        obtain ⟨l, a1, a2, a3⟩ := assignNodes_ok (vl ++ "_" ++ toString m) N st.cache.byNode (by
          intro x hx
          rw [h.lnode]
          exact vertexAt_lt (((hnodes x).mp hx).live hwf hlive))
        rw [a1]
        refine ⟨_, rfl, ⟨e2, by simp only []; rw [a2, h.lnode], hclosed, hon, ?_, ?_, ?_, ?_⟩, hvv, hmono⟩
        · intro u id
          simp only []
          rw [a3, hin]
          by_cases hu : u ∈ N
          · rw [if_pos hu]
            have hc := (hnodes u).mp hu
            constructor
            · intro he
              simp only [Option.some.injEq] at he
              subst he
              exact ⟨Or.inr hc, hob.conn hc⟩
            · rintro ⟨_, h2⟩
              rw [(hob.conn hc).unique h2]
          · rw [if_neg hu, h.node]
            have hc : ¬ Conn g (Passing view opened retained) v u := fun hc => hu ((hnodes u).mpr hc)
            simp [hc]
        · intro id b hb
          simp only [] at hb
          rw [AMap.get?_emplace] at hb
          by_cases hid : vl ++ "_" ++ toString m = id
          · rw [if_pos ‹_›] at hb
            subst hid
            cases hg0 : st.cache.byId.get? (vl ++ "_" ++ toString m) with
            | some b0 =>
              obtain ⟨u, hu, hou, _⟩ := h.ids _ _ hg0
              exact absurd (h.closed u v hu (hou.same hob)) hnv
            | none =>
              rw [hg0] at hb
              simp only [Option.getD_none, Option.some.injEq] at hb
              subst hb
              exact ⟨v, hvv, hob, hnd, hnodes, terminalsOn_eq g N⟩
          · rw [if_neg ‹_›] at hb
            obtain ⟨u, hu, h2⟩ := h.ids id b hb
            exact ⟨u, hmono u hu, h2⟩
        · intro u id hu hou
          simp only []
          rw [AMap.get?_emplace]
          by_cases hid : vl ++ "_" ++ toString m = id
          · rw [if_pos ‹_›]; exact ⟨_, rfl⟩
          · rw [if_neg ‹_›]
            rcases (hin u).mp hu with hu | hu
            · exact h.full u id hu hou
            · exact absurd ((hob.conn hu).unique hou) hid
        · exact AMap.nodupKeys_emplace h.nodup _ _
      · rw [if_neg hq]
        have hno : ∀ u id, Conn g (Passing view opened retained) v u → ¬ OnBus vl g view (Passing view opened retained) u id := by
          intro u id hc ho
          exact hq (hval.mpr (ho.conn hc.symm).2.1)
        refine ⟨_, rfl, ⟨e2, h.lnode, hclosed, hon, ?_, ?_, ?_, h.nodup⟩, hvv, hmono⟩
        · intro u id
          simp only []
          rw [h.node, hin]
          constructor
          · rintro ⟨h1, h2⟩; exact ⟨Or.inl h1, h2⟩
          · rintro ⟨h1 | h1, h2⟩
            · exact ⟨h1, h2⟩
            · exact absurd h2 (hno u id h1)
        · intro id b hb
          obtain ⟨u, hu, h2⟩ := h.ids id b hb
          exact ⟨u, hmono u hu, h2⟩
        · intro u id hu hou
          rcases (hin u).mp hu with hu | hu
          · exact h.full u id hu hou
          · exact absurd hou (hno u id hu)

theorem edgeLoop_ok {vl : String} {g : Gr} (hg : Reached g) {view : View} {opened retained : Nat → Bool}
    (es : List (Edge Sw)) : ∀ (st : BSt), Inv vl g view (Passing view opened retained) st →
    (∀ ed ∈ es, OnEdge g ed.v1 ∧ OnEdge g ed.v2) →
    ∃ st', edgeLoop vl view g opened retained es st = .ok st' ∧ Inv vl g view (Passing view opened retained) st' ∧
      (∀ ed ∈ es, Enc st'.enc ed.v1 ∧ Enc st'.enc ed.v2) ∧ ∀ u, Enc st.enc u → Enc st'.enc u := by
  induction es with
  | nil => intro st h _; exact ⟨st, rfl, h, by simp, fun _ hu => hu⟩
  | cons ed es ih =>
    intro st h hes
    obtain ⟨k1, k2⟩ := hes ed (by simp)
    obtain ⟨st1, e1, i1, v1, m1⟩ := traverse_ok hg h k1
    obtain ⟨st2, e2, i2, v2, m2⟩ := traverse_ok hg i1 k2
    obtain ⟨st3, e3, i3, v3, m3⟩ := ih st2 i2 (fun x hx => hes x (List.mem_cons_of_mem _ hx))
    refine ⟨st3, ?_, i3, ?_, fun u hu => m3 u (m2 u (m1 u hu))⟩
    · unfold edgeLoop
      rw [e1, Out.bind_ok, e2, Out.bind_ok, e3]
    · intro x hx
      rcases List.mem_cons.mp hx with rfl | hx
      · exact ⟨m3 _ (m2 _ v1), m3 _ v2⟩
      · exact v3 x hx

/-- The outcome of the computation. -/
theorem compute_ok (vl : String) {g : Gr} (hg : Reached g) (view : View) (opened retained : Nat → Bool) :
    ∃ c, compute vl view g opened retained = .ok c ∧ c.byNode.length = g.vertices.length ∧
      (∀ (u : Nat) id, c.byNode[u]? = some (some id) ↔ OnBus vl g view (Passing view opened retained) u id) ∧
      (∀ id b, c.byId.get? id = some b → ∃ u, OnBus vl g view (Passing view opened retained) u id ∧
        BusOk g (Passing view opened retained) u b) ∧
      (∀ u id, OnBus vl g view (Passing view opened retained) u id → ∃ b, c.byId.get? id = some b) ∧
      AMap.NodupKeys c.byId := by
  have hE : ∀ u, ¬ Enc (List.replicate g.vertices.length false) u := by
    intro u hu
    unfold Enc at hu
    rw [List.getElem?_replicate] at hu
    split at hu <;> simp at hu
  have h0 : Inv vl g view (Passing view opened retained)
      ⟨List.replicate g.vertices.length false, ⟨List.replicate g.vertices.length none, []⟩⟩ := by
    refine ⟨by simp, by simp, fun u w hu => absurd hu (hE u), fun u hu => absurd hu (hE u), ?_, ?_,
      fun u id hu => absurd hu (hE u), AMap.nodupKeys_nil⟩
    · intro u id
      constructor
      · intro h
        simp only [List.getElem?_replicate] at h
        split at h <;> simp at h
      · rintro ⟨h, _⟩; exact absurd h (hE u)
    · intro id b h; simp at h
  have hmem : ∀ ed, ed ∈ g.edges.filterMap id ↔ ∃ e, g.edgeAt e = some ed := by
    intro ed
    rw [← mem_edges_iff]
    simp [List.mem_filterMap]
  obtain ⟨st, e1, i1, v1, _⟩ := edgeLoop_ok hg (g.edges.filterMap id) _ h0 (by
    intro ed hed
    obtain ⟨e, he⟩ := (hmem ed).mp hed
    exact ⟨⟨e, ed, he, Or.inl rfl⟩, ⟨e, ed, he, Or.inr rfl⟩⟩)
  have hon : ∀ u, OnEdge g u → Enc st.enc u := by
    rintro u ⟨e, ed, he, h⟩
    obtain ⟨k1, k2⟩ := v1 ed ((hmem ed).mpr ⟨e, he⟩)
    rcases h with rfl | rfl
    · exact k1
    · exact k2
  refine ⟨st.cache, ?_, i1.lnode, ?_, ?_, ?_, i1.nodup⟩
  · unfold compute; rw [e1]; rfl
  · intro u id
    rw [i1.node]
    exact ⟨fun h => h.2, fun h => ⟨hon u h.1, h⟩⟩
  · intro id b hb
    obtain ⟨u, _, h2, h3⟩ := i1.ids id b hb
    exact ⟨u, h2, h3⟩
  · intro u id h
    exact i1.full u id (hon u h.1) h

/-- The result depends on the live vertices and edges only, not on the adjacency cache. -/
theorem adjacency_unique {ν ε : Type} {g g' : G ν ε} (hg : WF g) (hg' : WF g') (hv : g'.vertices = g.vertices) (he : g'.edges = g.edges) :
    g'.adjacency = g.adjacency := by
  obtain ⟨l, e1, a1⟩ := adjacency_ok hg
  obtain ⟨l', e2, a2⟩ := adjacency_ok hg'
  rw [e1, e2]
  congr 1
  apply List.ext_getElem
  · rw [a1.1, a2.1, hv]
  · intro i h1 h2
    rw [a2.2 i _ (List.getElem?_eq_getElem h1), a1.2 i _ (List.getElem?_eq_getElem h2), he]

end Verif.NodeBreaker
