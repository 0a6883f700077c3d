import Verif.BusBreaker.Spec
import Verif.NodeBreaker.Congr

/-! Helper lemmas on the computation of merged buses. -/

namespace Verif.BusBreaker

open Verif Verif.Graph
open Verif.NodeBreaker (EqType Conn Branchy Conn.trans Conn.symm Conn.live reach_iff_conn name_inj)

theorem accept_iff {g : BGr} {opened : Nat → Bool} (a e b : Nat) (ed : Edge BSw) (he : g.edgeAt e = some ed) :
    accept g opened a e b = true ↔ Closed opened ed.obj := by
  unfold accept
  rw [he]
  simp only []
  cases ed.obj with
  | none => simp [Closed]
  | some s => simp [Closed]

theorem Qualifies.linked {g : BGr} {opened : Nat → Bool} {types : Nat → List EqType} {u v : Nat}
    (h : Qualifies g opened types u) (hl : Linked g opened u v) : Qualifies g opened types v := by
  obtain ⟨x, b, t, h1, h2⟩ := h
  exact ⟨x, b, t, Conn.trans (Conn.symm hl) h1, h2⟩

/-! ### Resizing -/

theorem resize_length (l : List Bool) (n : Nat) : (resize l n).length = n := by
  unfold resize; simp [List.length_take]; omega

theorem traverse_resize (g : BGr) (acc : Nat → Nat → Nat → Bool) (v : Nat) (enc : List Bool) :
    g.traverse acc v (resize enc g.vertices.length) = g.traverse acc v enc := by
  unfold G.traverse
  split
  · rfl
  · congr 1
    funext adj
    unfold traverseRec
    simp only []
    rw [NodeBreaker_resize]
where
  NodeBreaker_resize : resize (resize enc g.vertices.length) g.vertices.length = resize enc g.vertices.length :=
    resize_self (resize_length _ _)

theorem resize_replicate {k n : Nat} (h : k ≤ n) : resize (List.replicate k false) n = List.replicate n false := by
  unfold resize
  rw [List.take_of_length_le (by simpa using h), List.length_replicate, List.replicate_append_replicate]
  congr 1; omega

/-! ### The content of a class -/

theorem busesAt_ok {g : BGr} : ∀ (vs : List Nat), (∀ v ∈ vs, ∃ b, BusAt g v b) →
    ∃ bs, busesAt g vs = .ok bs ∧ ∀ b, b ∈ bs ↔ ∃ v ∈ vs, BusAt g v b
  | [], _ => ⟨[], rfl, by simp⟩
  | v :: vs, h => by
    obtain ⟨b, hb⟩ := h v (by simp)
    obtain ⟨bs, e, m⟩ := busesAt_ok vs (fun x hx => h x (List.mem_cons_of_mem _ hx))
    refine ⟨b :: bs, ?_, ?_⟩
    · unfold busesAt
      unfold BusAt at hb
      rw [hb, e]; rfl
    · intro b'
      rw [List.mem_cons, m]
      constructor
      · rintro (rfl | ⟨x, hx, hx'⟩)
        · exact ⟨v, by simp, hb⟩
        · exact ⟨x, List.mem_cons_of_mem _ hx, hx'⟩
      · rintro ⟨x, hx, hx'⟩
        rcases List.mem_cons.mp hx with rfl | hx
        · unfold BusAt at hb hx'
          rw [hb] at hx'; exact Or.inl (Option.some.inj (Option.some.inj hx')).symm
        · exact Or.inr ⟨x, hx, hx'⟩

theorem busesAt_nodup {g : BGr} (hf : Furnished g) : ∀ (vs : List Nat) (bs : List CBus), vs.Nodup → busesAt g vs = .ok bs →
    (∀ b, b ∈ bs → ∃ v ∈ vs, BusAt g v b) → (bs.map CBus.handle).Nodup
  | [], bs, _, h, _ => by unfold busesAt at h; cases h; simp
  | v :: vs, bs, hn, h, hm => by
    unfold busesAt at h
    cases hv : g.vertexAt v with
    | none => rw [hv] at h; cases h
    | some o =>
      cases o with
      | none => rw [hv] at h; cases h
      | some b =>
        rw [hv] at h
        simp only [] at h
        cases hr : busesAt g vs with
        | thrown => rw [hr] at h; cases h
        | ub => rw [hr] at h; cases h
        | ok bs' =>
          rw [hr] at h
          have : bs = b :: bs' := (Out.ok.inj h).symm
          subst this
          obtain ⟨h1, h2⟩ := List.nodup_cons.mp hn
          have hm' : ∀ b', b' ∈ bs' → ∃ x ∈ vs, BusAt g x b' := by
            obtain ⟨bs2, e2, m2⟩ := busesAt_ok (g := g) vs (by
              intro x hx
              have : ∀ (vs : List Nat) (bs : List CBus), busesAt g vs = .ok bs → ∀ x ∈ vs, ∃ b, BusAt g x b := by
                intro vs
                induction vs with
                | nil => intro _ _ x hx; cases hx
                | cons y ys ih =>
                  intro bs hbs x hx
                  unfold busesAt at hbs
                  cases hy : g.vertexAt y with
                  | none => rw [hy] at hbs; cases hbs
                  | some o =>
                    cases o with
                    | none => rw [hy] at hbs; cases hbs
                    | some b =>
                      rw [hy] at hbs
                      rcases List.mem_cons.mp hx with rfl | hx
                      · exact ⟨b, hy⟩
                      · simp only [] at hbs
                        cases hr : busesAt g ys with
                        | thrown => rw [hr] at hbs; cases hbs
                        | ub => rw [hr] at hbs; cases hbs
                        | ok l => exact ih l hr x hx
              exact this vs bs' hr x hx)
            rw [hr] at e2; cases e2
            exact fun b' hb' => (m2 b').mp hb'
          rw [List.map_cons, List.nodup_cons]
          refine ⟨?_, busesAt_nodup hf vs bs' h2 hr hm'⟩
          rw [List.mem_map]
          rintro ⟨b', hb', he⟩
          obtain ⟨x, hx, hx'⟩ := hm' b' hb'
          have := hf.handles x v b' b hx' hv he
          subst this; exact h1 hx

theorem branchCount_ok : ∀ (ts : List EqType), EqType.busbarSection ∉ ts →
    ∃ n, branchCount ts = .ok n ∧ (1 ≤ n ↔ ∃ t ∈ ts, Branchy t)
  | [], _ => ⟨0, rfl, by simp⟩
  | t :: ts, h => by
    obtain ⟨n, e, m⟩ := branchCount_ok ts (fun hh => h (List.mem_cons_of_mem _ hh))
    have hb : Branchy t ∨ ¬ Branchy t := Classical.em _
    have key : ∀ k, (1 ≤ k ↔ Branchy t ∨ ∃ t' ∈ ts, Branchy t') → (1 ≤ k ↔ ∃ t' ∈ t :: ts, Branchy t') := by
      intro k hk; rw [hk]; simp
    have ht : t ≠ .busbarSection := fun hh => h (by rw [hh]; simp)
    unfold branchCount
    cases t <;> rw [e] <;> first
      | exact absurd rfl ht
      | exact ⟨n + 1, rfl, key _ ⟨fun _ => Or.inl (by simp [Branchy]), fun _ => by omega⟩⟩
      | exact ⟨n, rfl, key _ ⟨fun hh => Or.inr (m.mp hh), fun hh => m.mpr (hh.resolve_left (by simp [Branchy]))⟩⟩

theorem isBusValid_ok {types : Nat → List EqType} (hn : NoBusbar types) (bs : List CBus) :
    ∃ ok, isBusValid types bs = .ok ok ∧ (ok = true ↔ ∃ b ∈ bs, ∃ t ∈ types b.handle, Branchy t) := by
  obtain ⟨n, e, m⟩ := branchCount_ok (bs.flatMap (fun b => types b.handle)) (by
    rw [List.mem_flatMap]; rintro ⟨b, _, hb⟩; exact hn _ hb)
  refine ⟨decide (1 ≤ n), by unfold isBusValid; rw [e]; rfl, ?_⟩
  rw [decide_eq_true_eq, m]
  constructor
  · rintro ⟨t, h1, h2⟩
    obtain ⟨b, h3, h4⟩ := List.mem_flatMap.mp h1
    exact ⟨b, h3, t, h4, h2⟩
  · rintro ⟨b, h3, t, h4, h2⟩
    exact ⟨t, List.mem_flatMap.mpr ⟨b, h3, h4⟩, h2⟩

theorem mapAll_get (id : String) (bs : List CBus) : ∀ (m : AMap Nat String) (h : Nat),
    AMap.get? (mapAll id bs m) h = match m.get? h with
      | some x => some x
      | none => if h ∈ bs.map CBus.handle then some id else none := by
  induction bs with
  | nil => intro m h; unfold mapAll; cases m.get? h <;> simp
  | cons b bs ih =>
    intro m h
    unfold mapAll
    rw [ih, AMap.get?_emplace]
    by_cases hb : b.handle = h
    · subst hb
      rw [if_pos rfl]
      cases m.get? b.handle <;> simp
    · rw [if_neg hb]
      cases m.get? h with
      | some x => rfl
      | none => simp [Ne.symm hb]

/-! ### The loop -/

/-- The list of handles is the class of the vertex. -/
def ClassOf (g : BGr) (opened : Nat → Bool) (u : Nat) (hs : List Nat) : Prop :=
  hs.Nodup ∧ ∀ h, h ∈ hs ↔ ∃ x b, Linked g opened u x ∧ BusAt g x b ∧ b.handle = h

structure Inv (vl : String) (g : BGr) (opened : Nat → Bool) (types : Nat → List EqType) (st : BSt) : Prop where
  lenc : st.enc.length = g.vertices.length
  closed : ∀ u w, Enc st.enc u → Linked g opened u w → Enc st.enc w
  live : ∀ u, Enc st.enc u → g.vertexAt u ≠ none
  keys : st.cache.byId.map Prod.fst = (List.range st.count).map (mergedId vl)
  lists : ∀ id hs, st.cache.byId.get? id = some hs → (∀ h, h ∈ hs ↔ st.cache.byBus.get? h = some id) ∧
    ∃ u, Enc st.enc u ∧ Qualifies g opened types u ∧ ClassOf g opened u hs
  listed : ∀ h id, st.cache.byBus.get? h = some id → ∃ hs, st.cache.byId.get? id = some hs
  full : ∀ u b, Enc st.enc u → BusAt g u b → Qualifies g opened types u → ∃ id, st.cache.byBus.get? b.handle = some id

theorem mergedId_inj {vl : String} {i j : Nat} (h : mergedId vl i = mergedId vl j) : i = j := name_inj h

theorem get?_none_of_keys {m : AMap String (List Nat)} {vl : String} {n : Nat}
    (h : m.map Prod.fst = (List.range n).map (mergedId vl)) : m.get? (mergedId vl n) = none := by
  rw [AMap.get?_eq_none_iff, h, List.mem_map]
  rintro ⟨i, h1, h2⟩
  rw [mergedId_inj h2, List.mem_range] at h1
  exact Nat.lt_irrefl _ h1

theorem visit_ok {vl : String} {g : BGr} (hg : Reached g) (hf : Furnished g) {opened : Nat → Bool}
    {types : Nat → List EqType} (hn : NoBusbar types) {st : BSt} (h : Inv vl g opened types st) {v : Nat}
    (hv : g.vertexAt v ≠ none) :
    ∃ st', visit vl g opened types v st = .ok st' ∧ Inv vl g opened types st' ∧ Enc st'.enc v ∧
      ∀ u, Enc st.enc u → Enc st'.enc u := by
  have hwf := hg.wf
  have hlt : v < st.enc.length := by rw [h.lenc]; exact vertexAt_lt hv
  unfold visit
  cases hb : st.enc[v]? with
  | none => rw [List.getElem?_eq_none_iff] at hb; omega
  | some b =>
    cases b with
    | true => exact ⟨st, rfl, h, hb, fun _ hu => hu⟩
    | false =>
      have hnv : ¬ Enc st.enc v := by unfold Enc; rw [hb]; simp
      have hex : g.vertexExists v = true := Option.isSome_iff_ne_none.mpr hv
      obtain ⟨t, e1, e2, e3⟩ := traverse_visits_reachable hg (accept g opened) hex h.lenc
      obtain ⟨_, c2, c3, _⟩ := traverse_calls hg (accept g opened) hex h.lenc e1
      have hreach := fun u => reach_iff_conn (P := Closed opened) (fun a e b ed => accept_iff a e b ed) hnv h.closed u
      have hin : ∀ u, Enc t.enc u ↔ Enc st.enc u ∨ Linked g opened v u := by
        intro u; rw [e3, hreach]; rfl
      have hdis : ∀ u, Linked g opened v u → ¬ Enc st.enc u :=
        fun u hc hu => hnv (h.closed u v hu (Conn.symm hc))
      have hnodes : ∀ x, x ∈ v :: ((t.log.filter Call.go).map Call.dst) ↔ Linked g opened v x := by
        intro x
        rw [List.mem_cons, c3, hin]
        constructor
        · rintro (rfl | ⟨h1 | h1, h2, _⟩)
          · exact .refl
          · exact absurd h1 h2
          · exact h1
        · intro hc
          by_cases hx : x = v
          · exact Or.inl hx
          · exact Or.inr ⟨Or.inr hc, hdis x hc, hx⟩
      have hnd : (v :: ((t.log.filter Call.go).map Call.dst)).Nodup := by
        rw [List.nodup_cons]
        refine ⟨?_, c2⟩
        rw [c3]; rintro ⟨_, _, h3⟩; exact h3 rfl
      rw [e1]
      simp only [Out.bind_ok]
      generalize hN : v :: ((t.log.filter Call.go).map Call.dst) = N at hnodes hnd
      have hlive : ∀ x, Linked g opened v x → g.vertexAt x ≠ none := fun x hx => Conn.live hwf hx hv
      obtain ⟨bs, b1, b2⟩ := busesAt_ok (g := g) N (fun x hx => hf.bus x (hlive x ((hnodes x).mp hx)))
      have b3 := busesAt_nodup hf N bs hnd b1 (fun b hb => (b2 b).mp hb)
      obtain ⟨ok, k1, k2⟩ := isBusValid_ok hn bs
      rw [b1, Out.bind_ok, k1, Out.bind_ok]
      have hcls : ClassOf g opened v (bs.map CBus.handle) := by
        refine ⟨b3, fun x => ?_⟩
        rw [List.mem_map]
        constructor
        · rintro ⟨b, hb1, hb2⟩
          obtain ⟨y, hy, hy'⟩ := (b2 b).mp hb1
          exact ⟨y, b, (hnodes y).mp hy, hy', hb2⟩
        · rintro ⟨y, b, hy, hy', hb2⟩
          exact ⟨b, (b2 b).mpr ⟨y, (hnodes y).mpr hy, hy'⟩, hb2⟩
      have hqual : ok = true ↔ Qualifies g opened types v := by
        rw [k2]
        constructor
        · rintro ⟨b, hb1, t', hb2, hb3⟩
          obtain ⟨y, hy, hy'⟩ := (b2 b).mp hb1
          exact ⟨y, b, t', (hnodes y).mp hy, hy', hb2, hb3⟩
        · rintro ⟨y, b, t', hy, hy', hb2, hb3⟩
          exact ⟨b, (b2 b).mpr ⟨y, (hnodes y).mpr hy, hy'⟩, t', hb2, hb3⟩
      have hclosed : ∀ u w, Enc t.enc u → Linked g opened u w → Enc t.enc w := by
        intro u w hu hc
        rcases (hin u).mp hu with hu | hu
        · exact (hin w).mpr (Or.inl (h.closed u w hu hc))
        · exact (hin w).mpr (Or.inr (Conn.trans hu hc))
      have hliv : ∀ u, Enc t.enc u → g.vertexAt u ≠ none := by
        intro u hu
        rcases (hin u).mp hu with hu | hu
        · exact h.live u hu
        · exact hlive u hu
      have hvv : Enc t.enc v := (hin v).mpr (Or.inr .refl)
      have hmono : ∀ u, Enc st.enc u → Enc t.enc u := fun u hu => (hin u).mpr (Or.inl hu)
      by_cases hok : ok = true
      · rw [if_pos hok]
        have hQ := hqual.mp hok
        have hfreshId := get?_none_of_keys h.keys
        -- none of the new handles is mapped
        have hnew : ∀ x, x ∈ bs.map CBus.handle → st.cache.byBus.get? x = none := by
          intro x hx
          cases hgx : st.cache.byBus.get? x with
          | none => rfl
          | some id =>
            obtain ⟨hs, hhs⟩ := h.listed x id hgx
            obtain ⟨q1, u, q2, _, q3⟩ := h.lists id hs hhs
            obtain ⟨y, b, y1, y2, y3⟩ := (q3.2 x).mp ((q1 x).mpr hgx)
            obtain ⟨z, b', z1, z2, z3⟩ := (hcls.2 x).mp hx
            have := hf.handles y z b b' y2 z2 (y3.trans z3.symm)
            subst this
            exact absurd (h.closed u y q2 y1) (hdis y z1)
        have hbb : ∀ x, AMap.get? (mapAll (mergedId vl st.count) bs st.cache.byBus) x =
            if x ∈ bs.map CBus.handle then some (mergedId vl st.count) else st.cache.byBus.get? x := by
          intro x
          rw [mapAll_get]
          by_cases hx : x ∈ bs.map CBus.handle
          · rw [hnew x hx]
          · cases st.cache.byBus.get? x <;> simp [hx]
        have hid : ∀ id, AMap.get? (AMap.emplace st.cache.byId (mergedId vl st.count) (bs.map CBus.handle)) id =
            if mergedId vl st.count = id then some (bs.map CBus.handle) else st.cache.byId.get? id := by
          intro id
          rw [AMap.get?_emplace, hfreshId]; rfl
        refine ⟨_, rfl, ⟨e2, hclosed, hliv, ?_, ?_, ?_, ?_⟩, hvv, hmono⟩
        · simp only []
          unfold AMap.emplace
          rw [hfreshId]
          simp only []
          rw [List.map_append, h.keys, List.range_succ, List.map_append]; rfl
        · intro id hs hhs
          simp only [] at hhs ⊢
          rw [hid] at hhs
          by_cases hi : mergedId vl st.count = id
          · rw [if_pos hi] at hhs
            have : hs = bs.map CBus.handle := (Option.some.inj hhs).symm
            subst this; subst hi
            refine ⟨fun x => ?_, v, hvv, hQ, hcls⟩
            rw [hbb]
            by_cases hx : x ∈ bs.map CBus.handle
            · rw [if_pos hx]; exact ⟨fun _ => rfl, fun _ => hx⟩
            · rw [if_neg hx]
              refine ⟨fun hh => absurd hh hx, fun hh => ?_⟩
              obtain ⟨hs', hhs'⟩ := h.listed _ _ hh
              rw [hfreshId] at hhs'; cases hhs'
          · rw [if_neg hi] at hhs
            obtain ⟨q1, u, q2, q3⟩ := h.lists id hs hhs
            refine ⟨fun x => ?_, u, hmono u q2, q3⟩
            rw [hbb]
            by_cases hx : x ∈ bs.map CBus.handle
            · rw [if_pos hx, q1, hnew x hx]
              constructor
              · intro hh; cases hh
              · intro hh; exact absurd (Option.some.inj hh) hi
            · rw [if_neg hx]; exact q1 x
        · intro x id hx
          simp only [] at hx ⊢
          rw [hbb] at hx
          rw [hid]
          by_cases hxm : x ∈ bs.map CBus.handle
          · rw [if_pos hxm] at hx
            rw [if_pos (Option.some.inj hx)]; exact ⟨_, rfl⟩
          · rw [if_neg hxm] at hx
            obtain ⟨hs, hhs⟩ := h.listed x id hx
            by_cases hi : mergedId vl st.count = id
            · rw [if_pos hi]; exact ⟨_, rfl⟩
            · rw [if_neg hi]; exact ⟨hs, hhs⟩
        · intro u b hu hub hq
          simp only []
          rw [hbb]
          by_cases hxm : b.handle ∈ bs.map CBus.handle
          · rw [if_pos hxm]; exact ⟨_, rfl⟩
          · rw [if_neg hxm]
            rcases (hin u).mp hu with hu | hu
            · exact h.full u b hu hub hq
            · exact absurd ((hcls.2 _).mpr ⟨u, b, hu, hub, rfl⟩) hxm
      · rw [if_neg hok]
        refine ⟨_, rfl, ⟨e2, hclosed, hliv, h.keys, ?_, h.listed, ?_⟩, hvv, hmono⟩
        · intro id hs hhs
          obtain ⟨q1, u, q2, q3⟩ := h.lists id hs hhs
          exact ⟨q1, u, hmono u q2, q3⟩
        · intro u b hu hub hq
          rcases (hin u).mp hu with hu | hu
          · exact h.full u b hu hub hq
          · exact absurd (hqual.mpr (hq.linked (Conn.symm hu))) hok

theorem visitAll_ok {vl : String} {g : BGr} (hg : Reached g) (hf : Furnished g) {opened : Nat → Bool}
    {types : Nat → List EqType} (hn : NoBusbar types) : ∀ (vs : List Nat) (st : BSt), Inv vl g opened types st →
    (∀ v ∈ vs, g.vertexAt v ≠ none) →
    ∃ st', visitAll vl g opened types vs st = .ok st' ∧ Inv vl g opened types st' ∧ (∀ v ∈ vs, Enc st'.enc v) ∧
      ∀ u, Enc st.enc u → Enc st'.enc u
  | [], st, h, _ => ⟨st, rfl, h, by simp, fun _ hu => hu⟩
  | v :: vs, st, h, hvs => by
    obtain ⟨st1, e1, i1, v1, m1⟩ := visit_ok hg hf hn h (hvs v (by simp))
    obtain ⟨st2, e2, i2, v2, m2⟩ := visitAll_ok hg hf hn vs st1 i1 (fun x hx => hvs x (List.mem_cons_of_mem _ hx))
    refine ⟨st2, ?_, i2, ?_, fun u hu => m2 u (m1 u hu)⟩
    · unfold visitAll; rw [e1, Out.bind_ok, e2]
    · intro x hx
      rcases List.mem_cons.mp hx with rfl | hx
      · exact m2 _ v1
      · exact v2 x hx

theorem not_enc_replicate (n u : Nat) : ¬ Enc (List.replicate n false) u := by
  intro hu
  unfold Enc at hu
  rw [List.getElem?_replicate] at hu
  split at hu <;> simp at hu

theorem inv_init (vl : String) (g : BGr) (opened : Nat → Bool) (types : Nat → List EqType) :
    Inv vl g opened types ⟨List.replicate g.vertices.length false, 0, {}⟩ := by
  refine ⟨by simp, fun u w hu => absurd hu (not_enc_replicate _ u), fun u hu => absurd hu (not_enc_replicate _ u), rfl, ?_, ?_,
    fun u b hu => absurd hu (not_enc_replicate _ u)⟩
  · intro id hs h; simp at h
  · intro x id h; simp at h

theorem mem_liveVertices {g : BGr} {v : Nat} : v ∈ liveVertices g ↔ g.vertexAt v ≠ none := by
  unfold liveVertices
  rw [List.mem_filter, List.mem_range]
  unfold G.vertexExists
  rw [Option.isSome_iff_ne_none]
  exact ⟨fun h => h.2, fun h => ⟨vertexAt_lt h, h⟩⟩

theorem liveVertices_sorted (g : BGr) : (liveVertices g).Pairwise (· < ·) :=
  List.Pairwise.filter _ List.pairwise_lt_range

theorem vertexCount_le (g : BGr) : g.vertexCount ≤ g.vertices.length := by unfold G.vertexCount; omega

/-- With the vector of the right size. -/
theorem visitAll_full {vl : String} {g : BGr} (hg : Reached g) (hf : Furnished g) (opened : Nat → Bool)
    {types : Nat → List EqType} (hn : NoBusbar types) :
    ∃ st, visitAll vl g opened types (liveVertices g) ⟨List.replicate g.vertices.length false, 0, {}⟩ = .ok st ∧
      Inv vl g opened types st ∧ ∀ v, g.vertexAt v ≠ none → Enc st.enc v := by
  obtain ⟨st, h1, h2, h3, _⟩ := visitAll_ok hg hf hn (liveVertices g) _ (inv_init vl g opened types)
    (fun v hv => mem_liveVertices.mp hv)
  exact ⟨st, h1, h2, fun v hv => h3 v (mem_liveVertices.mpr hv)⟩

/-- The computation with the vector of the code. -/
theorem compute_cases {vl : String} {g : BGr} (hg : Reached g) (hf : Furnished g) (opened : Nat → Bool)
    {types : Nat → List EqType} (hn : NoBusbar types) :
    (Gap g ∧ compute vl g opened types = .ub) ∨
    (¬ Gap g ∧ ∃ st, compute vl g opened types = .ok st.cache ∧ Inv vl g opened types st ∧
      ∀ v, g.vertexAt v ≠ none → Enc st.enc v) := by
  obtain ⟨st, h1, h2, h3⟩ := visitAll_full (vl := vl) hg hf opened hn
  unfold compute
  cases hl : liveVertices g with
  | nil =>
    right
    have hno : ∀ v, g.vertexAt v = none := by
      intro v
      cases h : g.vertexAt v with
      | none => rfl
      | some o =>
        have : v ∈ liveVertices g := mem_liveVertices.mpr (by rw [h]; simp)
        rw [hl] at this; cases this
    refine ⟨?_, st, ?_, h2, h3⟩
    · rintro ⟨v, hv, _⟩; exact hv (hno v)
    · rw [hl] at h1
      have : st = ⟨List.replicate g.vertices.length false, 0, {}⟩ := (Out.ok.inj h1).symm
      rw [this]; rfl
  | cons v vs =>
    have hv : g.vertexAt v ≠ none := mem_liveVertices.mp (by rw [hl]; simp)
    have hmin : ∀ u, g.vertexAt u ≠ none → v ≤ u := by
      intro u hu
      have := mem_liveVertices.mpr hu
      rw [hl] at this
      have hs := liveVertices_sorted g
      rw [hl] at hs
      rcases List.mem_cons.mp this with rfl | hm
      · exact Nat.le_refl _
      · exact Nat.le_of_lt ((List.pairwise_cons.mp hs).1 u hm)
    by_cases hlt : v < g.vertexCount
    · right
      refine ⟨?_, st, ?_, h2, h3⟩
      · rintro ⟨x, hx, hx', hx''⟩
        have := hx' v hv
        omega
      · rw [hl] at h1
        have hsame : visit vl g opened types v ⟨List.replicate g.vertexCount false, 0, {}⟩ =
            visit vl g opened types v ⟨List.replicate g.vertices.length false, 0, {}⟩ := by
          unfold visit
          have a1 : (List.replicate g.vertexCount false)[v]? = some false := by
            rw [List.getElem?_replicate, if_pos hlt]
          have a2 : (List.replicate g.vertices.length false)[v]? = some false := by
            rw [List.getElem?_replicate, if_pos (Nat.lt_of_lt_of_le hlt (vertexCount_le g))]
          simp only [a1, a2]
          rw [← traverse_resize g _ v (List.replicate g.vertexCount false), resize_replicate (vertexCount_le g)]
        unfold visitAll at h1 ⊢
        rw [hsame, h1]; rfl
    · left
      refine ⟨⟨v, hv, hmin, by omega⟩, ?_⟩
      unfold visitAll visit
      have a1 : (List.replicate g.vertexCount false)[v]? = none := by
        rw [List.getElem?_replicate, if_neg hlt]
      simp only [a1]; rfl

theorem Inv.correct {vl : String} {g : BGr} (hf : Furnished g) {opened : Nat → Bool}
    {types : Nat → List EqType} {st : BSt} (h : Inv vl g opened types st)
    (hall : ∀ v, g.vertexAt v ≠ none → Enc st.enc v) : Correct g opened types st.cache := by
  have hdec : ∀ x id, st.cache.byBus.get? x = some id → ∃ u hs, st.cache.byId.get? id = some hs ∧
      (∀ h, h ∈ hs ↔ st.cache.byBus.get? h = some id) ∧ Qualifies g opened types u ∧ ClassOf g opened u hs := by
    intro x id hx
    obtain ⟨hs, hhs⟩ := h.listed x id hx
    obtain ⟨q1, u, _, q3, q4⟩ := h.lists id hs hhs
    exact ⟨u, hs, hhs, q1, q3, q4⟩
  refine ⟨?_, ?_, h.listed, ?_, ?_⟩
  · intro u v b b' hu hv
    constructor
    · rintro ⟨id, k1, k2⟩
      obtain ⟨r, hs, _, q1, q2, q3⟩ := hdec _ _ k1
      obtain ⟨x, c, x1, x2, x3⟩ := (q3.2 _).mp ((q1 _).mpr k1)
      obtain ⟨y, d, y1, y2, y3⟩ := (q3.2 _).mp ((q1 _).mpr k2)
      have := hf.handles x u c b x2 hu x3
      subst this
      have := hf.handles y v d b' y2 hv y3
      subst this
      exact ⟨q2.linked x1, Conn.trans (Conn.symm x1) y1⟩
    · rintro ⟨hq, hl⟩
      obtain ⟨id, k1⟩ := h.full u b (hall u (by rw [hu]; simp)) hu hq
      obtain ⟨r, hs, _, q1, q2, q3⟩ := hdec _ _ k1
      obtain ⟨x, c, x1, x2, x3⟩ := (q3.2 _).mp ((q1 _).mpr k1)
      have := hf.handles x u c b x2 hu x3
      subst this
      exact ⟨id, k1, (q1 _).mp ((q3.2 _).mpr ⟨v, b', Conn.trans x1 hl, hv, rfl⟩)⟩
  · intro x id hx
    obtain ⟨r, hs, _, q1, q2, q3⟩ := hdec _ _ hx
    obtain ⟨y, c, _, x2, x3⟩ := (q3.2 _).mp ((q1 _).mpr hx)
    exact ⟨y, c, x2, x3⟩
  · intro id hs hhs
    obtain ⟨q1, u, q2, q3, q4⟩ := h.lists id hs hhs
    refine ⟨?_, q4.1, q1⟩
    obtain ⟨b, hb⟩ := hf.bus u (h.live u q2)
    intro hh
    have : b.handle ∈ hs := (q4.2 _).mpr ⟨u, b, .refl, hb, rfl⟩
    rw [hh] at this; cases this
  · rw [h.keys]
    unfold List.Nodup
    rw [List.pairwise_map]
    exact List.Pairwise.imp (fun {a b} hne he => hne (mergedId_inj he)) List.nodup_range

end Verif.BusBreaker
