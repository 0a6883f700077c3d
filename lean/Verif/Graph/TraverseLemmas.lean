import Verif.Graph.Search
import Verif.Graph.Props

/-! Helper lemmas on traversals. -/

namespace Verif.Graph

open Verif

variable {ν ε : Type}

/-- The edge joins the two vertices. -/
def Joins (ed : Edge ε) (u w : Nat) : Prop := (ed.v1 = u ∧ ed.v2 = w) ∨ (ed.v2 = u ∧ ed.v1 = w)

/-- A step of the traversal: an edge accepted by the callback. -/
def StepR (g : G ν ε) (acc : Nat → Nat → Nat → Bool) (u w : Nat) : Prop :=
  ∃ e ed, g.edgeAt e = some ed ∧ Joins ed u w ∧ acc u e w = true

/-- Reachability from `v` by steps that enter no vertex of `M`. -/
inductive Reach (R : Nat → Nat → Prop) (M : Nat → Prop) (v : Nat) : Nat → Prop
  | refl : Reach R M v v
  | step {u w} : Reach R M v u → R u w → ¬ M w → Reach R M v w

theorem Reach.mono {R : Nat → Nat → Prop} {M M' : Nat → Prop} {v u : Nat} (h : Reach R M v u)
    (hm : ∀ x, M' x → M x) : Reach R M' v u := by
  induction h with
  | refl => exact .refl
  | step _ h2 h3 ih => exact .step ih h2 (fun hh => h3 (hm _ hh))

theorem Reach.trans {R : Nat → Nat → Prop} {M : Nat → Prop} {v w u : Nat} (h1 : Reach R M v w) (h2 : Reach R M w u) :
    Reach R M v u := by
  induction h2 with
  | refl => exact h1
  | step _ h3 h4 ih => exact .step ih h3 h4

/-- `encountered[u]` is set. -/
def TSt.M (st : TSt) (u : Nat) : Prop := st.enc[u]? = some true

theorem M_mark {st : TSt} {v u : Nat} (hv : v < st.enc.length) : (st.mark v).M u ↔ u = v ∨ st.M u := by
  unfold TSt.M TSt.mark
  simp only []
  rw [List.getElem?_set]
  by_cases h : v = u
  · subst h; simp [hv]
  · simp [h, Ne.symm h]

theorem M_call {st : TSt} {a e b : Nat} {c : Bool} {u : Nat} : (st.call a e b c).M u ↔ st.M u := Iff.rfl

theorem len_mark (st : TSt) (v : Nat) : (st.mark v).enc.length = st.enc.length := by simp [TSt.mark]

theorem count_mark {st : TSt} {v : Nat} (hv : v < st.enc.length) (hf : ¬ st.M v) :
    (st.mark v).enc.count false + 1 = st.enc.count false := by
  have e : st.enc[v] = false := by
    unfold TSt.M at hf
    rw [List.getElem?_eq_getElem hv] at hf
    cases h : st.enc[v] with
    | false => rfl
    | true => rw [h] at hf; exact absurd rfl hf
  unfold TSt.mark
  simp only []
  rw [List.count_set hv]
  have hpos : 0 < st.enc.count false := List.count_pos_iff.mpr (by rw [← e]; exact List.getElem_mem hv)
  simp [e]
  omega

/-- The other end is marked, or the callback was asked. -/
def Asked (acc : Nat → Nat → Nat → Bool) (st : TSt) (u e w : Nat) : Prop := st.M w ∨ (⟨u, e, w, acc u e w⟩ : Call) ∈ st.log

theorem Asked.mono {acc : Nat → Nat → Nat → Bool} {st st' : TSt} {u e w : Nat} (h : Asked acc st u e w)
    (hm : ∀ u, st.M u → st'.M u) (hl : ∃ calls, st'.log = st.log ++ calls) : Asked acc st' u e w := by
  rcases h with h | h
  · exact Or.inl (hm _ h)
  · obtain ⟨calls, hl⟩ := hl
    exact Or.inr (by rw [hl]; exact List.mem_append_left _ h)

/-- What the part of the traversal done at `v` over the edges `es` does. -/
structure Post (g : G ν ε) (acc : Nat → Nat → Nat → Bool) (v : Nat) (es : List Nat) (st st' : TSt) : Prop where
  len : st'.enc.length = st.enc.length
  mono : ∀ u, st.M u → st'.M u
  reach : ∀ u, st'.M u → ¬ st.M u → Reach (StepR g acc) st.M v u
  closed : ∀ u, st'.M u → ¬ st.M u → ∀ w, StepR g acc u w → st'.M w
  here : ∀ e ∈ es, ∀ ed, g.edgeAt e = some ed → ∀ w, Joins ed v w → acc v e w = true → st'.M w
  cnt : st'.enc.count false ≤ st.enc.count false
  log : ∃ calls, st'.log = st.log ++ calls ∧
    (∀ c ∈ calls, (∃ ed, g.edgeAt c.edge = some ed ∧ Joins ed c.src c.dst) ∧ c.go = acc c.src c.edge c.dst ∧
      (c.src = v ∨ (st'.M c.src ∧ ¬ st.M c.src)) ∧ ¬ st.M c.dst) ∧
    (((calls.filter Call.go).map Call.dst).Nodup) ∧
    (∀ u, u ∈ (calls.filter Call.go).map Call.dst ↔ st'.M u ∧ ¬ st.M u)
  askedHere : ∀ e ∈ es, ∀ ed, g.edgeAt e = some ed → ∀ w, Joins ed v w → Asked acc st' v e w
  asked : ∀ u, st'.M u → ¬ st.M u → ∀ e ed, g.edgeAt e = some ed → ∀ w, Joins ed u w → Asked acc st' u e w

theorem Post.skip {g : G ν ε} {acc : Nat → Nat → Nat → Bool} {v e : Nat} {es : List Nat} {st st' : TSt}
    (h : Post g acc v es st st')
    (hh : ∀ ed, g.edgeAt e = some ed → ∀ w, Joins ed v w → acc v e w = true → st'.M w)
    (ha : ∀ ed, g.edgeAt e = some ed → ∀ w, Joins ed v w → Asked acc st' v e w) :
    Post g acc v (e :: es) st st' := by
  refine ⟨h.len, h.mono, h.reach, h.closed, ?_, h.cnt, h.log, ?_, h.asked⟩
  · intro e' he'
    rcases List.mem_cons.mp he' with rfl | he'
    · exact hh
    · exact h.here e' he'
  · intro e' he'
    rcases List.mem_cons.mp he' with rfl | he'
    · exact ha
    · exact h.askedHere e' he'

/-- A refused call before the rest. -/
theorem Post.refused {g : G ν ε} {acc : Nat → Nat → Nat → Bool} {v e w : Nat} {ed : Edge ε} {es : List Nat} {st st' : TSt}
    (hed : g.edgeAt e = some ed) (hj : Joins ed v w) (hw : ¬ st.M w) (hacc : acc v e w = false)
    (huniq : ∀ w', Joins ed v w' → w' = w)
    (h : Post g acc v es (st.call v e w false) st') : Post g acc v (e :: es) st st' := by
  have hlog : Post g acc v es st st' := by
    refine ⟨h.len, h.mono, h.reach, h.closed, h.here, h.cnt, ?_, h.askedHere, h.asked⟩
    obtain ⟨calls, l1, l2, l3, l4⟩ := h.log
    refine ⟨⟨v, e, w, false⟩ :: calls, ?_, ?_, ?_, ?_⟩
    · rw [l1]; simp [TSt.call]
    · intro c hc
      rcases List.mem_cons.mp hc with rfl | hc
      · exact ⟨⟨ed, hed, hj⟩, hacc.symm, Or.inl rfl, hw⟩
      · exact l2 c hc
    · simpa using l3
    · intro u
      have := l4 u
      rw [M_call] at this
      simpa using this
  refine hlog.skip ?_ ?_
  · intro ed' hed' w' hj' hacc'
    rw [hed] at hed'; cases hed'
    rw [huniq w' hj', hacc] at hacc'; cases hacc'
  · intro ed' hed' w' hj'
    rw [hed] at hed'; cases hed'
    rw [huniq w' hj']
    obtain ⟨calls, l1, _⟩ := h.log
    refine Or.inr ?_
    rw [l1, hacc]
    simp [TSt.call]

/-- An accepted call, the recursion, then the rest. -/
theorem Post.accepted {g : G ν ε} {acc : Nat → Nat → Nat → Bool} {v e w : Nat} {ed : Edge ε} {es esw : List Nat}
    {st st2 st' : TSt} (hed : g.edgeAt e = some ed) (hj : Joins ed v w) (hlt : w < st.enc.length)
    (hw : ¬ st.M w) (hacc : acc v e w = true)
    (huniq : ∀ w', Joins ed v w' → w' = w)
    (hes : ∀ w', StepR g acc w w' → ∃ e ∈ esw, ∃ ed, g.edgeAt e = some ed ∧ Joins ed w w' ∧ acc w e w' = true)
    (hall : ∀ e ed w', g.edgeAt e = some ed → Joins ed w w' → e ∈ esw)
    (h1 : Post g acc w esw ((st.call v e w true).mark w) st2)
    (h2 : Post g acc v es st2 st') : Post g acc v (e :: es) st st' := by
  have hm : ∀ u, ((st.call v e w true).mark w).M u ↔ u = w ∨ st.M u := fun u => by
    rw [M_mark (by exact hlt), M_call]
  have hw2 : st2.M w := h1.mono w ((hm w).mpr (Or.inl rfl))
  have hstep : StepR g acc v w := ⟨e, ed, hed, hj, hacc⟩
  have hclw : ∀ x, StepR g acc w x → st2.M x := by
    intro x hx
    obtain ⟨e', he', ed', hed', hj', hacc'⟩ := hes x hx
    exact h1.here e' he' ed' hed' x hj' hacc'
  have hlog2 : ∃ calls, st'.log = st2.log ++ calls := by obtain ⟨c, h, _⟩ := h2.log; exact ⟨c, h⟩
  refine ⟨?_, ?_, ?_, ?_, ?_, ?_, ?_, ?_, ?_⟩
  · rw [h2.len, h1.len, len_mark]; rfl
  · intro u hu; exact h2.mono u (h1.mono u ((hm u).mpr (Or.inr hu)))
  · intro u hu hnu
    by_cases hu2 : st2.M u
    · by_cases huw : u = w
      · subst huw; exact .step .refl hstep hw
      · have := h1.reach u hu2 (fun hh => by rcases (hm u).mp hh with h | h; exact huw h; exact hnu h)
        exact Reach.trans (.step .refl hstep hw) (this.mono (fun x hx => (hm x).mpr (Or.inr hx)))
    · exact (h2.reach u hu hu2).mono (fun x hx => h1.mono x ((hm x).mpr (Or.inr hx)))
  · intro u hu hnu x hx
    by_cases hu2 : st2.M u
    · by_cases huw : u = w
      · subst huw; exact h2.mono x (hclw x hx)
      · exact h2.mono x (h1.closed u hu2 (fun hh => by
          rcases (hm u).mp hh with h | h; exact huw h; exact hnu h) x hx)
    · exact h2.closed u hu hu2 x hx
  · intro e' he' ed' hed' w' hj' hacc'
    rcases List.mem_cons.mp he' with rfl | he'
    · rw [hed] at hed'; cases hed'
      rw [huniq w' hj']; exact h2.mono w hw2
    · exact h2.here e' he' ed' hed' w' hj' hacc'
  · have hc : ((st.call v e w true).mark w).enc.count false + 1 = st.enc.count false :=
      count_mark (st := st.call v e w true) hlt hw
    have := h1.cnt
    have := h2.cnt
    omega
  · obtain ⟨c1, a1, a2, a3, a4⟩ := h1.log
    obtain ⟨c2, b1, b2, b3, b4⟩ := h2.log
    refine ⟨⟨v, e, w, true⟩ :: (c1 ++ c2), ?_, ?_, ?_, ?_⟩
    · rw [b1, a1]; simp [TSt.call, TSt.mark]
    · intro c hc
      rcases List.mem_cons.mp hc with rfl | hc
      · exact ⟨⟨ed, hed, hj⟩, hacc.symm, Or.inl rfl, hw⟩
      · rcases List.mem_append.mp hc with hc | hc
        · obtain ⟨k1, k2, k3, k4⟩ := a2 c hc
          refine ⟨k1, k2, ?_, fun hh => k4 ((hm _).mpr (Or.inr hh))⟩
          right
          rcases k3 with k3 | ⟨k3, k5⟩
          · rw [k3]; exact ⟨h2.mono w hw2, hw⟩
          · exact ⟨h2.mono _ k3, fun hh => k5 ((hm _).mpr (Or.inr hh))⟩
        · obtain ⟨k1, k2, k3, k4⟩ := b2 c hc
          have mono2 : ∀ x, st.M x → st2.M x := fun x hx => h1.mono x ((hm x).mpr (Or.inr hx))
          refine ⟨k1, k2, ?_, fun hh => k4 (mono2 _ hh)⟩
          rcases k3 with k3 | ⟨k3, k5⟩
          · exact Or.inl k3
          · exact Or.inr ⟨k3, fun hh => k5 (mono2 _ hh)⟩
    · simp only [List.filter_cons_of_pos, List.map_cons, List.filter_append, List.map_append, List.nodup_cons,
        List.mem_append]
      refine ⟨?_, ?_⟩
      · rintro (hx | hx)
        · exact ((a4 w).mp hx).2 ((hm w).mpr (Or.inl rfl))
        · exact ((b4 w).mp hx).2 hw2
      · rw [List.nodup_append]
        refine ⟨a3, b3, ?_⟩
        intro x hx y hy e
        subst e
        exact ((b4 x).mp hy).2 ((a4 x).mp hx).1
    · intro u
      simp only [List.filter_cons_of_pos, List.map_cons, List.filter_append, List.map_append, List.mem_cons,
        List.mem_append, a4 u, b4 u]
      constructor
      · rintro (rfl | ⟨k1, k2⟩ | ⟨k1, k2⟩)
        · exact ⟨h2.mono _ hw2, hw⟩
        · exact ⟨h2.mono _ k1, fun hh => k2 ((hm u).mpr (Or.inr hh))⟩
        · exact ⟨k1, fun hh => k2 (h1.mono u ((hm u).mpr (Or.inr hh)))⟩
      · rintro ⟨k1, k2⟩
        by_cases hu2 : st2.M u
        · by_cases huw : u = w
          · exact Or.inl huw
          · exact Or.inr (Or.inl ⟨hu2, fun hh => by
              rcases (hm u).mp hh with h | h; exact huw h; exact k2 h⟩)
        · exact Or.inr (Or.inr ⟨k1, hu2⟩)
  · intro e' he' ed' hed' w' hj'
    rcases List.mem_cons.mp he' with rfl | he'
    · rw [hed] at hed'; cases hed'
      rw [huniq w' hj']; exact Or.inl (h2.mono w hw2)
    · exact h2.askedHere e' he' ed' hed' w' hj'
  · intro u hu hnu e' ed' hed' x hx
    by_cases hu2 : st2.M u
    · refine Asked.mono (st := st2) ?_ h2.mono hlog2
      by_cases huw : u = w
      · subst huw; exact h1.askedHere e' (hall e' ed' x hed' hx) ed' hed' x hx
      · exact h1.asked u hu2 (fun hh => by
          rcases (hm u).mp hh with h | h; exact huw h; exact hnu h) e' ed' hed' x hx
    · exact h2.asked u hu hu2 e' ed' hed' x hx

/-- All the edges of the list touch `v`. -/
def Touch (g : G ν ε) (v : Nat) (es : List Nat) : Prop := ∀ e ∈ es, ∃ ed, g.edgeAt e = some ed ∧ (ed.v1 = v ∨ ed.v2 = v)

theorem resize_self {l : List Bool} {n : Nat} (h : l.length = n) : resize l n = l := by
  unfold resize
  rw [← h]; simp

theorem M_false {st : TSt} {u : Nat} (h : st.enc[u]? = some false) : ¬ st.M u := by
  unfold TSt.M; rw [h]; simp

theorem edgeLoop_post {g : G ν ε} (hwf : WF g) {acc : Nat → Nat → Nat → Bool} {adj : List (List Nat)} (hadj : AdjOk g adj)
    {n : Nat}
    (ih : ∀ w (st : TSt), g.vertexAt w ≠ none → st.enc.length = g.vertices.length → st.M w → st.enc.count false < n →
      ∃ st', traverseRec g acc adj n w st = .ok st' ∧ Post g acc w (occ 0 g.edges w) st st')
    (hocc : ∀ w, Touch g w (occ 0 g.edges w) ∧
      ∀ w', StepR g acc w w' → ∃ e ∈ occ 0 g.edges w, ∃ ed, g.edgeAt e = some ed ∧ Joins ed w w' ∧ acc w e w' = true)
    (hall : ∀ w e ed w', g.edgeAt e = some ed → Joins ed w w' → e ∈ occ 0 g.edges w)
    (v : Nat) (es : List Nat) : ∀ (st : TSt), Touch g v es → st.enc.length = g.vertices.length → st.M v →
      st.enc.count false ≤ n →
      ∃ st', edgeLoop g acc (traverseRec g acc adj n) es st = .ok st' ∧ Post g acc v es st st' := by
  induction es with
  | nil =>
    intro st _ hlen hv hn
    exact ⟨st, rfl, rfl, fun _ h => h, fun _ h h' => absurd h h', fun _ h h' => absurd h h', by simp,
      Nat.le_refl _, ⟨[], by simp, by simp, by simp, fun u => by simp⟩, by simp, fun _ h h' => absurd h h'⟩
  | cons e es ih2 =>
    intro st ht hlen hv hn
    obtain ⟨ed, hed, hend⟩ := ht e (by simp)
    have ht' : Touch g v es := fun e' he' => ht e' (List.mem_cons_of_mem _ he')
    obtain ⟨hl1, hl2⟩ := hwf.ends e ed hed
    have h1 : ed.v1 < st.enc.length := by rw [hlen]; exact vertexAt_lt hl1
    have h2 : ed.v2 < st.enc.length := by rw [hlen]; exact vertexAt_lt hl2
    -- common treatment of an edge whose other end `w` is not marked
    have key : ∀ w, Joins ed v w → g.vertexAt w ≠ none → w < st.enc.length → ¬ st.M w → (acc v e w = true →
        ∃ st', (traverseRec g acc adj n w ((st.call v e w true).mark w)).bind
          (edgeLoop g acc (traverseRec g acc adj n) es) = .ok st' ∧ Post g acc v (e :: es) st st') ∧
        (acc v e w = false → ∃ st', edgeLoop g acc (traverseRec g acc adj n) es (st.call v e w false) = .ok st' ∧
          Post g acc v (e :: es) st st') := by
      intro w hj hlw hltw hw
      have hvw : v ≠ w := by rintro rfl; exact hw hv
      have huniq : ∀ w', Joins ed v w' → w' = w := by
        intro w' hj'
        rcases hj with ⟨a1, a2⟩ | ⟨a1, a2⟩ <;> rcases hj' with ⟨b1, b2⟩ | ⟨b1, b2⟩
        · rw [← b2, a2]
        · exfalso; apply hvw; rw [← b1, a2]
        · exfalso; apply hvw; rw [← b1, a2]
        · rw [← b2, a2]
      constructor
      · intro hacc
        have hc : ((st.call v e w true).mark w).enc.count false + 1 = st.enc.count false :=
          count_mark (st := st.call v e w true) hltw hw
        obtain ⟨st2, r1, r2⟩ := ih w ((st.call v e w true).mark w) hlw (by rw [len_mark]; exact hlen)
          ((M_mark (by exact hltw)).mpr (Or.inl rfl)) (by omega)
        have hmono : ∀ x, st.M x → st2.M x := fun x hx => r2.mono x ((M_mark (by exact hltw)).mpr (Or.inr hx))
        obtain ⟨st', s1, s2⟩ := ih2 st2 ht' (by rw [r2.len, len_mark]; exact hlen) (hmono v hv) (by
          have := r2.cnt; omega)
        refine ⟨st', by rw [r1]; exact s1, ?_⟩
        exact Post.accepted hed hj hltw hw hacc huniq (hocc w).2 (hall w) r2 s2
      · intro hacc
        obtain ⟨st', s1, s2⟩ := ih2 (st.call v e w false) ht' hlen hv hn
        exact ⟨st', s1, Post.refused hed hj hw hacc huniq s2⟩
    unfold edgeLoop
    rw [hed]
    simp only []
    cases hb1 : st.enc[ed.v1]? with
    | none => rw [List.getElem?_eq_none_iff] at hb1; omega
    | some b1 =>
      cases b1 with
      | false =>
        have hn1 := M_false hb1
        have hv2 : ed.v2 = v := by
          rcases hend with h | h
          · rw [h] at hn1; exact absurd hv hn1
          · exact h
        obtain ⟨k1, k2⟩ := key ed.v1 (Or.inr ⟨hv2, rfl⟩) hl1 h1 hn1
        rw [hv2]
        simp only []
        cases hacc : acc v e ed.v1 with
        | true => simp only [if_true]; exact k1 hacc
        | false => simp only [Bool.false_eq_true, if_false]; exact k2 hacc
      | true =>
        simp only []
        cases hb2 : st.enc[ed.v2]? with
        | none => rw [List.getElem?_eq_none_iff] at hb2; omega
        | some b2 =>
          cases b2 with
          | false =>
            have hn2 := M_false hb2
            have hv1 : ed.v1 = v := by
              rcases hend with h | h
              · exact h
              · rw [h] at hn2; exact absurd hv hn2
            obtain ⟨k1, k2⟩ := key ed.v2 (Or.inl ⟨hv1, rfl⟩) hl2 h2 hn2
            rw [hv1]
            simp only []
            cases hacc : acc v e ed.v2 with
            | true => simp only [if_true]; exact k1 hacc
            | false => simp only [Bool.false_eq_true, if_false]; exact k2 hacc
          | true =>
            simp only []
            obtain ⟨st', s1, s2⟩ := ih2 st ht' hlen hv hn
            have hM : ∀ ed', g.edgeAt e = some ed' → ∀ w, Joins ed' v w → st'.M w := by
              intro ed' hed' w hj
              rw [hed] at hed'; cases hed'
              rcases hj with ⟨_, h⟩ | ⟨_, h⟩
              · rw [← h]; exact s2.mono _ hb2
              · rw [← h]; exact s2.mono _ hb1
            exact ⟨st', s1, s2.skip (fun ed' h w hj _ => hM ed' h w hj) (fun ed' h w hj => Or.inl (hM ed' h w hj))⟩

theorem mem_occ {g : G ν ε} {v e : Nat} :
    e ∈ occ 0 g.edges v ↔ ∃ ed, g.edgeAt e = some ed ∧ (ed.v1 = v ∨ ed.v2 = v) := by
  rw [← List.count_pos_iff, count_occ]
  simp only [Nat.not_lt_zero, if_false, Nat.sub_zero]
  show 0 < endsOn (g.edgeAt e) v ↔ _
  cases hg : g.edgeAt e with
  | none => simp [endsOn]
  | some ed =>
    simp only [endsOn, Option.some.injEq, exists_eq_left']
    by_cases c1 : ed.v1 = v <;> by_cases c2 : ed.v2 = v <;> simp [c1, c2]

theorem occ_facts (g : G ν ε) (acc : Nat → Nat → Nat → Bool) (w : Nat) : Touch g w (occ 0 g.edges w) ∧
      ∀ w', StepR g acc w w' → ∃ e ∈ occ 0 g.edges w, ∃ ed, g.edgeAt e = some ed ∧ Joins ed w w' ∧ acc w e w' = true := by
  refine ⟨fun e he => mem_occ.mp he, ?_⟩
  rintro w' ⟨e, ed, h1, h2, h3⟩
  refine ⟨e, mem_occ.mpr ⟨ed, h1, ?_⟩, ed, h1, h2, h3⟩
  rcases h2 with h | h
  · exact Or.inl h.1
  · exact Or.inr h.1

theorem adj_get {g : G ν ε} {adj : List (List Nat)} (hadj : AdjOk g adj) {v : Nat} (hv : g.vertexAt v ≠ none) :
    adj[v]? = some (occ 0 g.edges v) := by
  have hlt : v < adj.length := by rw [hadj.1]; exact vertexAt_lt hv
  rw [List.getElem?_eq_getElem hlt]
  congr 1
  exact hadj.2 v _ (List.getElem?_eq_getElem hlt)

theorem traverseRec_post {g : G ν ε} (hwf : WF g) (acc : Nat → Nat → Nat → Bool) {adj : List (List Nat)}
    (hadj : AdjOk g adj) (n : Nat) :
    (∀ v (st : TSt), g.vertexAt v ≠ none → st.enc.length = g.vertices.length → (st.mark v).enc.count false < n →
      ∃ st', traverseRec g acc adj n v st = .ok st' ∧ Post g acc v (occ 0 g.edges v) (st.mark v) st') := by
  induction n with
  | zero => intro v st _ _ h; omega
  | succ n ih =>
    intro v st hv hlen hn
    unfold traverseRec
    have : g.vertexExists v = true := Option.isSome_iff_ne_none.mpr hv
    simp only [this, Bool.not_true, Bool.false_eq_true, if_false]
    rw [adj_get hadj hv]
    simp only []
    rw [resize_self hlen]
    have hlt : v < st.enc.length := by rw [hlen]; exact vertexAt_lt hv
    have hall : ∀ w e ed w', g.edgeAt e = some ed → Joins ed w w' → e ∈ occ 0 g.edges w := by
      intro w e ed w' h1 h2
      refine mem_occ.mpr ⟨ed, h1, ?_⟩
      rcases h2 with h | h
      · exact Or.inl h.1
      · exact Or.inr h.1
    refine edgeLoop_post hwf hadj ?_ (occ_facts g acc) hall v _ (st.mark v) (occ_facts g acc v).1
      (by rw [len_mark]; exact hlen) ((M_mark hlt).mpr (Or.inl rfl)) (by omega)
    intro w st1 hw hlen1 hm1 hn1
    have e : st1.mark w = st1 := by
      unfold TSt.mark
      have hlt1 : w < st1.enc.length := by rw [hlen1]; exact vertexAt_lt hw
      have : st1.enc.set w true = st1.enc := by
        apply List.ext_getElem?
        intro i
        rw [List.getElem?_set]
        by_cases hi : w = i
        · subst hi; simp only [if_true, hlt1]; exact hm1.symm
        · simp [hi]
      rw [this]
    have := ih w st1 hw hlen1 (by rw [e]; exact hn1)
    rw [e] at this
    exact this

end Verif.Graph
