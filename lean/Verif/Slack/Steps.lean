import Verif.Slack.Effects

/-! Each call on the slack terminals does what the abstract state says (the properties are in Props.lean). -/

namespace Verif.Slack

open Verif Verif.Variants

/-! ### One call -/

theorem var_of {s : Net} {a : Abs} (g : ShowsV s a) {v : String} {i : Nat} (h : s.bk.byId.get? v = some i) : v ∈ a.vars :=
  (g.vars v).2 (by rw [h]; rfl)

theorem not_var {s : Net} {a : Abs} (g : ShowsV s a) {v : String} (h : s.bk.byId.get? v = none) : v ∉ a.vars := by
  rw [g.vars, h]; simp

theorem idx_of {s : Net} {a : Abs} (g : ShowsV s a) {v : String} (h : v ∈ a.vars) : ∃ i, s.bk.byId.get? v = some i :=
  Option.isSome_iff_exists.1 ((g.vars v).1 h)

theorem none_of {s : Net} {a : Abs} (g : ShowsV s a) {v : String} (h : v ∉ a.vars) : s.bk.byId.get? v = none := by
  cases e : s.bk.byId.get? v with
  | none => rfl
  | some i => exact absurd (var_of g e) h

theorem cur_cases {s : Net} (h : Inv s) {a : Abs} (g : ShowsV s a) :
    (s.cur = none ∧ a.cur = none) ∨ ∃ v i, s.cur = some i ∧ s.bk.byId.get? v = some i ∧ a.cur = some v := by
  cases e : s.cur with
  | none =>
    left; refine ⟨rfl, ?_⟩
    cases e' : a.cur with
    | none => rfl
    | some v => obtain ⟨i, hi, _⟩ := (g.cur v).1 e'; rw [e] at hi; cases hi
  | some i =>
    obtain ⟨v, hv⟩ := h.cur i e
    exact .inr ⟨v, i, rfl, hv, (g.cur v).2 ⟨i, e, hv⟩⟩

theorem clone_shows {s : Net} (h : Inv s) {a : Abs} (g : ShowsV s a) (src tgt : String) (m : Bool) :
    (clone s src tgt m).1 = (a.clone src tgt m).1 ∧ Inv (clone s src tgt m).2 ∧ ShowsV (clone s src tgt m).2 (a.clone src tgt m).2 := by
  by_cases hc : src ∈ a.vars ∧ (m ∨ tgt ∉ a.vars)
  · obtain ⟨hs, ht⟩ := hc
    obtain ⟨i, hi⟩ := idx_of g hs
    obtain ⟨bk', f, e, w', x', hv, hold, hvec⟩ := clone_effect h hi (tgt := tgt) (m := m) (ht.imp id (none_of g))
    have ea : a.clone src tgt m = (.ok (), { a with vars := if tgt ∈ a.vars then a.vars else tgt :: a.vars,
                                                      slack := fun v l => if v = tgt then a.slack src l else a.slack v l }) := by
      unfold Abs.clone; rw [if_pos ⟨hs, ht⟩]
    rw [e, ea]
    refine ⟨rfl, ⟨w', x', ?_, nodup_mapVal h.nodup, ?_, ?_⟩, ⟨g.levels, ?_, ?_, ?_, ?_⟩⟩
    · intro k hk
      obtain ⟨x, hx⟩ := h.cur k hk
      exact ⟨x, hold _ _ hx⟩
    · intro l b hb
      have hb' : (mapVal f s.exts).get? l = some b := hb
      rw [get?_mapVal] at hb'
      obtain ⟨b0, hb0, _⟩ := Option.map_eq_some_iff.1 hb'
      exact h.lev l b0 hb0
    · intro l b hb
      have hb' : (mapVal f s.exts).get? l = some b := hb
      rw [get?_mapVal] at hb'
      obtain ⟨b0, hb0, rfl⟩ := Option.map_eq_some_iff.1 hb'
      exact (hvec l b0 (h.vec l b0 hb0)).1
    · intro v
      show _ ↔ (bk'.byId.get? v).isSome
      rw [hv, ← g.vars]
      by_cases et : tgt ∈ a.vars
      · simp only [et, if_true]
        constructor
        · exact .inr
        · rintro (rfl | q)
          · exact et
          · exact q
      · simp only [et, if_false, List.mem_cons]
    · intro v
      show a.cur = some v ↔ ∃ k, s.cur = some k ∧ bk'.byId.get? v = some k
      rw [g.cur]
      constructor
      · rintro ⟨k, h1, h2⟩; exact ⟨k, h1, hold _ _ h2⟩
      · rintro ⟨k, h1, h2⟩
        obtain ⟨x, hx⟩ := h.cur k h1
        have := w'.inj _ _ _ h2 (hold _ _ hx)
        subst this
        exact ⟨k, h1, hx⟩
    · intro l
      show a.ext l = ((mapVal f s.exts).get? l).isSome
      rw [get?_mapVal, Option.isSome_map]; exact g.ext l
    · intro v l
      show (if v = tgt then a.slack src l else a.slack v l) = _
      rw [g.slack, g.slack]
      unfold val
      simp only [get?_mapVal, hi]
      cases hl : s.exts.get? l with
      | none =>
        simp only [Option.map_none]
        cases bk'.byId.get? v <;> cases s.bk.byId.get? v <;> simp
      | some b =>
        obtain ⟨_, hval⟩ := hvec l b (h.vec l b hl)
        simp only [Option.map_some]
        cases hk : bk'.byId.get? v with
        | none =>
          have hn : ¬ (v = tgt ∨ (s.bk.byId.get? v).isSome = true) := by rw [← hv, hk]; simp
          have h1 : v ≠ tgt := fun q => hn (.inl q)
          have h2 : s.bk.byId.get? v = none := by
            cases q : s.bk.byId.get? v with
            | none => rfl
            | some k => exact absurd (Or.inr (by rw [q]; rfl)) hn
          simp [h1, h2]
        | some k =>
          simp only [hval v k hk]
          by_cases et : v = tgt
          · simp [et]
          · simp only [et, if_false]
            cases q : s.bk.byId.get? v with
            | none => simp
            | some k' => simp
  · have ea : a.clone src tgt m = (.thrown, a) := by unfold Abs.clone; rw [if_neg hc]
    have e : clone s src tgt m = (.thrown, s) := by
      apply clone_noop'
      by_cases hs : src ∈ a.vars
      · right
        have : ¬ (m = true ∨ tgt ∉ a.vars) := fun q => hc ⟨hs, q⟩
        refine ⟨by cases m <;> simp_all, ?_⟩
        intro q
        exact this (.inr (not_var g q))
      · exact .inl (none_of g hs)
    rw [e, ea]; exact ⟨rfl, h, g⟩

theorem remove_shows {s : Net} (h : Inv s) {a : Abs} (g : ShowsV s a) {id : String} (hc : CleanRemove s id) :
    (remove s id).1 = (a.remove id).1 ∧ Inv (remove s id).2 ∧ ShowsV (remove s id).2 (a.remove id).2 := by
  by_cases hv : id ∈ a.vars ∧ id ≠ initialId
  · obtain ⟨hv, hid⟩ := hv
    obtain ⟨index, hi⟩ := idx_of g hv
    obtain ⟨bk', f, e, w', x', hby, hvec⟩ := remove_effect h hid hi hc
    have ea : a.remove id = (.ok (), { a with vars := a.vars.filter (· ≠ id),
                                              cur := if a.cur = some id then none else a.cur,
                                              slack := fun v l => if v = id then none else a.slack v l }) := by
      unfold Abs.remove; rw [if_pos ⟨hv, hid⟩]
    have hget : ∀ v, bk'.byId.get? v = if id = v then none else s.bk.byId.get? v := by
      intro v; rw [hby, AMap.get?_erase]
    rw [e, ea]
    refine ⟨rfl, ⟨w', x', ?_, nodup_mapVal h.nodup, ?_, ?_⟩, ⟨g.levels, ?_, ?_, ?_, ?_⟩⟩
    · intro k hk
      have hk' : curAfter s.cur index = some k := hk
      unfold curAfter at hk'
      split at hk'
      · cases hk'
      · rename_i hn
        obtain ⟨x, hx⟩ := h.cur k hk'
        refine ⟨x, ?_⟩
        show bk'.byId.get? x = some k
        rw [hget]
        have : id ≠ x := by
          rintro rfl
          rw [hi] at hx
          exact hn (by rw [hk', Option.some.inj hx])
        simp [this, hx]
    · intro l b hb
      have hb' : (mapVal f s.exts).get? l = some b := hb
      rw [get?_mapVal] at hb'
      obtain ⟨b0, hb0, _⟩ := Option.map_eq_some_iff.1 hb'
      exact h.lev l b0 hb0
    · intro l b hb
      have hb' : (mapVal f s.exts).get? l = some b := hb
      rw [get?_mapVal] at hb'
      obtain ⟨b0, hb0, rfl⟩ := Option.map_eq_some_iff.1 hb'
      exact (hvec l b0 hb0).1
    · intro v
      show v ∈ a.vars.filter (· ≠ id) ↔ (bk'.byId.get? v).isSome
      rw [hget, List.mem_filter, g.vars]
      by_cases e : id = v
      · simp [e]
      · simp [e, Ne.symm e]
    · intro v
      show (if a.cur = some id then none else a.cur) = some v ↔ ∃ k, curAfter s.cur index = some k ∧ bk'.byId.get? v = some k
      have hcur : a.cur = some id ↔ s.cur = some index := by
        rw [g.cur]
        constructor
        · rintro ⟨k, h1, h2⟩; rw [hi] at h2; cases h2; exact h1
        · intro q; exact ⟨index, q, hi⟩
      unfold curAfter
      by_cases q : s.cur = some index
      · rw [if_pos (hcur.2 q), if_pos q]; simp
      · rw [if_neg (fun r => q (hcur.1 r)), if_neg q, g.cur]
        constructor
        · rintro ⟨k, h1, h2⟩
          refine ⟨k, h1, ?_⟩
          rw [hget]
          have : id ≠ v := by rintro rfl; rw [hi] at h2; cases h2; exact q h1
          simp [this, h2]
        · rintro ⟨k, h1, h2⟩
          rw [hget] at h2
          split at h2
          · cases h2
          · exact ⟨k, h1, h2⟩
    · intro l
      show a.ext l = ((mapVal f s.exts).get? l).isSome
      rw [get?_mapVal, Option.isSome_map]; exact g.ext l
    · intro v l
      show (if v = id then none else a.slack v l) = _
      rw [g.slack]
      unfold val
      simp only [get?_mapVal, hget]
      by_cases ev : id = v
      · simp [ev]
      · simp only [ev, Ne.symm ev, if_false]
        cases hk : s.bk.byId.get? v with
        | none => simp
        | some k =>
          cases hl : s.exts.get? l with
          | none => simp
          | some b =>
            simp only [Option.map_some]
            rw [(hvec l b hl).2 v k (Ne.symm ev) hk]
  · have ea : a.remove id = (.thrown, a) := by unfold Abs.remove; rw [if_neg hv]
    have e : remove s id = (.thrown, s) := by
      apply remove_noop
      by_cases q : id = initialId
      · exact .inl q
      · exact .inr (none_of g fun r => hv ⟨r, q⟩)
    rw [e, ea]; exact ⟨rfl, h, g⟩

theorem select_shows {s : Net} (h : Inv s) {a : Abs} (g : ShowsV s a) (id : String) :
    (select s id).1 = (a.select id).1 ∧ Inv (select s id).2 ∧ ShowsV (select s id).2 (a.select id).2 := by
  unfold Abs.select
  by_cases hv : id ∈ a.vars
  · obtain ⟨i, hi⟩ := idx_of g hv
    rw [select_ok hi, if_pos hv]
    refine ⟨rfl, ⟨h.w, h.exact, ?_, h.nodup, h.lev, h.vec⟩, ⟨g.levels, g.vars, ?_, g.ext, g.slack⟩⟩
    · intro k hk
      cases hk; exact ⟨id, hi⟩
    · intro v
      show some id = some v ↔ ∃ k, some i = some k ∧ s.bk.byId.get? v = some k
      constructor
      · intro q; cases q; exact ⟨i, rfl, hi⟩
      · rintro ⟨k, h1, h2⟩; cases h1; rw [h.w.inj _ _ _ hi h2]
  · rw [select_none (none_of g hv), if_neg hv]; exact ⟨rfl, h, g⟩

theorem add_shows {s : Net} (h : Inv s) {a : Abs} (g : ShowsV s a) (l : String) (t : Slot) :
    (add s l t).1 = (a.add l t).1 ∧ Inv (add s l t).2 ∧ ShowsV (add s l t).2 (a.add l t).2 := by
  unfold add Abs.add
  by_cases hl : l ∈ s.levels
  · rw [if_pos hl]
    have hl' : l ∈ a.levels := by rw [← g.levels]; exact hl
    cases t with
    | none => simp only []; cases a.cur <;> exact ⟨rfl, h, g⟩
    | some x =>
      simp only []
      by_cases hx : x.level = l
      · rw [if_pos hx]
        rcases cur_cases h g with ⟨e1, e2⟩ | ⟨v, i, e1, e2, e3⟩
        · rw [e2, assign_thrown (.inr e1)]; exact ⟨rfl, h, g⟩
        · have hlt := h.w.lt _ _ e2
          have hf : fits l (some x) = true := by simp [fits, hx]
          rw [e3, assign_ok (t := some x) hf e1 (by simp [hlt])]
          simp only [hl', hx, and_self, if_true]
          refine ⟨trivial, inv_set h hl (vecWF_assign h.w (vecWF_fresh _ h.w l) hf e2), ⟨g.levels, g.vars, fun v' => by rw [← e3]; exact g.cur v', ?_, ?_⟩⟩
          · intro l'
            show (decide (l' = l) || a.ext l') = ((s.exts.set l _).get? l').isSome
            rw [AMap.get?_set, g.ext]
            by_cases e : l = l'
            · simp [e]
            · simp [e, Ne.symm e]
          · intro v' l'
            show (if l' = l then (if v' = v then some x else none) else a.slack v' l') = _
            rw [val_set, g.slack]
            by_cases e : l = l'
            · simp only [e, if_true]
              cases hk : s.bk.byId.get? v' with
              | none =>
                have : v' ≠ v := by rintro rfl; rw [hk] at e2; cases e2
                simp [this]
              | some k =>
                simp only [List.getElem?_set]
                by_cases ev : v' = v
                · subst ev
                  rw [hk] at e2; cases e2
                  simp [hlt, Option.join]
                · have : i ≠ k := by rintro rfl; exact ev (h.w.inj _ _ _ hk e2)
                  have hklt := h.w.lt _ _ hk
                  simp [ev, this, hklt, Option.join]
            · simp [e, Ne.symm e]
      · rw [if_neg hx]
        cases a.cur with
        | none => exact ⟨rfl, h, g⟩
        | some v => simp only [hx, and_false, if_false]; exact ⟨trivial, h, g⟩
  · rw [if_neg hl]
    have hl' : l ∉ a.levels := by rw [← g.levels]; exact hl
    cases a.cur with
    | none => exact ⟨rfl, h, g⟩
    | some v =>
      cases t with
      | none => exact ⟨rfl, h, g⟩
      | some x => simp only [hl', false_and, if_false]; exact ⟨trivial, h, g⟩

/-- A terminal is stored in an extension that is there. -/
theorem put_shows {s : Net} (h : Inv s) {a : Abs} (g : ShowsV s a) {l v : String} {x : Vec} {t : Slot} {i : Nat}
    (hx : s.exts.get? l = some x) (hi : s.bk.byId.get? v = some i) (hf : fits l t = true) :
    Inv { s with exts := s.exts.set l (x.set i (some t)) } ∧
    ShowsV { s with exts := s.exts.set l (x.set i (some t)) } (a.put v l t) := by
  have hw := h.vec l x hx
  refine ⟨inv_set h (h.lev l x hx) (vecWF_assign h.w hw hf hi), ⟨g.levels, g.vars, g.cur, ?_, ?_⟩⟩
  · intro l'
    show a.ext l' = ((s.exts.set l _).get? l').isSome
    rw [AMap.get?_set, g.ext]
    by_cases e : l = l'
    · subst e; simp [hx]
    · simp [e]
  · intro v' l'
    show (if v' = v ∧ l' = l then t else a.slack v' l') = _
    rw [val_set, g.slack]
    by_cases e : l = l'
    · subst e
      simp only [and_true, if_true]
      cases hk : s.bk.byId.get? v' with
      | none =>
        have : v' ≠ v := by rintro rfl; rw [hk] at hi; cases hi
        simp [this, val, hk]
      | some k =>
        simp only [List.getElem?_set]
        by_cases ev : v' = v
        · subst ev
          rw [hk] at hi; cases hi
          simp [hw.len, h.w.lt _ _ hk, Option.join]
        · have : i ≠ k := by rintro rfl; exact ev (h.w.inj _ _ _ hk hi)
          simp [ev, this, val, hk, hx]
    · simp [e, Ne.symm e]

/-- An extension that no variant uses is dropped. -/
theorem clean_shows {s : Net} (h : Inv s) {a : Abs} (g : ShowsV s a) {l : String} {x : Vec} (hx : s.exts.get? l = some x) :
    Inv (if isEmpty x then { s with exts := s.exts.erase l } else s) ∧
    ShowsV (if isEmpty x then { s with exts := s.exts.erase l } else s) (a.clean [l]) := by
  have hu := used_eq h g hx
  cases he : isEmpty x with
  | true =>
    simp only [if_true]
    refine ⟨inv_erase h l, ⟨g.levels, g.vars, g.cur, ?_, ?_⟩⟩
    · intro l'
      show (a.ext l' && (![l].contains l' || a.used l')) = ((s.exts.erase l).get? l').isSome
      rw [AMap.get?_erase, g.ext]
      by_cases e : l = l'
      · subst e; simp [hu, he]
      · simp [e, Ne.symm e]
    · intro v l'
      show a.slack v l' = _
      rw [val_erase, g.slack]
      by_cases e : l = l'
      · subst e
        simp only [if_true]
        unfold val
        rw [hx]
        cases hk : s.bk.byId.get? v with
        | none => rfl
        | some k => exact (isEmpty_iff h (h.vec l x hx)).1 he v k hk
      · simp [e]
  | false =>
    simp only [Bool.false_eq_true, if_false]
    refine ⟨h, ⟨g.levels, g.vars, g.cur, ?_, g.slack⟩⟩
    intro l'
    show (a.ext l' && (![l].contains l' || a.used l')) = _
    rw [← g.ext]
    by_cases e : l' = l
    · subst e; simp [hu, he]
    · simp [e]

theorem erase_set (m : AMap String Vec) (l : String) (y : Vec) : (m.set l y).erase l = m.erase l := by
  induction m with
  | nil => simp [AMap.set, AMap.erase]
  | cons p r ih =>
    obtain ⟨k, w⟩ := p
    rw [AMap.set]
    by_cases e : k = l
    · simp [AMap.erase, e]
    · rw [if_neg e]
      unfold AMap.erase at *
      rw [List.filter_cons, List.filter_cons, ih]

theorem setTerminal_shows {s : Net} (h : Inv s) {a : Abs} (g : ShowsV s a) (l : String) (t : Slot) (c : Bool) :
    (setTerminal s l t c).1 = (a.setTerminal l t c).1 ∧ Inv (setTerminal s l t c).2 ∧
    ShowsV (setTerminal s l t c).2 (a.setTerminal l t c).2 := by
  unfold setTerminal Abs.setTerminal
  cases hx : s.exts.get? l with
  | none =>
    have : a.ext l = false := by rw [g.ext, hx]; rfl
    simp only [this]
    cases a.cur with
    | none => exact ⟨rfl, h, g⟩
    | some v => simp only [Bool.false_eq_true, false_and, if_false]; exact ⟨trivial, h, g⟩
  | some x =>
    have hext : a.ext l = true := by rw [g.ext, hx]; rfl
    simp only [hext]
    rcases cur_cases h g with ⟨e1, e2⟩ | ⟨v, i, e1, e2, e3⟩
    · rw [assign_thrown (.inr e1), e2]; exact ⟨rfl, h, g⟩
    · cases hf : fits l t with
      | false =>
        rw [assign_thrown (.inl hf)]
        simp only [e3, Bool.false_eq_true, and_false, if_false]
        exact ⟨trivial, h, g⟩
      | true =>
        rw [assign_ok hf e1 (by rw [(h.vec l x hx).len]; exact h.w.lt _ _ e2)]
        simp only [e3, and_self, if_true]
        obtain ⟨p1, p2⟩ := put_shows h g hx e2 hf
        cases c with
        | false =>
          simp only [Bool.false_and, Bool.false_eq_true, if_false]
          exact ⟨trivial, p1, p2⟩
        | true =>
          simp only [Bool.true_and, if_true]
          have hy : (s.exts.set l (x.set i (some t))).get? l = some (x.set i (some t)) := by rw [AMap.get?_set]; simp
          obtain ⟨q1, q2⟩ := clean_shows p1 p2 (l := l) (x := x.set i (some t)) hy
          simp only [erase_set] at q1 q2
          cases he : isEmpty (x.set i (some t)) with
          | true => rw [he] at q1 q2; simp only [if_true] at q1 q2 ⊢; exact ⟨trivial, q1, q2⟩
          | false => rw [he] at q1 q2; simp only [Bool.false_eq_true, if_false] at q1 q2 ⊢; exact ⟨trivial, q1, q2⟩

/-- Two abstract states with the same content. -/
theorem ShowsV.congr {s : Net} {a b : Abs} (g : ShowsV s a) (h1 : a.levels = b.levels) (h2 : ∀ v, v ∈ a.vars ↔ v ∈ b.vars)
    (h3 : a.cur = b.cur) (h4 : ∀ l, a.ext l = b.ext l) (h5 : ∀ v l, a.slack v l = b.slack v l) : ShowsV s b :=
  ⟨by rw [← h1]; exact g.levels, fun v => by rw [← h2]; exact g.vars v, fun v => by rw [← h3]; exact g.cur v,
    fun l => by rw [← h4]; exact g.ext l, fun v l => by rw [← h5]; exact g.slack v l⟩

/-- A voltage level without extension has no slack terminal. -/
theorem slack_none {s : Net} {a : Abs} (g : ShowsV s a) {l : String} (h : a.ext l = false) (v : String) : a.slack v l = none := by
  rw [g.slack]
  have : s.exts.get? l = none := by
    cases e : s.exts.get? l with
    | none => rfl
    | some x => rw [g.ext, e] at h; cases h
  unfold val
  rw [this]; cases s.bk.byId.get? v <;> rfl

theorem reset_shows {s : Net} (h : Inv s) {a : Abs} (g : ShowsV s a) (l : String) (t : Slot) :
    (reset s l t).1 = (a.reset l t).1 ∧ Inv (reset s l t).2 ∧ ShowsV (reset s l t).2 (a.reset l t).2 := by
  unfold reset Abs.reset
  cases hx : s.exts.get? l with
  | none =>
    have hext : a.ext l = false := by rw [g.ext, hx]; rfl
    cases t with
    | none => simp only [hext, and_self, if_true]; cases a.cur <;> exact ⟨rfl, h, g⟩
    | some x =>
      simp only [hext, reduceCtorEq, and_false, if_false]
      obtain ⟨k1, k2, k3⟩ := add_shows h g l (some x)
      unfold Abs.add at k1 k3
      cases hc : a.cur with
      | none => simp only [hc] at k1 k3 ⊢; exact ⟨k1, k2, k3⟩
      | some v =>
        simp only [hc] at k1 k3 ⊢
        have hb : (fits l (some x) = true) ↔ x.level = l := by simp [fits]
        by_cases hh : l ∈ a.levels ∧ x.level = l
        · rw [if_pos hh] at k1 k3
          rw [if_pos ⟨hh.1, hb.2 hh.2⟩]
          refine ⟨k1, k2, k3.congr rfl (fun _ => Iff.rfl) hc.symm ?_ ?_⟩
          · intro l'
            show (decide (l' = l) || a.ext l') = ((decide (l' = l) || a.ext l') && (![l].contains l' || Abs.used _ l'))
            by_cases e : l' = l
            · subst e
              have hvv : v ∈ a.vars := by
                obtain ⟨i, _, hi⟩ := (g.cur v).1 hc
                exact var_of g hi
              have : (Abs.used { a.put v l' (some x) with ext := fun l => decide (l = l') || a.ext l } l') = true := by
                unfold Abs.used
                rw [List.any_eq_true]
                exact ⟨v, hvv, by simp [Abs.put]⟩
              rw [this]; simp
            · simp [e]
          · intro v' l'
            show (if l' = l then (if v' = v then some x else none) else a.slack v' l') = if v' = v ∧ l' = l then some x else a.slack v' l'
            by_cases e : l' = l
            · subst e
              by_cases ev : v' = v
              · simp [ev]
              · simp [ev, slack_none g hext]
            · simp [e]
        · rw [if_neg hh] at k1 k3
          rw [if_neg (fun q => hh ⟨q.1, hb.1 q.2⟩)]
          exact ⟨k1, k2, k3⟩
  | some x =>
    have hext : a.ext l = true := by rw [g.ext, hx]; rfl
    have hl : l ∈ a.levels := by rw [← g.levels]; exact h.lev l x hx
    simp only [hext, Bool.true_eq_false, false_and, if_false, hl, true_and]
    obtain ⟨k1, k2, k3⟩ := setTerminal_shows h g l t true
    unfold Abs.setTerminal at k1 k3
    cases hc : a.cur with
    | none => simp only [hc] at k1 k3 ⊢; exact ⟨k1, k2, k3⟩
    | some v =>
      simp only [hc, hext, true_and] at k1 k3 ⊢
      cases hf : fits l t with
      | false => simp only [hf, Bool.false_eq_true, if_false] at k1 k3 ⊢; exact ⟨k1, k2, k3⟩
      | true =>
        simp only [hf, if_true] at k1 k3 ⊢
        refine ⟨k1, k2, k3.congr rfl (fun _ => Iff.rfl) rfl ?_ (fun _ _ => rfl)⟩
        intro l'
        show (a.ext l' && _) = ((decide (l' = l) || a.ext l') && _)
        by_cases e : l' = l
        · subst e; simp only [hext, decide_true, Bool.true_or]; rfl
        · simp only [e, decide_false, Bool.false_or]; rfl

/-- `reset` of the voltage levels of a list. -/
def Abs.wipe (a : Abs) (v : String) (ls : List String) : Abs :=
  Abs.clean { a with slack := fun v' l => if v' = v ∧ l ∈ ls then none else a.slack v' l } ls

theorem wipe_ext (a : Abs) (v : String) (ls : List String) (l : String) :
    (a.wipe v ls).ext l = (a.ext l && (!decide (l ∈ ls) || a.vars.any fun v' => !decide (v' = v) && (a.slack v' l).isSome)) := by
  show (a.ext l && (!ls.contains l || a.vars.any _)) = _
  by_cases e : l ∈ ls
  · have : (fun v' => (if v' = v ∧ l ∈ ls then (none : Slot) else a.slack v' l).isSome) =
        fun v' => !decide (v' = v) && (a.slack v' l).isSome := by
      funext v'
      by_cases ev : v' = v <;> simp [ev, e]
    rw [this, List.contains_eq_mem]
  · simp [e]

theorem resetLoop_shows (ls : List String) : ∀ {s : Net} {a : Abs} {v : String}, Inv s → ShowsV s a → a.cur = some v →
    (∀ l ∈ ls, l ∈ a.levels) →
    (resetLoop ls s).1 = .ok () ∧ Inv (resetLoop ls s).2 ∧ ShowsV (resetLoop ls s).2 (a.wipe v ls) := by
  induction ls with
  | nil =>
    intro s a v h g hc _
    refine ⟨rfl, h, g.congr rfl (fun _ => Iff.rfl) rfl ?_ ?_⟩
    · intro l; rw [wipe_ext]; simp
    · intro v' l; simp [Abs.wipe, Abs.clean]
  | cons l ls ih =>
    intro s a v h g hc hl
    obtain ⟨k1, k2, k3⟩ := reset_shows h g l none
    have key : ∃ b, a.reset l none = (.ok (), b) ∧ b.levels = a.levels ∧ b.vars = a.vars ∧ b.cur = a.cur ∧
        (∀ l', b.ext l' = (a.wipe v [l]).ext l') ∧ ∀ v' l', b.slack v' l' = if v' = v ∧ l' = l then none else a.slack v' l' := by
      unfold Abs.reset
      simp only [hc]
      cases he : a.ext l with
      | false =>
        simp only [and_self, if_true]
        refine ⟨a, rfl, rfl, rfl, hc, ?_, ?_⟩
        · intro l'
          rw [wipe_ext]
          by_cases e : l' = l
          · subst e; simp [he]
          · simp [e]
        · intro v' l'
          split
          · rename_i q; rw [q.2]; exact slack_none g he v'
          · rfl
      | true =>
        simp only [Bool.true_eq_false, false_and, if_false, hl l (by simp), fits, and_self, if_true]
        refine ⟨_, rfl, rfl, rfl, hc, ?_, fun _ _ => rfl⟩
        intro l'
        rw [wipe_ext]
        show ((decide (l' = l) || a.ext l') && (![l].contains l' || a.vars.any fun v' => (if v' = v ∧ l' = l then (none : Slot) else a.slack v' l').isSome)) = _
        by_cases e : l' = l
        · subst e
          simp only [he, and_true, decide_true, Bool.true_or, Bool.true_and, List.contains_cons, beq_self_eq_true,
            Bool.not_true, Bool.false_or, List.mem_singleton]
          congr 1
          funext v'
          by_cases ev : v' = v <;> simp [ev]
        · simp [e]
    obtain ⟨b, eb, b1, b2, b3, b4, b5⟩ := key
    rw [eb] at k1 k3
    unfold resetLoop
    generalize hr : reset s l none = r at k1 k2 k3
    obtain ⟨r1, s'⟩ := r
    simp only at k1 k2 k3
    subst k1
    simp only []
    obtain ⟨m1, m2, m3⟩ := ih k2 k3 (by rw [b3]; exact hc) (fun q hq => by rw [b1]; exact hl q (List.mem_cons_of_mem _ hq))
    refine ⟨m1, m2, m3.congr b1 (fun x => by show x ∈ b.vars ↔ x ∈ a.vars; rw [b2]) b3 ?_ ?_⟩
    · intro l'
      rw [wipe_ext, wipe_ext, b4, wipe_ext, b2]
      by_cases e : l' = l
      · subst e
        have : (fun v' => !decide (v' = v) && (b.slack v' l').isSome) = fun v' => !decide (v' = v) && (a.slack v' l').isSome := by
          funext v'
          rw [b5]
          by_cases ev : v' = v <;> simp [ev]
        rw [this]
        simp only [List.mem_singleton, List.mem_cons, decide_true, Bool.not_true, Bool.false_or, true_or]
        cases a.ext l' <;> cases (a.vars.any fun v' => !decide (v' = v) && (a.slack v' l').isSome) <;> simp
      · have : (fun v' => !decide (v' = v) && (b.slack v' l').isSome) = fun v' => !decide (v' = v) && (a.slack v' l').isSome := by
          funext v'
          rw [b5]
          simp [e]
        rw [this]
        simp [e]
    · intro v' l'
      show (if v' = v ∧ l' ∈ ls then none else b.slack v' l') = if v' = v ∧ l' ∈ l :: ls then none else a.slack v' l'
      rw [b5]
      by_cases ev : v' = v
      · by_cases e : l' = l
        · simp [ev, e]
        · simp [ev, e]
      · simp [ev]

/-- Nothing happens without a working variant. -/
theorem resetLoop_none (ls : List String) {s : Net} (h : Inv s) {a : Abs} (g : ShowsV s a) (hc : a.cur = none) :
    resetLoop ls s = (if ls.any a.ext then .thrown else .ok (), s) := by
  have hs : s.cur = none := by
    rcases cur_cases h g with ⟨e, _⟩ | ⟨v, i, _, _, e⟩
    · exact e
    · rw [hc] at e; cases e
  induction ls with
  | nil => rfl
  | cons l ls ih =>
    unfold resetLoop
    cases hx : s.exts.get? l with
    | none =>
      have : a.ext l = false := by rw [g.ext, hx]; rfl
      simp only [reset, hx, ih, List.any_cons, this, Bool.false_or]
    | some x =>
      have : a.ext l = true := by rw [g.ext, hx]; rfl
      simp only [reset, hx, setTerminal, assign_thrown (.inr hs), List.any_cons, this, Bool.true_or, if_true]

theorem resetAll_shows {s : Net} (h : Inv s) {a : Abs} (g : ShowsV s a) :
    (resetAll s).1 = a.resetAll.1 ∧ Inv (resetAll s).2 ∧ ShowsV (resetAll s).2 a.resetAll.2 := by
  unfold resetAll Abs.resetAll
  cases hc : a.cur with
  | none =>
    rw [resetLoop_none s.levels h g hc, g.levels]
    simp only []
    split <;> exact ⟨rfl, h, g⟩
  | some v =>
    simp only []
    obtain ⟨k1, k2, k3⟩ := resetLoop_shows s.levels h g hc (fun l hl => by rw [← g.levels]; exact hl)
    refine ⟨k1, k2, k3.congr rfl (fun _ => Iff.rfl) hc ?_ ?_⟩
    · intro l
      rw [wipe_ext, g.levels]
      show _ = (a.ext l && (!a.levels.contains l || a.vars.any fun v' => (if v' = v then (none : Slot) else a.slack v' l).isSome))
      have : (fun v' => (if v' = v then (none : Slot) else a.slack v' l).isSome) = fun v' => !decide (v' = v) && (a.slack v' l).isSome := by
        funext v'
        by_cases ev : v' = v <;> simp [ev]
      rw [this]
      simp
    · intro v' l
      show (if v' = v ∧ l ∈ s.levels then none else a.slack v' l) = if v' = v then none else a.slack v' l
      by_cases hl : l ∈ s.levels
      · simp [hl]
      · have : a.slack v' l = none := by
          apply slack_none g
          rw [g.ext]
          cases hx : s.exts.get? l with
          | none => rfl
          | some x => exact absurd (h.lev l x hx) hl
        simp [hl, this]

theorem compareRules_map (rs : List (Finder.Terminal → Bool)) (t u : Tm) :
    Finder.compareRules (rs.map fun p (t : Tm) => p ⟨t.addr, t.kind⟩) t u = Finder.compareRules rs ⟨t.addr, t.kind⟩ ⟨u.addr, u.kind⟩ := by
  induction rs with
  | nil => rfl
  | cons p ps ih => simp only [List.map_cons, Finder.compareRules, ih]

theorem rules_order (t u : Tm) : Finder.Beats rules t u ↔ Best.rank t.kind < Best.rank u.kind := by
  rw [← Finder.compareRules_iff]
  unfold rules
  rw [compareRules_map, Finder.compareRules_iff, Finder.default_rules_order]
  show Finder.rank t.kind < Finder.rank u.kind ↔ _
  cases t.kind <;> cases u.kind <;> simp [Finder.rank, Best.rank]

theorem find_is_best (ts : List Tm) : (Finder.find rules ts = none ↔ ts = []) ∧ ∀ t, Finder.find rules ts = some t ↔ Best ts t := by
  obtain ⟨h1, h2⟩ := Finder.find_best rules ts
  refine ⟨h1, fun t => ⟨fun h => ?_, ?_⟩⟩
  · obtain ⟨pre, suf, e, g1, g2⟩ := h2 t h
    refine ⟨pre, suf, e, fun u hu => (rules_order t u).1 (g2 u hu), fun u hu => ?_⟩
    have := g1 u (by rw [e]; simp [hu])
    rw [rules_order] at this
    omega
  · rintro ⟨pre, suf, e, g1, g2⟩
    apply Finder.find_unique rules ts t pre suf e
    · intro u hu
      rw [e] at hu
      rw [rules_order]
      rcases List.mem_append.1 hu with hu | hu
      · have := g1 u hu; omega
      · rcases List.mem_cons.1 hu with rfl | hu
        · omega
        · have := g2 u hu; omega
    · intro u hu; rw [rules_order]; exact g1 u hu

end Verif.Slack
