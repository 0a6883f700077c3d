import Verif.Tap.Props

/-!
Property C33: at most one tap changer of a transformer regulates, in every variant.
-/

namespace Verif.Tap

open Verif

/-- The tap changer of slot `i` regulates in variant `v`. -/
def Tfo.RegIn (t : Tfo α β) (v i : Nat) : Prop := ∃ c, t.slots[i]? = some (some c) ∧ c.regulating v = true

/-- At most one tap changer regulates in variant `v`. -/
def Tfo.AtMostOne (t : Tfo α β) (v : Nat) : Prop := ∀ i j, t.RegIn v i → t.RegIn v j → i = j

/-- Histories for which the property holds: `setRegulating(true)` only while no other tap changer of the transformer regulates in the
    working variant; a regulating tap changer is added only while no other one regulates in the variants that are not selected. -/
def OneOk (t : Tfo α β) : TOp α β → Prop
  | .callRtc i (.setRegulating true) => ∀ w, t.working = some w → ∀ j, t.RegIn w j → j = i
  | .callPtc i (.setRegulating true) => ∀ w, t.working = some w → ∀ j, t.RegIn w j → j = i
  | .addRtc i a => a.regulating = true → ∀ v ∈ t.variants, t.working ≠ some v → ∀ j, t.RegIn v j → j = i
  | .addPtc i a => a.regulating = true → ∀ v ∈ t.variants, t.working ≠ some v → ∀ j, t.RegIn v j → j = i
  | _ => True

/-- Every step of the history satisfies the restriction in the state in which it is made. -/
def Tfo.AllowedOne : Tfo α β → List (TOp α β) → Prop
  | _, [] => True
  | t, o :: os => OneOk t o ∧ AllowedOne (t.step o).2 os

theorem countP_pos_of_getElem? {p : α → Bool} {l : List α} {i : Nat} {a : α} (h : l[i]? = some a) (hp : p a = true) :
    1 ≤ l.countP p :=
  List.countP_pos_iff.2 ⟨a, List.mem_of_getElem? h, hp⟩

theorem countP_two {p : α → Bool} {l : List α} {i j : Nat} {a b : α} (hi : l[i]? = some a) (hj : l[j]? = some b)
    (ha : p a = true) (hb : p b = true) (hne : i ≠ j) : 2 ≤ l.countP p := by
  induction l generalizing i j with
  | nil => simp at hi
  | cons x xs ih =>
    rw [List.countP_cons]
    cases i with
    | zero =>
      cases j with
      | zero => exact absurd rfl hne
      | succ j =>
        simp at hi hj
        subst hi
        have := countP_pos_of_getElem? hj hb
        rw [if_pos ha]; omega
    | succ i =>
      cases j with
      | zero =>
        simp at hi hj
        subst hj
        have := countP_pos_of_getElem? hi ha
        rw [if_pos hb]; omega
      | succ j =>
        simp at hi hj
        have := ih hi hj (by omega)
        omega

theorem regIn_of_set {t : Tfo α β} {i j v : Nat} {c : Option (TapCh α β)} {vs : List Nat} {w : Option Nat}
    (h : (Tfo.mk (t.slots.set i c) vs w).RegIn v j) :
    (j = i ∧ ∃ x, c = some x ∧ x.regulating v = true) ∨ (j ≠ i ∧ t.RegIn v j) := by
  rcases h with ⟨x, hx, hr⟩
  replace hx : (t.slots.set i c)[j]? = some (some x) := hx
  rw [List.getElem?_set] at hx
  split at hx
  · rename_i hij
    split at hx
    · cases hx; exact .inl ⟨hij.symm, x, rfl, hr⟩
    · cases hx
  · rename_i hij
    exact .inr ⟨fun h => hij h.symm, x, hx, hr⟩

theorem afterR_regulating {a : RtcOp} {s : RtcS α} {p : RtcP} (h : (afterR a s p).2.base.regulating = true) :
    p.base.regulating = true ∨ a = .setRegulating true := by
  rw [afterR_eq] at h
  cases a with
  | setTapPosition pos => simp only [after_setTapPosition] at h; split at h <;> exact .inl h
  | setLowTapPosition low => exact .inl h
  | setTargetDeadband d => simp only [after_setTargetDeadband] at h; split at h <;> exact .inl h
  | setRegulating r =>
    cases r with
    | true => exact .inr rfl
    | false =>
      simp only at h
      split at h
      · simp only [after_setRegulating] at h
        split at h
        · cases h
        · exact .inl h
      · exact .inl h
  | setRegulationTerminal t => simp only at h; split at h <;> exact .inl h
  | setTargetV v => simp only at h; split at h <;> exact .inl h
  | setLoadTapChangingCapabilities b => exact .inl h

theorem afterP_regulating {a : PtcOp} {s : PtcS α} {p : PtcP} (h : (afterP a s p).2.base.regulating = true) :
    p.base.regulating = true ∨ a = .setRegulating true := by
  rw [afterP_eq] at h
  cases a with
  | setTapPosition pos => simp only [after_setTapPosition] at h; split at h <;> exact .inl h
  | setLowTapPosition low => exact .inl h
  | setTargetDeadband d => simp only [after_setTargetDeadband] at h; split at h <;> exact .inl h
  | setRegulating r =>
    cases r with
    | true => exact .inr rfl
    | false =>
      simp only [after_setRegulating] at h
      split at h
      · cases h
      · exact .inl h
  | setRegulationTerminal t => simp only at h; split at h <;> exact .inl h
  | setRegulationMode m => exact .inl h
  | setRegulationValue v => simp only at h; split at h <;> exact .inl h

theorem applyAt_eq (f : Act σ ρ) (s : σ) (per : Nat → ρ) (w : Option Nat) (v : Nat) :
    (applyAt f s per w).2.2 v = if w = some v then ((f s (some (per v))).2.2).getD (per v) else per v := by
  simp only [applyAt]
  split
  · rename_i h
    subst h
    simp only [Option.map]
    cases (f s (some (per v))).2.2 <;> rfl
  · rfl

/-- The adders leave the transformer as it was when they refuse; when a regulating tap changer is accepted no other one regulates in the
    working variant. -/
theorem install_spec (t : Tfo α β) (i : Nat) (c : TapCh α β) (r : Bool) :
    ((t.install i c r).1 = .ok () ∧ (t.install i c r).2 = { t with slots := t.slots.set i (some c) } ∧
      (r = true → ∀ w, t.working = some w → ∀ j, t.RegIn w j → j = i) ∧
      (t.working = none → ∀ v j, ¬ t.RegIn v j)) ∨
    (t.install i c r).1 ≠ .ok () ∧ (t.install i c r).2 = t := by
  simp only [Tfo.install]
  cases hs : t.slotRegulating i with
  | thrown => exact .inr ⟨by nofun, rfl⟩
  | ub => exact .inr ⟨by nofun, rfl⟩
  | ok was =>
    cases hn : t.count with
    | thrown => exact .inr ⟨by nofun, rfl⟩
    | ub => exact .inr ⟨by nofun, rfl⟩
    | ok n =>
      simp only
      by_cases hc : r = true ∧ n - (if was = true then 1 else 0) > 0
      · simp only [checkOnlyOne, if_pos hc]
        exact .inr ⟨by nofun, trivial⟩
      · simp only [checkOnlyOne, if_neg hc]
        refine .inl ⟨trivial, trivial, ?_, ?_⟩
        · rintro rfl w hw j ⟨x, hx, hr⟩
          apply Classical.byContradiction
          intro hij
          have hle : n ≤ (if was = true then 1 else 0) := by
            apply Classical.byContradiction
            intro h; exact hc ⟨rfl, by omega⟩
          simp only [Tfo.count, hw] at hn
          cases hn
          cases was with
          | false =>
            have := countP_pos_of_getElem? (p := slotReg w) hx hr
            have h0 : ¬ (1 ≤ 0) := by decide
            exact h0 (Nat.le_trans this hle)
          | true =>
            simp only [Tfo.slotRegulating] at hs
            split at hs
            · rename_i y hy
              rw [hw] at hs
              simp only at hs
              have hr' : y.regulating w = true := by injection hs
              have := countP_two (p := slotReg w) hy hx hr' hr
                (fun h => hij h.symm)
              have h0 : ¬ (2 ≤ 1) := by decide
              exact h0 (Nat.le_trans this hle)
            · cases hs
        · rintro hw v j ⟨x, hx, -⟩
          simp only [Tfo.count, hw] at hn
          split at hn
          · rename_i hall
            rw [List.all_eq_true] at hall
            have := hall _ (List.mem_of_getElem? hx)
            cases this
          · cases hn

theorem one_step {t : Tfo α β} {o : TOp α β} (h : ∀ v ∈ t.variants, t.AtMostOne v) (ho : OneOk t o) :
    ∀ v ∈ (t.step o).2.variants, (t.step o).2.AtMostOne v := by
  have hcall : ∀ (i : Nat) (c c' : TapCh α β), t.slots[i]? = some (some c) →
      (∀ v, c'.regulating v = true → c.regulating v = true ∨ (t.working = some v ∧ ∀ j, t.RegIn v j → j = i)) →
      ∀ v ∈ t.variants, ({ t with slots := t.slots.set i (some c') } : Tfo α β).AtMostOne v := by
    intro i c c' hc hreg v hv j k hj hk
    rcases regIn_of_set hj with ⟨hji, x, hx, hxr⟩ | ⟨hji, hj'⟩ <;> rcases regIn_of_set hk with ⟨hki, y, hy, hyr⟩ | ⟨hki, hk'⟩
    · rw [hji, hki]
    · cases hx
      rcases hreg v hxr with h1 | ⟨_, h1⟩
      · rw [hji]; exact h v hv i k ⟨c, hc, h1⟩ hk'
      · exact absurd (h1 k hk') hki
    · cases hy
      rcases hreg v hyr with h1 | ⟨_, h1⟩
      · rw [hki]; exact h v hv j i hj' ⟨c, hc, h1⟩
      · exact absurd (h1 j hj') hji
    · exact h v hv j k hj' hk'
  have hadd : ∀ (i : Nat) (c : TapCh α β) (r : Bool), (∀ v, c.regulating v = r) →
      (r = true → ∀ v ∈ t.variants, t.working ≠ some v → ∀ j, t.RegIn v j → j = i) →
      (∀ v ∈ (t.install i c r).2.variants, (t.install i c r).2.AtMostOne v) := by
    intro i c r hcr hother
    rcases install_spec t i c r with ⟨_, h2, h3, h4⟩ | ⟨_, h2⟩
    · rw [h2]
      intro v hv j k hj hk
      have key : r = true → ∀ j, t.RegIn v j → j = i := by
        intro hr
        by_cases hw : t.working = some v
        · exact h3 hr v hw
        · exact hother hr v hv hw
      rcases regIn_of_set hj with ⟨hji, x, hx, hxr⟩ | ⟨hji, hj'⟩ <;> rcases regIn_of_set hk with ⟨hki, y, hy, hyr⟩ | ⟨hki, hk'⟩
      · rw [hji, hki]
      · cases hx
        rw [hcr] at hxr
        exact absurd (key hxr k hk') hki
      · cases hy
        rw [hcr] at hyr
        exact absurd (key hyr j hj') hji
      · exact h v hv j k hj' hk'
    · rw [h2]; exact h
  cases o with
  | callRtc i a =>
    simp only [Tfo.step]
    split
    · rename_i s per hslot
      refine hcall i _ _ hslot ?_
      intro v hv
      simp only [TapCh.regulating] at hv ⊢
      rw [applyAt_eq] at hv
      split at hv
      · rename_i hw
        rcases afterR_regulating hv with h1 | h1
        · exact .inl h1
        · subst h1
          exact .inr ⟨hw, ho v hw⟩
      · exact .inl hv
    · exact h
  | callPtc i a =>
    simp only [Tfo.step]
    split
    · rename_i s per hslot
      refine hcall i _ _ hslot ?_
      intro v hv
      simp only [TapCh.regulating] at hv ⊢
      rw [applyAt_eq] at hv
      split at hv
      · rename_i hw
        rcases afterP_regulating hv with h1 | h1
        · exact .inl h1
        · subst h1
          exact .inr ⟨hw, ho v hw⟩
      · exact .inl hv
    · exact h
  | addRtc i args =>
    simp only [Tfo.step]
    cases hb : args.build with
    | ok x =>
      refine hadd i _ _ ?_ ho
      intro v
      show x.2.base.regulating = _
      simp only [RtcArgs.build] at hb
      split at hb
      · cases hb
      · split at hb
        · cases hb
        · rcases Out.bind_eq_ok.1 hb with ⟨_, h1, hb⟩
          rcases Out.bind_eq_ok.1 hb with ⟨_, h2, hb⟩
          rcases Out.bind_eq_ok.1 hb with ⟨_, h3, hb⟩
          cases hb; rfl
    | thrown => exact h
    | ub => exact h
  | addPtc i args =>
    simp only [Tfo.step]
    cases hb : args.build with
    | ok x =>
      refine hadd i _ _ ?_ ho
      intro v
      show x.2.base.regulating = _
      simp only [PtcArgs.build] at hb
      split at hb
      · cases hb
      · split at hb
        · cases hb
        · rcases Out.bind_eq_ok.1 hb with ⟨_, h1, hb⟩
          rcases Out.bind_eq_ok.1 hb with ⟨_, h2, hb⟩
          rcases Out.bind_eq_ok.1 hb with ⟨_, h3, hb⟩
          cases hb; rfl
    | thrown => exact h
    | ub => exact h
  | removeTap i =>
    simp only [Tfo.step]
    intro v hv j k hj hk
    rcases regIn_of_set hj with ⟨_, _, hx, _⟩ | ⟨hji, hj'⟩
    · cases hx
    · rcases regIn_of_set hk with ⟨_, _, hx, _⟩ | ⟨hki, hk'⟩
      · cases hx
      · exact h v hv j k hj' hk'
  | select v => simp only [Tfo.step]; split <;> exact h
  | clone s d =>
    simp only [Tfo.step]
    split
    · rename_i hs
      intro v hv
      have hback : ∀ j, ({ t with
          slots := t.slots.map (Option.map (TapCh.clone s d))
          variants := if d ∈ t.variants then t.variants else t.variants ++ [d] } : Tfo α β).RegIn v j →
          t.RegIn (if v = d then s else v) j := by
        rintro j ⟨c, hc, hr⟩
        replace hc : (t.slots.map (Option.map (TapCh.clone s d)))[j]? = some (some c) := hc
        rw [List.getElem?_map] at hc
        cases hx : t.slots[j]? with
        | none => rw [hx] at hc; cases hc
        | some y =>
          cases y with
          | none => rw [hx] at hc; cases hc
          | some y =>
            rw [hx] at hc
            simp only [Option.map, Option.some.injEq] at hc
            subst hc
            refine ⟨y, hx, ?_⟩
            cases y <;> simp only [TapCh.clone, TapCh.regulating] at hr ⊢ <;> split at hr <;> simp_all
      have hmem : (if v = d then s else v) ∈ t.variants := by
        split
        · exact hs
        · rename_i hne
          replace hv : v ∈ (if d ∈ t.variants then t.variants else t.variants ++ [d]) := hv
          split at hv
          · exact hv
          · simpa [hne] using hv
      intro j k hj hk
      exact h _ hmem j k (hback j hj) (hback k hk)
    · exact h
  | remove v =>
    simp only [Tfo.step]
    split
    · intro w hw
      exact h w (List.mem_filter.1 hw).1
    · exact h

/-- **C33**, partial: in every variant, after any history that follows the restriction `OneOk`, at most one tap changer of the transformer
    regulates.  Without the restriction it is false: only the adders check, and only in the working variant
    (`two_regulating_by_setter`, `two_regulating_by_adder`). -/
theorem at_most_one_regulating_partial (n : Nat) (variants : List Nat) (w : Option Nat) (ops : List (TOp α β))
    (ha : Tfo.AllowedOne ⟨List.replicate n none, variants, w⟩ ops) :
    let t := Tfo.run ⟨List.replicate n none, variants, w⟩ ops
    ∀ v ∈ t.variants, t.AtMostOne v := by
  have h0 : ∀ v ∈ (Tfo.mk (List.replicate n (none : Option (TapCh α β))) variants w).variants,
      (Tfo.mk (List.replicate n (none : Option (TapCh α β))) variants w).AtMostOne v := by
    rintro v _ i j ⟨c, hc, _⟩
    replace hc : (List.replicate n (none : Option (TapCh α β)))[i]? = some (some c) := hc
    have := List.mem_of_getElem? hc
    simp at this
  revert h0 ha
  generalize Tfo.mk (List.replicate n (none : Option (TapCh α β))) variants w = t
  induction ops generalizing t with
  | nil => intro _ h0; exact h0
  | cons o os ih => intro ha h0; exact ih _ ha.2 (one_step h0 ha.1)

/-- **C33**, what the adders guarantee without restriction on the history: a successful `add` of a regulating tap changer leaves exactly
    one regulating tap changer in the working variant, the new one. -/
theorem add_exactly_one (t : Tfo α β) (i : Nat) (hi : i < t.slots.length) (args : RtcArgs α) (hr : args.regulating = true)
    {w : Nat} (hw : t.working = some w) (hok : (t.step (.addRtc i args)).1 = .ok ()) :
    ∀ j, (t.step (.addRtc i args)).2.RegIn w j ↔ j = i := by
  simp only [Tfo.step] at hok ⊢
  cases hb : args.build with
  | ok x =>
    rw [hb] at hok
    simp only at hok ⊢
    rcases install_spec t i (TapCh.rtc x.1 fun _ => x.2) args.regulating with ⟨_, h2, h3, h4⟩ | ⟨h1, _⟩
    · rw [h2]
      have hxr : x.2.base.regulating = true := by
        simp only [RtcArgs.build] at hb
        split at hb
        · cases hb
        · split at hb
          · cases hb
          · rcases Out.bind_eq_ok.1 hb with ⟨_, h1, hb⟩
            rcases Out.bind_eq_ok.1 hb with ⟨_, h2, hb⟩
            rcases Out.bind_eq_ok.1 hb with ⟨_, h3, hb⟩
            cases hb; exact hr
      intro j
      constructor
      · intro hj
        rcases regIn_of_set hj with ⟨hji, _⟩ | ⟨hji, hj'⟩
        · exact hji
        · exact h3 hr w hw j hj'
      · rintro rfl
        exact ⟨TapCh.rtc x.1 fun _ => x.2, by show (t.slots.set j _)[j]? = _; simp [hi], hxr⟩
    · exact absurd hok h1
  | thrown => rw [hb] at hok; cases hok
  | ub => rw [hb] at hok; cases hok

/-- A two windings transformer in a network with two variants. -/
def sampleTfo : Tfo Nat Nat := ⟨[none, none], [0, 1], some 0⟩

/-- A history that satisfies the restriction: a regulating ratio tap changer, a phase tap changer, regulation moved from one to the other. -/
example : Tfo.AllowedOne sampleTfo [.addRtc 1 (sampleRtc true true 220), .callRtc 1 (.setRegulating false),
    .callPtc 0 (.setRegulating true)] := by
  refine ⟨?_, trivial, ?_, trivial⟩
  · intro _ v _ _ j
    rintro ⟨c, hc, _⟩
    match j, hc with
    | 0, hc => cases hc
    | 1, hc => cases hc
    | (j + 2), hc => cases hc
  · intro w hw j
    have hw' : w = 0 := by
      have : some 0 = some w := hw
      cases this; rfl
    subst hw'
    rintro ⟨c, hc, hr⟩
    match j, hc with
    | 0, hc => cases hc
    | 1, hc => cases hc; revert hr; decide
    | (j + 2), hc => cases hc

example : (sampleTfo.step (.addRtc 1 (sampleRtc true true 220))).1 = .ok () := by decide

/-- The setter does not look at the other tap changers. -/
theorem two_regulating_by_setter :
    let t := sampleTfo.run [.addRtc 1 (sampleRtc true true 220), .addPtc 0 (samplePtc .currentLimiter false),
      .callPtc 0 (.setRegulating true)]
    t.RegIn 0 0 ∧ t.RegIn 0 1 := by
  constructor
  · exact ⟨_, rfl, by decide⟩
  · exact ⟨_, rfl, by decide⟩

/-- The adder looks at the other tap changers in the working variant only: the new one regulates in every variant. -/
theorem two_regulating_by_adder :
    let t := sampleTfo.run [.addRtc 1 (sampleRtc true true 220), .callRtc 1 (.setRegulating false),
      .addPtc 0 (samplePtc .currentLimiter true)]
    t.RegIn 1 0 ∧ t.RegIn 1 1 := by
  constructor
  · exact ⟨_, rfl, by decide⟩
  · exact ⟨_, rfl, by decide⟩

end Verif.Tap
