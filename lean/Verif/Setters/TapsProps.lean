import Verif.Setters.Lemmas

/-!
C94 for the tap changers and the transformers: positions stay inside whatever the calls, and what a call leaves is valid when and only when the call is safe.
-/

namespace Verif.Setters

open Verif Verif.Xml Verif.XmlNet

theorem inside_steps {low tap : Int} {n : Nat} (h : Inside low tap n) : n ≠ 0 := by
  obtain ⟨_, h1, h2⟩ := h
  omega

theorem taps_of_inside {low tap : Int} {n : Nat} {on : Bool} {d : Dbl} (h : Inside low tap n) (hd : Dbl.lt d 0 = false) (ho : on = true → IsSet d) : TapsValid low tap n on d :=
  ⟨inside_steps h, fun _ _ => h.2, hd, ho⟩

theorem stepAt_lt {low tap p : Int} {n : Nat} (h : Inside low tap n) (hp : badTap low p n = false) : stepAt low p < n := by
  obtain ⟨_, h1, h2⟩ := tap_inside h.1 (inside_steps h) hp
  unfold stepAt
  omega

/-- The position of a ratio tap changer is one of its steps after every call. -/
theorem ratio_stays_inside {o : RtcOp} {t u : Rtc} (ht : RtcInside t) (h : o.set t = .ok u) : RtcInside u := by
  have hn := inside_steps ht
  cases o with
  | setTapPosition p => obtain ⟨h1, rfl⟩ := grd_ok.1 h; exact tap_inside ht.1 hn h1
  | setLowTapPosition l =>
    obtain ⟨p, h1, rfl⟩ := lift_ok h
    have := shift_ok h1
    obtain ⟨h2, h3, h4⟩ := ht
    exact ⟨l.2.1, by show l.1 ≤ p; omega, by show p ≤ l.1 + (t.steps.length : Int) - 1; omega⟩
  | setRegulating b => obtain ⟨h1, rfl⟩ := grd_ok.1 h; exact ht
  | setRegulationTerminal r s => obtain ⟨h1, rfl⟩ := grd_ok.1 h; exact ht
  | setTargetDeadband d => obtain ⟨h1, rfl⟩ := grd_ok.1 h; exact ht
  | setTargetV d => obtain ⟨h1, rfl⟩ := grd_ok.1 h; exact ht
  | setLoadTapChangingCapabilities b => obtain ⟨h1, rfl⟩ := grd_ok.1 h; exact ht
  | setStep p f d =>
    obtain ⟨h1, rfl⟩ := grd_ok.1 h
    unfold RtcInside
    rw [List.length_modify]
    exact ht

/-- The same of a phase tap changer. -/
theorem phase_stays_inside {o : PtcOp} {t u : Ptc} (ht : PtcInside t) (h : o.set t = .ok u) : PtcInside u := by
  have hn := inside_steps ht
  cases o with
  | setTapPosition p => obtain ⟨h1, rfl⟩ := grd_ok.1 h; exact tap_inside ht.1 hn h1
  | setLowTapPosition l =>
    obtain ⟨p, h1, rfl⟩ := lift_ok h
    have := shift_ok h1
    obtain ⟨h2, h3, h4⟩ := ht
    exact ⟨l.2.1, by show l.1 ≤ p; omega, by show p ≤ l.1 + (t.steps.length : Int) - 1; omega⟩
  | setRegulating b => obtain ⟨h1, rfl⟩ := grd_ok.1 h; exact ht
  | setRegulationTerminal r s => obtain ⟨h1, rfl⟩ := grd_ok.1 h; exact ht
  | setTargetDeadband d => obtain ⟨h1, rfl⟩ := grd_ok.1 h; exact ht
  | setRegulationMode m => obtain ⟨h1, rfl⟩ := grd_ok.1 h; exact ht
  | setRegulationValue d => obtain ⟨h1, rfl⟩ := grd_ok.1 h; exact ht
  | setStep p f d =>
    obtain ⟨h1, rfl⟩ := grd_ok.1 h
    unfold PtcInside
    rw [List.length_modify]
    exact ht
  | setAlpha p d =>
    obtain ⟨h1, rfl⟩ := grd_ok.1 h
    unfold PtcInside
    rw [List.length_modify]
    exact ht

theorem ratio_regulation_valid {on ltc s : Bool} {v : Dbl} {r : Option Ref} (h : badRatio on ltc v r s = false) :
    on = true → r ≠ none ∧ (ltc = true → Dbl.lt 0 v = true) := by
  rintro rfl
  simp only [badRatio, Bool.true_and, Bool.or_eq_false_iff] at h
  refine ⟨?_, ?_⟩
  · rintro rfl
    cases h.2
  · rintro rfl
    simp only [Bool.true_and, Bool.or_eq_false_iff] at h
    exact Dbl.lt_of_not_le h.1.1.1 rfl h.1.1.2

theorem putStep_valid {f : Field} {d : Dbl} {s : Step} (hs : StepValid s) : StepValid (putStep f d s) ↔ IsSet d := by
  obtain ⟨h1, h2, h3, h4, h5⟩ := hs
  cases f with
  | r => exact ⟨fun h => h.1, fun h => ⟨h, h2, h3, h4, h5⟩⟩
  | x => exact ⟨fun h => h.2.1, fun h => ⟨h1, h, h3, h4, h5⟩⟩
  | g => exact ⟨fun h => h.2.2.1, fun h => ⟨h1, h2, h, h4, h5⟩⟩
  | b => exact ⟨fun h => h.2.2.2.1, fun h => ⟨h1, h2, h3, h, h5⟩⟩
  | rho => exact ⟨fun h => h.2.2.2.2, fun h => ⟨h1, h2, h3, h4, h⟩⟩

/-- A ratio tap changer stays valid when and only when the call is safe. -/
theorem ratio_stays_valid_iff {o : RtcOp} {t u : Rtc} (ht : RtcValid t) (hi : RtcInside t) (h : o.set t = .ok u) : RtcValid u ↔ o.Safe t := by
  have hu := ratio_stays_inside hi h
  cases o with
  | setTapPosition p => obtain ⟨h1, rfl⟩ := grd_ok.1 h; exact ⟨fun _ => trivial, fun _ => { ht with taps := taps_of_inside hu ht.taps.deadband ht.taps.regulating }⟩
  | setLowTapPosition l => obtain ⟨p, h1, rfl⟩ := lift_ok h; exact ⟨fun _ => trivial, fun _ => { ht with taps := taps_of_inside hu ht.taps.deadband ht.taps.regulating }⟩
  | setRegulating b =>
    obtain ⟨h1, rfl⟩ := grd_ok.1 h
    rw [Bool.or_eq_false_iff] at h1
    exact ⟨fun _ => trivial, fun _ => { ht with
      taps := taps_of_inside hu (deadband_valid h1.2).1 (deadband_valid h1.2).2, regulating := ratio_regulation_valid h1.1 }⟩
  | setRegulationTerminal r s =>
    obtain ⟨h1, rfl⟩ := grd_ok.1 h
    rw [Bool.or_eq_false_iff] at h1
    exact ⟨fun _ => trivial, fun _ => { ht with regulating := ratio_regulation_valid h1.1 }⟩
  | setTargetDeadband d =>
    obtain ⟨h1, rfl⟩ := grd_ok.1 h
    exact ⟨fun _ => trivial, fun _ => { ht with taps := taps_of_inside hu (deadband_valid h1).1 (deadband_valid h1).2 }⟩
  | setTargetV d => obtain ⟨h1, rfl⟩ := grd_ok.1 h; exact ⟨fun _ => trivial, fun _ => { ht with regulating := ratio_regulation_valid h1 }⟩
  | setLoadTapChangingCapabilities b =>
    obtain ⟨h1, rfl⟩ := grd_ok.1 h
    exact ⟨fun hv ho hb => (hv.regulating ho).2 hb, fun hs => { ht with regulating := fun ho => ⟨(ht.regulating ho).1, hs ho⟩ }⟩
  | setStep p f d =>
    obtain ⟨h1, rfl⟩ := grd_ok.1 h
    have hk := stepAt_lt hi h1
    constructor
    · intro hv
      have := hv.steps _ (modify_mem (f := putStep f d) hk)
      exact (putStep_valid (ht.steps _ (List.getElem_mem hk))).1 this
    · intro hs
      refine ⟨taps_of_inside hu ht.taps.deadband ht.taps.regulating, ht.regulating, ?_⟩
      intro y hy
      rcases mem_modify hy with hy | ⟨z, hz, rfl⟩
      · exact ht.steps y hy
      · exact (putStep_valid (ht.steps z hz)).2 hs

theorem phase_regulation_valid {on s : Bool} {m : Nat} {v : Dbl} {r : Option Ref} (h : badPhase m v on r s = false) :
    m < Enums.phaseTapChangerRegulationMode.enumerators.length ∧ (on = true → r ≠ none ∧ IsSet v ∧ m ≠ 2) := by
  simp only [badPhase, Bool.or_eq_false_iff, decide_eq_false_iff_not, Nat.not_le] at h
  refine ⟨h.1.1, ?_⟩
  rintro rfl
  have := h.1.2
  simp only [Bool.true_and, Bool.or_eq_false_iff, beq_eq_false_iff_ne] at this
  exact ⟨(by rintro rfl; cases this.2), this.1.2, this.1.1⟩

/-- A phase tap changer stays valid when and only when the call is safe. -/
theorem phase_stays_valid_iff {o : PtcOp} {t u : Ptc} (ht : PtcValid t) (hi : PtcInside t) (h : o.set t = .ok u) : PtcValid u ↔ o.Safe t := by
  have hu := phase_stays_inside hi h
  cases o with
  | setTapPosition p => obtain ⟨h1, rfl⟩ := grd_ok.1 h; exact ⟨fun _ => trivial, fun _ => { ht with taps := taps_of_inside hu ht.taps.deadband ht.taps.regulating }⟩
  | setLowTapPosition l => obtain ⟨p, h1, rfl⟩ := lift_ok h; exact ⟨fun _ => trivial, fun _ => { ht with taps := taps_of_inside hu ht.taps.deadband ht.taps.regulating }⟩
  | setRegulating b =>
    obtain ⟨h1, rfl⟩ := grd_ok.1 h
    exact ⟨fun hv hb => hv.regulating hb, fun hs => { ht with taps := taps_of_inside hu (deadband_valid h1).1 (deadband_valid h1).2, regulating := hs }⟩
  | setRegulationTerminal r s => obtain ⟨h1, rfl⟩ := grd_ok.1 h; exact ⟨fun _ => trivial, fun _ => { ht with regulating := (phase_regulation_valid h1).2 }⟩
  | setTargetDeadband d =>
    obtain ⟨h1, rfl⟩ := grd_ok.1 h
    exact ⟨fun _ => trivial, fun _ => { ht with taps := taps_of_inside hu (deadband_valid h1).1 (deadband_valid h1).2 }⟩
  | setRegulationMode m =>
    obtain ⟨h1, rfl⟩ := grd_ok.1 h
    exact ⟨fun _ => trivial, fun _ => { ht with mode := (phase_regulation_valid h1).1, regulating := (phase_regulation_valid h1).2 }⟩
  | setRegulationValue d => obtain ⟨h1, rfl⟩ := grd_ok.1 h; exact ⟨fun _ => trivial, fun _ => { ht with regulating := (phase_regulation_valid h1).2 }⟩
  | setStep p f d =>
    obtain ⟨h1, rfl⟩ := grd_ok.1 h
    have hk := stepAt_lt hi h1
    constructor
    · intro hv
      have := hv.steps _ (modify_mem (f := fun s : Step × Dbl => (putStep f d s.1, s.2)) hk)
      exact (putStep_valid (ht.steps _ (List.getElem_mem hk)).1).1 this.1
    · intro hs
      refine ⟨ht.mode, taps_of_inside hu ht.taps.deadband ht.taps.regulating, ht.regulating, ?_⟩
      intro y hy
      rcases mem_modify hy with hy | ⟨z, hz, rfl⟩
      · exact ht.steps y hy
      · exact ⟨(putStep_valid (ht.steps z hz).1).2 hs, (ht.steps z hz).2⟩
  | setAlpha p d =>
    obtain ⟨h1, rfl⟩ := grd_ok.1 h
    have hk := stepAt_lt hi h1
    constructor
    · intro hv
      exact (hv.steps _ (modify_mem (f := fun s : Step × Dbl => (s.1, d)) hk)).2
    · intro hs
      refine ⟨ht.mode, taps_of_inside hu ht.taps.deadband ht.taps.regulating, ht.regulating, ?_⟩
      intro y hy
      rcases mem_modify hy with hy | ⟨z, hz, rfl⟩
      · exact ht.steps y hy
      · exact ⟨(ht.steps z hz).1, hs⟩

/-! ### New tap changers -/

theorem badStep_valid {s : Step} (h : badStep s = false) : StepValid s := by
  simp only [badStep, Bool.or_eq_false_iff] at h
  exact ⟨h.1.1.1.1, h.1.1.1.2, h.1.1.2, h.1.2, h.2⟩

/-- What the adder of a ratio tap changer accepts is valid, with its position inside. -/
theorem new_ratio_valid {l : Long} {t u : Rtc} {s : Bool} (h : newRtc l t s = .ok u) : RtcValid u ∧ RtcInside u := by
  obtain ⟨h1, rfl⟩ := grd_ok.1 h
  simp only [Bool.or_eq_false_iff] at h1
  obtain ⟨⟨⟨⟨h1, h2⟩, h3⟩, h4⟩, h5⟩ := h1
  have hn : t.steps.length ≠ 0 := by
    intro h0
    rw [List.length_eq_zero_iff.1 h0] at h2
    cases h2
  have hi : Inside l.1 t.tap t.steps.length := tap_inside l.2.1 hn h3
  refine ⟨⟨taps_of_inside hi (deadband_valid h5).1 (deadband_valid h5).2, ratio_regulation_valid h4, ?_⟩, hi⟩
  intro y hy
  have := List.any_eq_false.1 h1 y hy
  exact badStep_valid (by simpa using this)

theorem new_phase_valid {l : Long} {t u : Ptc} {s : Bool} (h : newPtc l t s = .ok u) : PtcValid u ∧ PtcInside u := by
  obtain ⟨h1, rfl⟩ := grd_ok.1 h
  simp only [Bool.or_eq_false_iff] at h1
  obtain ⟨⟨⟨⟨h1, h2⟩, h3⟩, h4⟩, h5⟩ := h1
  have hn : t.steps.length ≠ 0 := by
    intro h0
    rw [List.length_eq_zero_iff.1 h0] at h2
    cases h2
  have hi : Inside l.1 t.tap t.steps.length := tap_inside l.2.1 hn h3
  refine ⟨⟨(phase_regulation_valid h4).1, taps_of_inside hi (deadband_valid h5).1 (deadband_valid h5).2, (phase_regulation_valid h4).2, ?_⟩, hi⟩
  intro y hy
  have := List.any_eq_false.1 h1 y hy
  have : (badStep y.1 || y.2.isNan) = false := by simpa using this
  rw [Bool.or_eq_false_iff] at this
  exact ⟨badStep_valid this.1, this.2⟩

/-! ### Windings -/

theorem flags_count (r : Option Rtc) (p : Option Ptc) : (flags r p).countP id = onR r + onP p := by
  rcases r with _ | r <;> rcases p with _ | p
  · rfl
  · obtain ⟨_, _, _, _, _, on, _, _⟩ := p
    cases on <;> rfl
  · obtain ⟨_, _, _, _, on, _, _, _⟩ := r
    cases on <;> rfl
  · obtain ⟨_, _, _, _, _, on, _, _⟩ := p
    obtain ⟨_, _, _, _, on', _, _, _⟩ := r
    cases on <;> cases on' <;> rfl

theorem count_zero {l : List Bool} : l.countP id = 0 ↔ true ∉ l := by
  rw [List.countP_eq_zero]
  constructor
  · intro h ht
    exact h true ht rfl
  · intro h a ha he
    cases a
    · cases he
    · exact h ha

theorem toNat_le (b : Bool) : b.toNat ≤ 1 := by cases b <;> decide

theorem onP_zero {p : Option Ptc} : onP p = 0 ↔ ∀ u, p = some u → u.on = false := by
  cases p with
  | none => simp [onP]
  | some t => cases h : t.on <;> simp [onP, h]

theorem onR_zero {p : Option Rtc} : onR p = 0 ↔ ∀ u, p = some u → u.on = false := by
  cases p with
  | none => simp [onR]
  | some t => cases h : t.on <;> simp [onR, h]

/-- Only `setRegulating` changes the flag. -/
theorem ratio_on {o : RtcOp} {t u : Rtc} (h : o.set t = .ok u) : u.on = t.on ∨ ∃ b, o = .setRegulating b ∧ u.on = b := by
  cases o with
  | setRegulating b => obtain ⟨_, rfl⟩ := grd_ok.1 h; exact .inr ⟨b, rfl, rfl⟩
  | setLowTapPosition l => obtain ⟨p, h1, rfl⟩ := lift_ok h; exact .inl rfl
  | _ => obtain ⟨_, rfl⟩ := grd_ok.1 h; exact .inl rfl

theorem phase_on {o : PtcOp} {t u : Ptc} (h : o.set t = .ok u) : u.on = t.on ∨ ∃ b, o = .setRegulating b ∧ u.on = b := by
  cases o with
  | setRegulating b => obtain ⟨_, rfl⟩ := grd_ok.1 h; exact .inr ⟨b, rfl, rfl⟩
  | setLowTapPosition l => obtain ⟨p, h1, rfl⟩ := lift_ok h; exact .inl rfl
  | _ => obtain ⟨_, rfl⟩ := grd_ok.1 h; exact .inl rfl

theorem ratio_on_regulating {b : Bool} {t u : Rtc} (h : (RtcOp.setRegulating b).set t = .ok u) : u.on = b := by
  obtain ⟨_, rfl⟩ := grd_ok.1 h; rfl

theorem phase_on_regulating {b : Bool} {t u : Ptc} (h : (PtcOp.setRegulating b).set t = .ok u) : u.on = b := by
  obtain ⟨_, rfl⟩ := grd_ok.1 h; rfl

/-- The positions of the tap changers of a winding. -/
theorem winding_stays_inside {n : Nat} {o : TapsOp} {s u : Option Rtc × Option Ptc} (hs : WindingInside s.1 s.2) (h : o.set n s = .ok u) : WindingInside u.1 u.2 := by
  obtain ⟨r, p⟩ := s
  cases o with
  | rtc o =>
    cases r with
    | none => cases h
    | some t => obtain ⟨t', h1, rfl⟩ := lift_ok h; exact ⟨fun w hw => by cases hw; exact ratio_stays_inside (hs.1 t rfl) h1, hs.2⟩
  | ptc o =>
    cases p with
    | none => cases h
    | some t => obtain ⟨t', h1, rfl⟩ := lift_ok h; exact ⟨hs.1, fun w hw => by cases hw; exact phase_stays_inside (hs.2 t rfl) h1⟩
  | newRtc l t s =>
    obtain ⟨v, hv, h⟩ := Out.bind_eq_ok.1 h
    obtain ⟨_, rfl⟩ := grd_ok.1 h
    exact ⟨fun w hw => by cases hw; exact (new_ratio_valid hv).2, hs.2⟩
  | newPtc l t s =>
    obtain ⟨v, hv, h⟩ := Out.bind_eq_ok.1 h
    obtain ⟨_, rfl⟩ := grd_ok.1 h
    exact ⟨hs.1, fun w hw => by cases hw; exact (new_phase_valid hv).2⟩
  | removeRtc => simp only [TapsOp.set, Out.ok.injEq] at h; subst h; exact ⟨nofun, hs.2⟩
  | removePtc => simp only [TapsOp.set, Out.ok.injEq] at h; subst h; exact ⟨hs.1, nofun⟩

/-- What is valid of the tap changers of a winding, `k` tap changers of the other windings regulating. -/
def WindingValid (k : Nat) (r : Option Rtc) (p : Option Ptc) : Prop := (∀ t, r = some t → RtcValid t) ∧ (∀ t, p = some t → PtcValid t) ∧ k + (onR r + onP p) ≤ 1

theorem winding_stays_valid_iff {others : List Bool} {o : TapsOp} {s u : Option Rtc × Option Ptc} (hv : WindingValid (others.countP id) s.1 s.2) (hi : WindingInside s.1 s.2)
    (h : o.set (others.countP id) s = .ok u) : WindingValid (others.countP id) u.1 u.2 ↔ o.Safe others s.1 s.2 := by
  obtain ⟨r, p⟩ := s
  obtain ⟨hr, hp, hk⟩ := hv
  have hz := count_zero (l := others)
  generalize others.countP id = k at hk h hz ⊢
  simp only at hk
  cases o with
  | rtc o =>
    cases r with
    | none => cases h
    | some t =>
      obtain ⟨t', h1, rfl⟩ := lift_ok h
      have hiff := ratio_stays_valid_iff (hr t rfl) (hi.1 t rfl) h1
      constructor
      · rintro ⟨h2, _, h4⟩
        refine ⟨fun w hw => by cases hw; exact hiff.1 (h2 t' rfl), ?_⟩
        rintro rfl
        have hon := ratio_on_regulating h1
        have h4 : k + (t'.on.toNat + onP p) ≤ 1 := h4
        rw [hon, Bool.toNat_true] at h4
        exact ⟨hz.1 (by omega), onP_zero.1 (show onP p = 0 by omega)⟩
      · rintro ⟨h2, h3⟩
        refine ⟨fun w hw => by cases hw; exact hiff.2 (h2 t rfl), hp, ?_⟩
        show k + (t'.on.toNat + onP p) ≤ 1
        have hk' : k + (t.on.toNat + onP p) ≤ 1 := hk
        rcases ratio_on h1 with he | ⟨b, rfl, he⟩
        · rw [he]; exact hk'
        · rw [he]
          cases b with
          | false => simp only [Bool.toNat_false]; omega
          | true =>
            obtain ⟨h5, h6⟩ := h3 rfl
            have := hz.2 h5
            have : onP p = 0 := onP_zero.2 h6
            simp only [Bool.toNat_true]
            omega
  | ptc o =>
    cases p with
    | none => cases h
    | some t =>
      obtain ⟨t', h1, rfl⟩ := lift_ok h
      have hiff := phase_stays_valid_iff (hp t rfl) (hi.2 t rfl) h1
      constructor
      · rintro ⟨_, h2, h4⟩
        refine ⟨fun w hw => by cases hw; exact hiff.1 (h2 t' rfl), ?_⟩
        rintro rfl
        have hon := phase_on_regulating h1
        have h4 : k + (onR r + t'.on.toNat) ≤ 1 := h4
        rw [hon, Bool.toNat_true] at h4
        exact ⟨hz.1 (by omega), onR_zero.1 (show onR r = 0 by omega)⟩
      · rintro ⟨h2, h3⟩
        refine ⟨hr, fun w hw => by cases hw; exact hiff.2 (h2 t rfl), ?_⟩
        show k + (onR r + t'.on.toNat) ≤ 1
        have hk' : k + (onR r + t.on.toNat) ≤ 1 := hk
        rcases phase_on h1 with he | ⟨b, rfl, he⟩
        · rw [he]; exact hk'
        · rw [he]
          cases b with
          | false => simp only [Bool.toNat_false]; omega
          | true =>
            obtain ⟨h5, h6⟩ := h3 rfl
            have := hz.2 h5
            have : onR r = 0 := onR_zero.2 h6
            simp only [Bool.toNat_true]
            omega
  | newRtc l t s =>
    obtain ⟨v, hv, h⟩ := Out.bind_eq_ok.1 h
    obtain ⟨h1, rfl⟩ := grd_ok.1 h
    refine ⟨fun _ => trivial, fun _ => ⟨fun w hw => by cases hw; exact (new_ratio_valid hv).1, hp, ?_⟩⟩
    show k + (v.on.toNat + onP p) ≤ 1
    cases ho : v.on with
    | false => simp only [Bool.toNat_false]; omega
    | true =>
      simp only [ho, Bool.true_and, decide_eq_false_iff_not] at h1
      simp only [Bool.toNat_true]
      omega
  | newPtc l t s =>
    obtain ⟨v, hv, h⟩ := Out.bind_eq_ok.1 h
    obtain ⟨h1, rfl⟩ := grd_ok.1 h
    refine ⟨fun _ => trivial, fun _ => ⟨hr, fun w hw => by cases hw; exact (new_phase_valid hv).1, ?_⟩⟩
    show k + (onR r + v.on.toNat) ≤ 1
    cases ho : v.on with
    | false => simp only [Bool.toNat_false]; omega
    | true =>
      simp only [ho, Bool.true_and, decide_eq_false_iff_not] at h1
      simp only [Bool.toNat_true]
      omega
  | removeRtc =>
    simp only [TapsOp.set, Out.ok.injEq] at h
    subst h
    exact ⟨fun _ => trivial, fun _ => ⟨nofun, hp, by show k + (0 + onP p) ≤ 1; omega⟩⟩
  | removePtc =>
    simp only [TapsOp.set, Out.ok.injEq] at h
    subst h
    exact ⟨fun _ => trivial, fun _ => ⟨hr, nofun, by show k + (onR r + 0) ≤ 1; omega⟩⟩

/-! ### Transformers -/

theorem tw2_stays_inside {o : Tw2Op} {x y : Tw2} (hx : Tw2Inside x) (h : o.set x = .ok y) : Tw2Inside y := by
  cases o with
  | taps o => obtain ⟨s, h1, rfl⟩ := lift_ok h; exact winding_stays_inside (s := (x.rtc, x.ptc)) hx h1
  | ident o => obtain ⟨s, h1, rfl⟩ := lift_ok h; exact hx
  | term b o => cases b <;> (obtain ⟨s, h1, rfl⟩ := lift_ok h; exact hx)
  | lims b o => obtain ⟨s, h1, rfl⟩ := lift_ok h; exact hx
  | _ => obtain ⟨_, rfl⟩ := grd_ok.1 h; exact hx

/-- A transformer with two windings stays valid when and only when the call is safe. -/
theorem tw2_stays_valid_iff {o : Tw2Op} {x y : Tw2} (hx : Tw2Valid x) (hi : Tw2Inside x) (h : o.set x = .ok y) : Tw2Valid y ↔ o.Safe x := by
  obtain ⟨v1, v2, v3, v4, v5, v6⟩ := hx.values
  cases o with
  | ident o => obtain ⟨a, h1, rfl⟩ := lift_ok h; exact ⟨fun _ => trivial, fun _ => { hx with ident := ident_valid hx.ident h1 }⟩
  | term b o =>
    cases b with
    | one => obtain ⟨a, h1, rfl⟩ := lift_ok h; exact ⟨fun _ => trivial, fun _ => { hx with places := ⟨side_valid hx.places.1 h1, hx.places.2⟩ }⟩
    | two => obtain ⟨a, h1, rfl⟩ := lift_ok h; exact ⟨fun _ => trivial, fun _ => { hx with places := ⟨hx.places.1, side_valid hx.places.2 h1⟩ }⟩
  | lims b o => obtain ⟨a, h1, rfl⟩ := lift_ok h; exact ⟨fun _ => trivial, fun _ => { hx with lims := branchLims_valid hx.lims h1 }⟩
  | taps o =>
    obtain ⟨s, h1, rfl⟩ := lift_ok h
    have hs := hx.single
    rw [flags_count] at hs
    have hw := winding_stays_valid_iff (others := []) (s := (x.rtc, x.ptc)) ⟨hx.rtc, hx.ptc, by simpa using hs⟩ hi h1
    constructor
    · intro hy
      have hs' := hy.single
      rw [flags_count] at hs'
      exact hw.1 ⟨hy.rtc, hy.ptc, by simpa using hs'⟩
    · intro ho
      obtain ⟨h2, h3, h4⟩ := hw.2 ho
      exact { hx with rtc := h2, ptc := h3, single := by rw [flags_count]; simpa using h4 }
  | setR d => obtain ⟨h1, rfl⟩ := grd_ok.1 h; exact ⟨fun _ => trivial, fun _ => { hx with values := ⟨h1, v2, v3, v4, v5, v6⟩ }⟩
  | setX d => obtain ⟨h1, rfl⟩ := grd_ok.1 h; exact ⟨fun _ => trivial, fun _ => { hx with values := ⟨v1, h1, v3, v4, v5, v6⟩ }⟩
  | setG d => obtain ⟨h1, rfl⟩ := grd_ok.1 h; exact ⟨fun _ => trivial, fun _ => { hx with values := ⟨v1, v2, h1, v4, v5, v6⟩ }⟩
  | setB d => obtain ⟨h1, rfl⟩ := grd_ok.1 h; exact ⟨fun _ => trivial, fun _ => { hx with values := ⟨v1, v2, v3, h1, v5, v6⟩ }⟩
  | setRatedU1 d => obtain ⟨h1, rfl⟩ := grd_ok.1 h; exact ⟨fun _ => trivial, fun _ => { hx with values := ⟨v1, v2, v3, v4, h1, v6⟩ }⟩
  | setRatedU2 d => obtain ⟨h1, rfl⟩ := grd_ok.1 h; exact ⟨fun _ => trivial, fun _ => { hx with values := ⟨v1, v2, v3, v4, v5, h1⟩ }⟩
  | setRatedS d => obtain ⟨h1, rfl⟩ := grd_ok.1 h; exact ⟨fun _ => trivial, fun _ => { hx with ratedS := rated_valid h1 }⟩

theorem leg_stays_inside {n : Nat} {o : LegOp} {x y : Leg} (hx : LegInside x) (h : o.set n x = .ok y) : LegInside y := by
  cases o with
  | taps o => obtain ⟨s, h1, rfl⟩ := lift_ok h; exact winding_stays_inside (s := (x.sub.rtc, x.sub.ptc)) hx h1
  | term o => obtain ⟨s, h1, rfl⟩ := lift_ok h; exact hx
  | lims o => obtain ⟨s, h1, rfl⟩ := lift_ok h; exact hx
  | _ => obtain ⟨_, rfl⟩ := grd_ok.1 h; exact hx

theorem leg_stays_valid_iff {others : List Bool} {o : LegOp} {x y : Leg} (hx : LegValid x) (hc : others.countP id + legOn x ≤ 1) (hi : LegInside x)
    (h : o.set (others.countP id) x = .ok y) : (LegValid y ∧ others.countP id + legOn y ≤ 1) ↔ o.Safe others x := by
  obtain ⟨v1, v2, v3, v4, v5⟩ := hx.values
  cases o with
  | term o => obtain ⟨a, h1, rfl⟩ := lift_ok h; exact ⟨fun _ => trivial, fun _ => ⟨{ hx with place := side_valid hx.place h1 }, hc⟩⟩
  | lims o =>
    obtain ⟨a, h1, rfl⟩ := lift_ok h
    exact ⟨fun _ => trivial, fun _ => ⟨{ hx with sub := ⟨hx.sub.rtc, hx.sub.ptc, lims_valid hx.sub.lims h1⟩ }, hc⟩⟩
  | taps o =>
    obtain ⟨s, h1, rfl⟩ := lift_ok h
    have hw := winding_stays_valid_iff (s := (x.sub.rtc, x.sub.ptc)) ⟨hx.sub.rtc, hx.sub.ptc, hc⟩ hi h1
    constructor
    · rintro ⟨hy, hn⟩
      exact hw.1 ⟨hy.sub.rtc, hy.sub.ptc, hn⟩
    · intro ho
      obtain ⟨h2, h3, h4⟩ := hw.2 ho
      exact ⟨{ hx with sub := ⟨h2, h3, hx.sub.lims⟩ }, h4⟩
  | setR d => obtain ⟨h1, rfl⟩ := grd_ok.1 h; exact ⟨fun _ => trivial, fun _ => ⟨{ hx with values := ⟨h1, v2, v3, v4, v5⟩ }, hc⟩⟩
  | setX d => obtain ⟨h1, rfl⟩ := grd_ok.1 h; exact ⟨fun _ => trivial, fun _ => ⟨{ hx with values := ⟨v1, h1, v3, v4, v5⟩ }, hc⟩⟩
  | setG d => obtain ⟨h1, rfl⟩ := grd_ok.1 h; exact ⟨fun _ => trivial, fun _ => ⟨{ hx with values := ⟨v1, v2, h1, v4, v5⟩ }, hc⟩⟩
  | setB d => obtain ⟨h1, rfl⟩ := grd_ok.1 h; exact ⟨fun _ => trivial, fun _ => ⟨{ hx with values := ⟨v1, v2, v3, h1, v5⟩ }, hc⟩⟩
  | setRatedU d => obtain ⟨h1, rfl⟩ := grd_ok.1 h; exact ⟨fun _ => trivial, fun _ => ⟨{ hx with values := ⟨v1, v2, v3, v4, h1⟩ }, hc⟩⟩
  | setRatedS d => obtain ⟨h1, rfl⟩ := grd_ok.1 h; exact ⟨fun _ => trivial, fun _ => ⟨{ hx with ratedS := rated_valid h1 }, hc⟩⟩

theorem tw3_stays_inside {o : Tw3Op} {x y : Tw3} (hx : Tw3Inside x) (h : o.set x = .ok y) : Tw3Inside y := by
  cases o with
  | ident o => obtain ⟨s, h1, rfl⟩ := lift_ok h; exact hx
  | leg1 o => obtain ⟨s, h1, rfl⟩ := lift_ok h; exact ⟨leg_stays_inside hx.1 h1, hx.2⟩
  | leg2 o => obtain ⟨s, h1, rfl⟩ := lift_ok h; exact ⟨hx.1, leg_stays_inside hx.2.1 h1, hx.2.2⟩
  | leg3 o => obtain ⟨s, h1, rfl⟩ := lift_ok h; exact ⟨hx.1, hx.2.1, leg_stays_inside hx.2.2 h1⟩

theorem legFlags_count (x : Leg) : (legFlags x).countP id = legOn x := flags_count _ _

theorem tw3_single {a b c : Leg} : (flags a.sub.rtc a.sub.ptc ++ (flags b.sub.rtc b.sub.ptc ++ flags c.sub.rtc c.sub.ptc)).countP id = legOn a + (legOn b + legOn c) := by
  rw [List.countP_append, List.countP_append, flags_count, flags_count, flags_count]
  rfl

theorem legs_count (a b : Leg) : (legFlags a ++ legFlags b).countP id = legOn a + legOn b := by rw [List.countP_append, legFlags_count, legFlags_count]

/-- A transformer with three windings stays valid when and only when the call is safe. -/
theorem tw3_stays_valid_iff {o : Tw3Op} {x y : Tw3} (hx : Tw3Valid x) (hi : Tw3Inside x) (h : o.set x = .ok y) : Tw3Valid y ↔ o.Safe x := by
  have hs := hx.single
  rw [tw3_single] at hs
  cases o with
  | ident o => obtain ⟨a, h1, rfl⟩ := lift_ok h; exact ⟨fun _ => trivial, fun _ => { hx with ident := ident_valid hx.ident h1 }⟩
  | leg1 o =>
    obtain ⟨l, h1, rfl⟩ := lift_ok h
    rw [← legs_count] at h1
    have hw := leg_stays_valid_iff hx.legs.1 (by rw [legs_count]; omega) hi.1 h1
    rw [legs_count] at hw
    refine Iff.trans ⟨fun hy => ⟨hy.legs.1, ?_⟩, fun hy => { hx with legs := ⟨hy.1, hx.legs.2⟩, single := ?_ }⟩ hw
    · rw [tw3_single]
      simp only
      omega
    · have := hy.single
      rw [tw3_single] at this
      simp only at this
      omega
  | leg2 o =>
    obtain ⟨l, h1, rfl⟩ := lift_ok h
    rw [← legs_count] at h1
    have hw := leg_stays_valid_iff hx.legs.2.1 (by rw [legs_count]; omega) hi.2.1 h1
    rw [legs_count] at hw
    refine Iff.trans ⟨fun hy => ⟨hy.legs.2.1, ?_⟩, fun hy => { hx with legs := ⟨hx.legs.1, hy.1, hx.legs.2.2⟩, single := ?_ }⟩ hw
    · rw [tw3_single]
      simp only
      omega
    · have := hy.single
      rw [tw3_single] at this
      simp only at this
      omega
  | leg3 o =>
    obtain ⟨l, h1, rfl⟩ := lift_ok h
    rw [← legs_count] at h1
    have hw := leg_stays_valid_iff hx.legs.2.2 (by rw [legs_count]; omega) hi.2.2 h1
    rw [legs_count] at hw
    refine Iff.trans ⟨fun hy => ⟨hy.legs.2.2, ?_⟩, fun hy => { hx with legs := ⟨hx.legs.1, hx.legs.2.1, hy.1⟩, single := ?_ }⟩ hw
    · rw [tw3_single]
      simp only
      omega
    · have := hy.single
      rw [tw3_single] at this
      simp only at this
      omega

end Verif.Setters
