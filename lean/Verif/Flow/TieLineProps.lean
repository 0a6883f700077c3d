import Verif.Flow.TieLine
import Verif.Flow.Props
import Mathlib.Tactic.LinearCombination

/-! Properties C74 (boundaries of tie lines and dangling lines) and C75 (the characteristics of a tie line). -/

namespace Verif.Flow

open Complex

/-! ### Specification -/

/-- A line with its characteristics: `va`, `vb` are the voltages at side one and side two, `ia`, `ib` the currents entering there. -/
structure Charac.Circuit (c : Charac) (va vb ia ib : ℂ) : Prop where
  one : (c.r + c.x * I) * (ia - (c.g1 + c.b1 * I) * va) = va - vb
  two : (c.r + c.x * I) * (ib - (c.g2 + c.b2 * I) * vb) = vb - va

/-- The values of a terminal and of its bus are those of the voltage `v` and of the current `i` entering the equipment. -/
structure EndState.Describes (t : EndState) (v i : ℂ) : Prop where
  power : ∃ p q, t.p = some p ∧ t.q = some q ∧ v * conj i = p + q * I
  voltage : ∃ u a, t.bus = some (some u, some a) ∧ 0 ≤ u ∧ v = u * exp ((a * (Real.pi / 180) : ℝ) * I)

/-! ### Lemmas -/

theorem mk_eq (a b : ℝ) : (⟨a, b⟩ : ℂ) = a + b * I := by apply Complex.ext <;> simp

theorem impedance_ne {r x : ℝ} (hz : r ≠ 0 ∨ x ≠ 0) : (r + x * I : ℂ) ≠ 0 := by
  intro e
  have e1 := congrArg Complex.re e
  have e2 := congrArg Complex.im e
  simp at e1 e2
  exact hz.elim (fun h => h e1) (fun h => h e2)

theorem charac_adm {c : Charac} (hz : c.r ≠ 0 ∨ c.x ≠ 0) : c.adm = some ⟨1 / (c.r + c.x * I) + (c.g1 + c.b1 * I), -(1 / (c.r + c.x * I)), -(1 / (c.r + c.x * I)),
    1 / (c.r + c.x * I) + (c.g2 + c.b2 * I)⟩ := by
  obtain ⟨m, a1, a2, hm, ha1, ha2, _, _, he⟩ := admittance_spec (r := c.r) (x := c.x) (ratio1 := 1) (angle1 := 0) (ratio2 := 1) (angle2 := 0) (ysh1 := ⟨c.g1, c.b1⟩)
    (ysh2 := ⟨c.g2, c.b2⟩) one_pos one_pos
  have e1 : a1 = 1 := by rw [ha1]; simp
  have e2 : a2 = 1 := by rw [ha2]; simp
  have ec : conj 1 = 1 := by simp [conj]
  unfold Charac.adm
  simp only [rdiv, one_ne_zero, if_false, Option.bind_eq_bind, Option.bind_some, neg_zero, div_one]
  rw [hm, he, e1, e2, ec, if_pos hz]
  simp only [mul_one, div_one, mk_eq]

theorem describes_sv {t : EndState} {v i : ℂ} (h : t.Describes v i) (side : Side) :
    ∃ sv, t.sv side = some sv ∧ sv.side = side ∧ polar sv.u (sv.a * toRadians) = some v ∧ v * conj i = ⟨sv.p, sv.q⟩ := by
  obtain ⟨p, q, hp, hq, hs⟩ := h.power
  obtain ⟨u, a, hb, hu, hv⟩ := h.voltage
  refine ⟨⟨p, q, u, a, side⟩, ?_, rfl, ?_, ?_⟩
  · unfold EndState.sv EndState.v EndState.angle
    rw [hp, hq, hb]
    rfl
  · unfold polar
    rw [if_pos hu, hv]
    rfl
  · rw [hs, mk_eq]

theorem current_of {v i : ℂ} {p q : ℝ} (hv : v ≠ 0) (h : v * conj i = ⟨p, q⟩) : conj ⟨p, q⟩ / conj v = i := by
  rw [← h, conj_mul, conj_conj]
  field_simp [conj_ne_zero hv]

/-- The four getters of a boundary, for a voltage and a power there. -/
def Shows (c : Charac) (side : Side) (t : EndState) (v s : ℂ) : Prop :=
  boundaryV c side t = some ‖v‖ ∧ boundaryAngle c side t = some (v.arg * (180 / Real.pi)) ∧ boundaryP c side t = some s.re ∧ boundaryQ c side t = some s.im

theorem shows_of {c : Charac} {side : Side} {t : EndState} {m : Adm} {sv : SV} {v s : ℂ} {o : Side} (hm : c.adm = some m) (hs : t.sv side = some sv)
    (h : otherSideAdm m sv = some (mkSV s v o)) : Shows c side t v s := by
  obtain ⟨h1, h2, h3, h4⟩ := parts_agree m sv
  rw [h] at h1 h2 h3 h4
  unfold Shows boundaryV boundaryAngle boundaryP boundaryQ
  simp only [hs, hm, Option.bind_eq_bind, Option.bind_some, h1, h2, h3, h4]
  exact ⟨rfl, rfl, rfl, rfl⟩

/-! ### C74 -/

/-- **C74** The boundary of the first half of a tie line, which is at its side two, shows the voltage there and the power that enters the half line there. -/
theorem boundary_one {c : Charac} (hz : c.r ≠ 0 ∨ c.x ≠ 0) {va vb ia ib : ℂ} (hc : c.Circuit va vb ia ib) {t : EndState} (ht : t.Describes va ia) (hv : va ≠ 0) :
    Shows c .one t vb (vb * conj ib) := by
  obtain ⟨sv, hs, hside, hp, hpow⟩ := describes_sv ht .one
  have z := impedance_ne hz
  refine shows_of (charac_adm hz) hs (o := .two) ?_
  unfold otherSideAdm
  rw [hside]
  have e : voltageAtEnd2 ⟨1 / (c.r + c.x * I) + (c.g1 + c.b1 * I), -(1 / (c.r + c.x * I)), -(1 / (c.r + c.x * I)), 1 / (c.r + c.x * I) + (c.g2 + c.b2 * I)⟩ va ⟨sv.p, sv.q⟩ = some vb := by
    unfold voltageAtEnd2
    simp only [Option.bind_eq_bind]
    rw [cdiv_of_ne (conj_ne_zero hv), Option.bind_some, cdiv_of_ne (neg_ne_zero.2 (one_div_ne_zero z)), current_of hv hpow]
    congr 1
    have := hc.one
    field_simp
    linear_combination -this
  simp only [hp, Option.bind_eq_bind, Option.bind_some, e, Option.pure_def, Option.some.injEq]
  congr 1
  unfold flowAtEnd2
  rw [conj_mul, conj_conj, mul_comm]
  congr 2
  have := hc.two
  field_simp
  linear_combination -this

/-- **C74** The boundary of the second half, which is at its side one. -/
theorem boundary_two {c : Charac} (hz : c.r ≠ 0 ∨ c.x ≠ 0) {va vb ia ib : ℂ} (hc : c.Circuit va vb ia ib) {t : EndState} (ht : t.Describes vb ib) (hv : vb ≠ 0) :
    Shows c .two t va (va * conj ia) := by
  obtain ⟨sv, hs, hside, hp, hpow⟩ := describes_sv ht .two
  have z := impedance_ne hz
  refine shows_of (charac_adm hz) hs (o := .one) ?_
  unfold otherSideAdm
  rw [hside]
  have e : voltageAtEnd1 ⟨1 / (c.r + c.x * I) + (c.g1 + c.b1 * I), -(1 / (c.r + c.x * I)), -(1 / (c.r + c.x * I)), 1 / (c.r + c.x * I) + (c.g2 + c.b2 * I)⟩ vb ⟨sv.p, sv.q⟩ = some va := by
    unfold voltageAtEnd1
    simp only [Option.bind_eq_bind]
    rw [cdiv_of_ne (conj_ne_zero hv), Option.bind_some, cdiv_of_ne (neg_ne_zero.2 (one_div_ne_zero z)), current_of hv hpow]
    congr 1
    have := hc.two
    field_simp
    linear_combination -this
  simp only [hp, Option.bind_eq_bind, Option.bind_some, e, Option.pure_def, Option.some.injEq]
  congr 1
  unfold flowAtEnd1
  rw [conj_mul, conj_conj, mul_comm]
  congr 2
  have := hc.one
  field_simp
  linear_combination -this

/-- Currents entering a line with the given voltages, and the voltage of side two with the given voltage and current of side one. -/
theorem circuit_from_one (c : Charac) (hz : c.r ≠ 0 ∨ c.x ≠ 0) (va ia : ℂ) : ∃ vb ib, c.Circuit va vb ia ib := by
  have z := impedance_ne hz
  refine ⟨va - (c.r + c.x * I) * (ia - (c.g1 + c.b1 * I) * va),
    (c.g2 + c.b2 * I) * (va - (c.r + c.x * I) * (ia - (c.g1 + c.b1 * I) * va)) - (ia - (c.g1 + c.b1 * I) * va), ⟨by ring, by ring⟩⟩

theorem circuit_from_two (c : Charac) (hz : c.r ≠ 0 ∨ c.x ≠ 0) (vb ib : ℂ) : ∃ va ia, c.Circuit va vb ia ib := by
  have z := impedance_ne hz
  refine ⟨vb - (c.r + c.x * I) * (ib - (c.g2 + c.b2 * I) * vb),
    (c.g1 + c.b1 * I) * (vb - (c.r + c.x * I) * (ib - (c.g2 + c.b2 * I) * vb)) - (ib - (c.g2 + c.b2 * I) * vb), ⟨by ring, by ring⟩⟩

/-- The two halves of a tie line one after the other, nothing else being at the boundary. -/
def Series (h1 h2 : Charac) (v1 v2 i1 i2 : ℂ) : Prop := ∃ vb ib, h1.Circuit v1 vb i1 ib ∧ h2.Circuit vb v2 (-ib) i2

/-- The boundaries show one voltage, and powers that cancel. -/
structure BoundariesMatch (h1 h2 : Charac) (t1 t2 : EndState) : Prop where
  v : boundaryV h1 .one t1 = boundaryV h2 .two t2
  angle : boundaryAngle h1 .one t1 = boundaryAngle h2 .two t2
  p : ∃ p, boundaryP h1 .one t1 = some p ∧ boundaryP h2 .two t2 = some (-p)
  q : ∃ q, boundaryQ h1 .one t1 = some q ∧ boundaryQ h2 .two t2 = some (-q)

theorem polar_form_inj {v w : ℂ} (hn : ‖v‖ = ‖w‖) (ha : v.arg * (180 / Real.pi) = w.arg * (180 / Real.pi)) : v = w := by
  have hp := Real.pi_ne_zero
  have : v.arg = w.arg := by
    have h : (180 / Real.pi : ℝ) ≠ 0 := by positivity
    exact mul_right_cancel₀ h ha
  rw [← norm_mul_exp_arg_mul_I v, ← norm_mul_exp_arg_mul_I w, hn, this]

/-- **C74** The two boundaries of a tie line match if and only if the values of its terminals are those of its halves one after the other (the voltage of the boundary not
being zero). -/
theorem boundaries_match_iff {h1 h2 : Charac} (z1 : h1.r ≠ 0 ∨ h1.x ≠ 0) (z2 : h2.r ≠ 0 ∨ h2.x ≠ 0) {v1 i1 v2 i2 : ℂ} {t1 t2 : EndState} (d1 : t1.Describes v1 i1)
    (d2 : t2.Describes v2 i2) (n1 : v1 ≠ 0) (n2 : v2 ≠ 0) (hb : boundaryV h1 .one t1 ≠ some 0) : BoundariesMatch h1 h2 t1 t2 ↔ Series h1 h2 v1 v2 i1 i2 := by
  constructor
  · intro h
    obtain ⟨vb, ib, c1⟩ := circuit_from_one h1 z1 v1 i1
    obtain ⟨wb, jb, c2⟩ := circuit_from_two h2 z2 v2 i2
    obtain ⟨a1, a2, a3, a4⟩ := boundary_one z1 c1 d1 n1
    obtain ⟨b1, b2, b3, b4⟩ := boundary_two z2 c2 d2 n2
    have hv := h.v
    have ha := h.angle
    rw [a1, b1, Option.some.injEq] at hv
    rw [a2, b2, Option.some.injEq] at ha
    have e := polar_form_inj hv ha
    subst e
    have hne : vb ≠ 0 := by
      intro e
      rw [a1, e, norm_zero] at hb
      exact hb rfl
    obtain ⟨p, hp1, hp2⟩ := h.p
    obtain ⟨q, hq1, hq2⟩ := h.q
    rw [a3, Option.some.injEq] at hp1
    rw [b3, Option.some.injEq] at hp2
    rw [a4, Option.some.injEq] at hq1
    rw [b4, Option.some.injEq] at hq2
    have hs : vb * conj jb = vb * conj (-ib) := by
      have : vb * conj (-ib) = -(vb * conj ib) := by simp [conj]
      rw [this]
      apply Complex.ext
      · rw [hp2, neg_re, hp1]
      · rw [hq2, neg_im, hq1]
    have hj : jb = -ib := by
      have := mul_left_cancel₀ hne hs
      rw [← conj_conj jb, this, conj_conj]
    rw [hj] at c2
    exact ⟨vb, ib, c1, c2⟩
  · rintro ⟨vb, ib, c1, c2⟩
    obtain ⟨a1, a2, a3, a4⟩ := boundary_one z1 c1 d1 n1
    obtain ⟨b1, b2, b3, b4⟩ := boundary_two z2 c2 d2 n2
    have e : vb * conj (-ib) = -(vb * conj ib) := by simp [conj]
    rw [e] at b3 b4
    exact ⟨a1.trans b1.symm, a2.trans b2.symm, ⟨_, a3, b3⟩, ⟨_, a4, b4⟩⟩

/-- **C74** The boundary of a dangling line shows the state at its other end, half of its shunt admittance being at each end. -/
theorem boundary_dangling {r x g b : ℝ} (hz : r ≠ 0 ∨ x ≠ 0) {v vb i ib : ℂ} (o1 : (r + x * I) * (i - (g / 2 + b / 2 * I) * v) = v - vb)
    (o2 : (r + x * I) * (ib - (g / 2 + b / 2 * I) * vb) = vb - v) {t : EndState} (ht : t.Describes v i) (hv : v ≠ 0) :
    Shows (danglingCharac r x g b) .one t vb (vb * conj ib) := by
  have eg : (g * 0.5 : ℝ) = g / 2 := by ring
  have eb : (b * 0.5 : ℝ) = b / 2 := by ring
  refine boundary_one (c := danglingCharac r x g b) hz ⟨?_, ?_⟩ ht hv
  · rw [← o1]
    simp only [danglingCharac, eg, eb]
    push_cast
    rfl
  · rw [← o2]
    simp only [danglingCharac, eg, eb]
    push_cast
    rfl

/-- **C74** Nothing is shown when a power of the terminal is missing, when it has no bus or when its bus has no voltage or no angle. -/
theorem boundary_unknown (c : Charac) (side : Side) {t : EndState} (h : t.p = none ∨ t.q = none ∨ t.bus = none ∨ ∃ v a, t.bus = some (v, a) ∧ (v = none ∨ a = none)) :
    boundaryV c side t = none ∧ boundaryAngle c side t = none ∧ boundaryP c side t = none ∧ boundaryQ c side t = none := by
  have hs : t.sv side = none := by
    unfold EndState.sv EndState.v EndState.angle
    obtain ⟨p, q, bus⟩ := t
    simp only at h
    rcases h with rfl | rfl | rfl | ⟨v, a, rfl, rfl | rfl⟩
    · rfl
    · cases p <;> rfl
    · cases p <;> cases q <;> rfl
    · cases p <;> cases q <;> rfl
    · cases p <;> cases q <;> cases v <;> rfl
  unfold boundaryV boundaryAngle boundaryP boundaryQ
  rw [hs]
  exact ⟨rfl, rfl, rfl, rfl⟩

/-- **C74, violation** No finite value is shown for a half line without impedance (SV.cpp l.285-291, division by zero), though the boundary of such a line without shunt admittance
has the voltage of its terminal. -/
theorem boundary_without_impedance (c : Charac) (hr : c.r = 0) (hx : c.x = 0) (side : Side) (t : EndState) :
    boundaryV c side t = none ∧ boundaryAngle c side t = none ∧ boundaryP c side t = none ∧ boundaryQ c side t = none := by
  cases hs : t.sv side with
  | none =>
    unfold boundaryV boundaryAngle boundaryP boundaryQ
    rw [hs]
    exact ⟨rfl, rfl, rfl, rfl⟩
  | some sv =>
    have h := no_impedance (g1 := c.g1) (b1 := c.b1) (g2 := c.g2) (b2 := c.b2) (alpha := 0) one_pos sv
    unfold otherSide at h
    simp only [Option.bind_eq_bind] at h
    have key : ∀ {α : Type} (f : SV → α), (c.adm).bind (fun m => (otherSideAdm m sv).map f) = none := by
      intro α f
      unfold Charac.adm
      rw [hr, hx]
      simp only [Option.bind_eq_bind, Option.bind_assoc]
      cases h1 : rdiv 1 1 with
      | none => rfl
      | some k =>
        rw [h1, Option.bind_some] at h
        rw [Option.bind_some]
        cases h2 : calculateBranchAdmittance 0 0 k (-0) 1 0 ⟨c.g1, c.b1⟩ ⟨c.g2, c.b2⟩ with
        | none => rfl
        | some m =>
          rw [h2, Option.bind_some] at h
          rw [Option.bind_some, h]
          rfl
    unfold boundaryV boundaryAngle boundaryP boundaryQ
    simp only [hs, Option.bind_eq_bind, Option.bind_some, fun m => (parts_agree m sv).1, fun m => (parts_agree m sv).2.1, fun m => (parts_agree m sv).2.2.1, fun m => (parts_agree m sv).2.2.2]
    exact ⟨key _, key _, key _, key _⟩

/-! ### C75 -/

/-- **C75** The line with the characteristics of a tie line is its two halves one after the other if and only if they have no shunt admittance at the boundary. -/
theorem tie_sum_iff_partial {h1 h2 : Charac} (z1 : h1.r ≠ 0 ∨ h1.x ≠ 0) (z2 : h2.r ≠ 0 ∨ h2.x ≠ 0) (z : h1.r + h2.r ≠ 0 ∨ h1.x + h2.x ≠ 0) :
    (∀ v1 v2 i1 i2, Series h1 h2 v1 v2 i1 i2 ↔ (tieCharac h1 h2).Circuit v1 v2 i1 i2) ↔ (h1.g2 = 0 ∧ h1.b2 = 0) ∧ (h2.g1 = 0 ∧ h2.b1 = 0) := by
  have n1 := impedance_ne z1
  have n2 := impedance_ne z2
  have n := impedance_ne z
  have zero : ∀ {g b : ℝ}, (g + b * I : ℂ) = 0 → g = 0 ∧ b = 0 := by
    intro g b e
    have e1 := congrArg Complex.re e
    have e2 := congrArg Complex.im e
    simp at e1 e2
    exact ⟨e1, e2⟩
  constructor
  · intro h
    -- no voltage at the boundary, a current of 1 through it
    have hs : Series h1 h2 (-(h1.r + h1.x * I)) (h2.r + h2.x * I) ((h1.g1 + h1.b1 * I) * -(h1.r + h1.x * I) - 1) ((h2.g2 + h2.b2 * I) * (h2.r + h2.x * I) + 1) :=
      ⟨0, 1, ⟨by ring, by ring⟩, ⟨by ring, by ring⟩⟩
    obtain ⟨o1, o2⟩ := (h _ _ _ _).1 hs
    simp only [tieCharac] at o1 o2
    push_cast at o1 o2 n
    constructor
    · refine zero ?_
      have : ((h1.r : ℂ) + h2.r + (h1.x + h2.x) * I) * ((h2.r + h2.x * I) * (h1.g2 + h1.b2 * I)) = 0 := by linear_combination -o2
      rcases mul_eq_zero.1 this with e | e
      · exact absurd e n
      · exact (mul_eq_zero.1 e).resolve_left n2
    · refine zero ?_
      have : ((h1.r : ℂ) + h2.r + (h1.x + h2.x) * I) * ((h1.r + h1.x * I) * (h2.g1 + h2.b1 * I)) = 0 := by linear_combination o1
      rcases mul_eq_zero.1 this with e | e
      · exact absurd e n
      · exact (mul_eq_zero.1 e).resolve_left n1
  · rintro ⟨⟨a1, a2⟩, a3, a4⟩ v1 v2 i1 i2
    constructor
    · rintro ⟨vb, ib, c1, c2⟩
      obtain ⟨o1, o2⟩ := c1
      obtain ⟨o3, o4⟩ := c2
      rw [a1, a2] at o2
      rw [a3, a4] at o3
      push_cast at o2 o3
      have e1 : ib = -(i1 - (h1.g1 + h1.b1 * I) * v1) := by
        apply mul_left_cancel₀ n1
        linear_combination o2 + o1
      have e2 : i2 - (h2.g2 + h2.b2 * I) * v2 = ib := by
        apply mul_left_cancel₀ n2
        linear_combination o3 + o4
      refine ⟨?_, ?_⟩
      · simp only [tieCharac, a1, a2, a3, a4]
        push_cast
        linear_combination o1 + o3 + (h2.r + h2.x * I : ℂ) * e1
      · simp only [tieCharac, a1, a2, a3, a4]
        push_cast
        linear_combination o4 + o2 + (h1.r + h1.x * I : ℂ) * e2
    · rintro ⟨o1, o2⟩
      simp only [tieCharac, a1, a2, a3, a4] at o1 o2
      push_cast at o1 o2 n
      have e : i2 - (h2.g2 + h2.b2 * I) * v2 = -(i1 - (h1.g1 + h1.b1 * I) * v1) := by
        apply mul_left_cancel₀ n
        linear_combination o1 + o2
      refine ⟨v1 - (h1.r + h1.x * I) * (i1 - (h1.g1 + h1.b1 * I) * v1), -(i1 - (h1.g1 + h1.b1 * I) * v1), ⟨by ring, ?_⟩, ⟨?_, ?_⟩⟩
      · rw [a1, a2]
        push_cast
        ring
      · rw [a3, a4]
        push_cast
        linear_combination o1
      · linear_combination (h2.r + h2.x * I : ℂ) * e - o1

/-! ### A tie line -/

/-- A half line of 1 ohm with a conductance at its side one. -/
noncomputable def sampleHalf1 : Charac := ⟨1, 0, 1 / 4, 0, 0, 0⟩
noncomputable def sampleHalf2 : Charac := ⟨1, 0, 0, 0, 0, 0⟩
noncomputable def sampleEnd1 : EndState := ⟨some 8, some 0, some (some 4, some 0)⟩
noncomputable def sampleEnd2 : EndState := ⟨some (-2), some 0, some (some 2, some 0)⟩

theorem sample_describes1 : sampleEnd1.Describes 4 2 := by
  refine ⟨⟨8, 0, rfl, rfl, ?_⟩, ⟨4, 0, rfl, by norm_num, ?_⟩⟩
  · rw [show conj 2 = 2 from map_ofNat _ 2]
    norm_num
  · simp

theorem sample_describes2 : sampleEnd2.Describes 2 (-1) := by
  refine ⟨⟨-2, 0, rfl, rfl, ?_⟩, ⟨2, 0, rfl, by norm_num, ?_⟩⟩
  · rw [show conj (-1) = -1 by simp [conj]]
    norm_num
  · simp

theorem sample_circuit1 : sampleHalf1.Circuit 4 3 2 (-1) := by
  constructor <;> · simp [sampleHalf1]; norm_num

theorem sample_circuit2 : sampleHalf2.Circuit 3 2 1 (-1) := by
  constructor <;> · simp [sampleHalf2]; norm_num

/-- Both boundaries are at 3 kV; 3 MW come out of the first half. -/
example : BoundariesMatch sampleHalf1 sampleHalf2 sampleEnd1 sampleEnd2 :=
  (boundaries_match_iff (.inl (by norm_num [sampleHalf1])) (.inl (by norm_num [sampleHalf2])) sample_describes1 sample_describes2 (by norm_num) (by norm_num)
    (by
      rw [(boundary_one (.inl (by norm_num [sampleHalf1])) sample_circuit1 sample_describes1 (by norm_num)).1]
      simp)).2 ⟨3, -1, sample_circuit1, by rw [neg_neg]; exact sample_circuit2⟩

example : ∀ v1 v2 i1 i2, Series sampleHalf1 sampleHalf2 v1 v2 i1 i2 ↔ (tieCharac sampleHalf1 sampleHalf2).Circuit v1 v2 i1 i2 :=
  (tie_sum_iff_partial (.inl (by norm_num [sampleHalf1])) (.inl (by norm_num [sampleHalf2])) (.inl (by norm_num [sampleHalf1, sampleHalf2]))).2
    ⟨⟨rfl, rfl⟩, rfl, rfl⟩

/-- A half line with a susceptance at both sides, as half lines have. -/
noncomputable def usualHalf : Charac := ⟨1, 10, 0, 1 / 1000, 0, 1 / 1000⟩

/-- **C75, violation** (TieLine.cpp l.33-47) The characteristics of a tie line whose halves have a susceptance at the boundary are not those of its halves one after the other. -/
theorem usual_tie_line_wrong : ¬ ∀ v1 v2 i1 i2, Series usualHalf usualHalf v1 v2 i1 i2 ↔ (tieCharac usualHalf usualHalf).Circuit v1 v2 i1 i2 := by
  intro h
  have := (tie_sum_iff_partial (.inl (by norm_num [usualHalf])) (.inl (by norm_num [usualHalf])) (.inl (by norm_num [usualHalf]))).1 h
  have h2 := this.1.2
  norm_num [usualHalf] at h2

/-- A dangling line of 1 ohm with a conductance of 0.5 S: 2 A enter it, 0.25 A come out of it. -/
example : Shows (danglingCharac 1 0 (1 / 2) 0) .one sampleEnd1 3 (3 * conj (-1 / 4)) :=
  boundary_dangling (.inl (by norm_num)) (i := 2) (v := 4) (by simp; norm_num) (by simp; norm_num) sample_describes1 (by norm_num)

end Verif.Flow
