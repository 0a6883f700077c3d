import Verif.Flow.Model
import Mathlib.Tactic.FieldSimp
import Mathlib.Tactic.Ring
import Mathlib.Tactic.Linarith
import Mathlib.Tactic.Positivity

/-! Properties C40 (terminal current), C41 (computing the other side of a branch and coming back) and C59 (the computed flows are those of the
branch equations). -/

namespace Verif.Flow

open Complex

theorem conj_conj (z : ℂ) : conj (conj z) = z := by simp [conj]
theorem conj_mul (a b : ℂ) : conj (a * b) = conj a * conj b := by simp [conj]
theorem conj_ne_zero {z : ℂ} (h : z ≠ 0) : conj z ≠ 0 := by simpa [conj] using h
theorem conj_eq_zero_iff {z : ℂ} : conj z = 0 ↔ z = 0 := by simp [conj]

theorem polar_some {rho theta : ℝ} {z : ℂ} (h : polar rho theta = some z) : 0 ≤ rho ∧ z = rho * exp (theta * I) := by
  unfold polar at h
  split at h
  · rename_i hr; exact ⟨hr, (Option.some.inj h).symm⟩
  · cases h

theorem polar_norm_arg (v : ℂ) : polar ‖v‖ (v.arg * toDegrees * toRadians) = some v := by
  have e : v.arg * toDegrees * toRadians = v.arg := by
    have := Real.pi_ne_zero
    unfold toDegrees toRadians
    field_simp
  unfold polar
  rw [if_pos (norm_nonneg v), e]
  congr 1
  exact norm_mul_exp_arg_mul_I v

theorem cdiv_some {a b c : ℂ} (h : cdiv a b = some c) : b ≠ 0 ∧ c = a / b := by
  unfold cdiv at h
  split at h
  · cases h
  · rename_i hb; exact ⟨hb, (Option.some.inj h).symm⟩

theorem cdiv_of_ne {a b : ℂ} (h : b ≠ 0) : cdiv a b = some (a / b) := by simp [cdiv, h]

/-! ### C41 -/

/-- From the voltage and flow at end 1 the voltage at end 2 is computed; from there the voltage and flow at end 1 are found again. -/
theorem back_to_end1 {m : Adm} {v1 s1 v2 : ℂ} (h : voltageAtEnd2 m v1 s1 = some v2) (hv2 : v2 ≠ 0) (hy : m.y21 ≠ 0) :
    voltageAtEnd1 m v2 (flowAtEnd2 m v1 v2) = some v1 ∧ flowAtEnd1 m v1 v2 = s1 := by
  unfold voltageAtEnd2 at h
  simp only [Option.bind_eq_bind, Option.bind_eq_some_iff] at h
  obtain ⟨i, hi, hv⟩ := h
  obtain ⟨hv1, rfl⟩ := cdiv_some hi
  obtain ⟨hy12, rfl⟩ := cdiv_some hv
  set w := (conj s1 / conj v1 - m.y11 * v1) / m.y12 with hw
  have hc : conj w ≠ 0 := conj_ne_zero hv2
  constructor
  · unfold voltageAtEnd1 flowAtEnd2
    simp only [Option.bind_eq_bind, conj_conj]
    rw [cdiv_of_ne hc, Option.bind_some, cdiv_of_ne hy]
    congr 1
    field_simp
    ring
  · unfold flowAtEnd1
    have : m.y12 * w = conj s1 / conj v1 - m.y11 * v1 := by
      rw [hw]; field_simp
    rw [this]
    have e : (m.y11 * v1 + (conj s1 / conj v1 - m.y11 * v1)) * conj v1 = conj s1 := by
      field_simp
      ring
    rw [e, conj_conj]

theorem back_to_end2 {m : Adm} {v2 s2 v1 : ℂ} (h : voltageAtEnd1 m v2 s2 = some v1) (hv1 : v1 ≠ 0) (hy : m.y12 ≠ 0) :
    voltageAtEnd2 m v1 (flowAtEnd1 m v1 v2) = some v2 ∧ flowAtEnd2 m v1 v2 = s2 := by
  unfold voltageAtEnd1 at h
  simp only [Option.bind_eq_bind, Option.bind_eq_some_iff] at h
  obtain ⟨i, hi, hv⟩ := h
  obtain ⟨hv2, rfl⟩ := cdiv_some hi
  obtain ⟨hy21, rfl⟩ := cdiv_some hv
  set w := (conj s2 / conj v2 - m.y22 * v2) / m.y21 with hw
  have hc : conj w ≠ 0 := conj_ne_zero hv1
  constructor
  · unfold voltageAtEnd2 flowAtEnd1
    simp only [Option.bind_eq_bind, conj_conj]
    rw [cdiv_of_ne hc, Option.bind_some, cdiv_of_ne hy]
    congr 1
    field_simp
    ring
  · unfold flowAtEnd2
    have : m.y21 * w = conj s2 / conj v2 - m.y22 * v2 := by
      rw [hw]; field_simp
    rw [this]
    have e : (conj s2 / conj v2 - m.y22 * v2 + m.y22 * v2) * conj v2 = conj s2 := by
      field_simp
      ring
    rw [e, conj_conj]

/-- The same state: same powers, magnitude and side, and the same angle up to whole turns. -/
def SameState (a b : SV) : Prop :=
  a.p = b.p ∧ a.q = b.q ∧ a.u = b.u ∧ a.side = b.side ∧ ∃ k : ℤ, a.a = b.a + 360 * k

theorem angle_turns {u a : ℝ} (hu : 0 < u) :
    ‖(u : ℂ) * exp ((a * toRadians : ℝ) * I)‖ = u ∧ ∃ k : ℤ, ((u : ℂ) * exp ((a * toRadians : ℝ) * I)).arg * toDegrees = a + 360 * k := by
  constructor
  · rw [norm_mul, norm_exp_ofReal_mul_I, mul_one, Complex.norm_real, Real.norm_of_nonneg hu.le]
  · rw [Complex.arg_real_mul _ hu, Complex.arg_exp_mul_I]
    refine ⟨-toIocDiv Real.two_pi_pos (-Real.pi) (a * toRadians), ?_⟩
    have hm := toIocMod_add_toIocDiv_zsmul Real.two_pi_pos (-Real.pi) (a * toRadians)
    have hp := Real.pi_ne_zero
    have e : toIocMod Real.two_pi_pos (-Real.pi) (a * toRadians) =
        a * toRadians - (toIocDiv Real.two_pi_pos (-Real.pi) (a * toRadians) : ℝ) * (2 * Real.pi) := by
      rw [zsmul_eq_mul] at hm; linarith
    rw [e]
    unfold toDegrees toRadians
    push_cast
    field_simp
    ring

/-- An angle between -180 (excluded) and 180 is given back exactly. -/
theorem angle_exact {u a : ℝ} (hu : 0 < u) (h1 : -180 < a) (h2 : a ≤ 180) :
    ((u : ℂ) * exp ((a * toRadians : ℝ) * I)).arg * toDegrees = a := by
  have hp := Real.pi_pos
  rw [Complex.arg_real_mul _ hu, Complex.arg_exp_mul_I]
  have : toIocMod Real.two_pi_pos (-Real.pi) (a * toRadians) = a * toRadians := by
    rw [toIocMod_eq_self]
    unfold toRadians
    constructor
    · have : -180 * (Real.pi / 180) < a * (Real.pi / 180) := mul_lt_mul_of_pos_right h1 (by positivity)
      linarith
    · have : a * (Real.pi / 180) ≤ 180 * (Real.pi / 180) := mul_le_mul_of_nonneg_right h2 (by positivity)
      linarith
  rw [this]
  unfold toDegrees toRadians
  field_simp

theorem come_back_core {m : Adm} {sv sv' : SV} (h : otherSideAdm m sv = some sv') (hu : sv'.u ≠ 0) (h12 : m.y12 ≠ 0) (h21 : m.y21 ≠ 0) :
    0 < sv.u ∧ otherSideAdm m sv' = some (mkSV ⟨sv.p, sv.q⟩ ((sv.u : ℂ) * exp ((sv.a * toRadians : ℝ) * I)) sv.side) := by
  unfold otherSideAdm at h
  cases hs : sv.side with
  | one =>
    rw [hs] at h
    simp only [Option.bind_eq_bind, Option.bind_eq_some_iff, Option.pure_def, Option.some.injEq] at h
    obtain ⟨v1, hv1, v, hv, rfl⟩ := h
    obtain ⟨hu1, e1⟩ := polar_some hv1
    have hvne : v ≠ 0 := by
      intro e
      apply hu
      simp [mkSV, e]
    obtain ⟨b1, b2⟩ := back_to_end1 hv hvne h21
    have hv1ne : v1 ≠ 0 := by
      intro e
      subst e
      unfold voltageAtEnd2 at hv
      simp [cdiv, conj] at hv
    refine ⟨?_, ?_⟩
    · rcases lt_or_eq_of_le hu1 with h' | h'
      · exact h'
      · exfalso; apply hv1ne; rw [e1, ← h']; simp
    · have eta : (⟨(flowAtEnd2 m v1 v).re, (flowAtEnd2 m v1 v).im⟩ : ℂ) = flowAtEnd2 m v1 v := Complex.eta _
      simp only [otherSideAdm, mkSV, polar_norm_arg, Option.bind_eq_bind, Option.bind_some, Option.pure_def, eta, b1, b2]
      rw [e1]
  | two =>
    rw [hs] at h
    simp only [Option.bind_eq_bind, Option.bind_eq_some_iff, Option.pure_def, Option.some.injEq] at h
    obtain ⟨v2, hv2, v, hv, rfl⟩ := h
    obtain ⟨hu1, e1⟩ := polar_some hv2
    have hvne : v ≠ 0 := by
      intro e
      apply hu
      simp [mkSV, e]
    obtain ⟨b1, b2⟩ := back_to_end2 hv hvne h12
    have hv2ne : v2 ≠ 0 := by
      intro e
      subst e
      unfold voltageAtEnd1 at hv
      simp [cdiv, conj] at hv
    refine ⟨?_, ?_⟩
    · rcases lt_or_eq_of_le hu1 with h' | h'
      · exact h'
      · exfalso; apply hv2ne; rw [e1, ← h']; simp
    · have eta : (⟨(flowAtEnd1 m v v2).re, (flowAtEnd1 m v v2).im⟩ : ℂ) = flowAtEnd1 m v v2 := Complex.eta _
      simp only [otherSideAdm, mkSV, polar_norm_arg, Option.bind_eq_bind, Option.bind_some, Option.pure_def, eta, b1, b2]
      rw [e1]

/-- **C41**: for every admittance matrix with non-zero transfer terms, coming back from the other side (where the voltage is not zero) gives the
    initial state, the angle up to whole turns. -/
theorem come_back_adm {m : Adm} {sv sv' : SV} (h : otherSideAdm m sv = some sv') (hu : sv'.u ≠ 0) (h12 : m.y12 ≠ 0) (h21 : m.y21 ≠ 0) :
    ∃ sv'', otherSideAdm m sv' = some sv'' ∧ SameState sv'' sv := by
  obtain ⟨hpos, e⟩ := come_back_core h hu h12 h21
  obtain ⟨n1, k, n2⟩ := angle_turns (a := sv.a) hpos
  exact ⟨_, e, rfl, rfl, n1, rfl, k, n2⟩

/-- **C41**: with an angle between -180 (excluded) and 180 degrees, exactly the initial state. -/
theorem come_back_adm_exact {m : Adm} {sv sv' : SV} (h : otherSideAdm m sv = some sv') (hu : sv'.u ≠ 0) (h12 : m.y12 ≠ 0) (h21 : m.y21 ≠ 0)
    (ha1 : -180 < sv.a) (ha2 : sv.a ≤ 180) : otherSideAdm m sv' = some sv := by
  obtain ⟨hpos, e⟩ := come_back_core h hu h12 h21
  rw [e]
  obtain ⟨n1, _⟩ := angle_turns (a := sv.a) hpos
  unfold mkSV
  rw [n1, angle_exact hpos ha1 ha2]

/-- The other side can be computed from every state with a positive voltage. -/
theorem otherSide_defined {m : Adm} {sv : SV} (hu : 0 < sv.u) (h12 : m.y12 ≠ 0) (h21 : m.y21 ≠ 0) : ∃ sv', otherSideAdm m sv = some sv' := by
  have hp : polar sv.u (sv.a * toRadians) = some (sv.u * exp ((sv.a * toRadians : ℝ) * I)) := by
    unfold polar; rw [if_pos hu.le]
  have hne : (sv.u : ℂ) * exp ((sv.a * toRadians : ℝ) * I) ≠ 0 :=
    mul_ne_zero (by exact_mod_cast hu.ne') (exp_ne_zero _)
  unfold otherSideAdm
  cases sv.side with
  | one =>
    simp only [hp, Option.bind_eq_bind, Option.bind_some, voltageAtEnd2, cdiv_of_ne (conj_ne_zero hne), cdiv_of_ne h12, Option.pure_def]
    exact ⟨_, rfl⟩
  | two =>
    simp only [hp, Option.bind_eq_bind, Option.bind_some, voltageAtEnd1, cdiv_of_ne (conj_ne_zero hne), cdiv_of_ne h21, Option.pure_def]
    exact ⟨_, rfl⟩

/-- What `calculateBranchAdmittance` computes for positive ratios. -/
theorem admittance_spec {r x ratio1 angle1 ratio2 angle2 : ℝ} {ysh1 ysh2 : ℂ} (h1 : 0 < ratio1) (h2 : 0 < ratio2) :
    ∃ m a1 a2 : _, calculateBranchAdmittance r x ratio1 angle1 ratio2 angle2 ysh1 ysh2 = some m ∧
      a1 = (ratio1 : ℂ) * exp (angle1 * I) ∧ a2 = (ratio2 : ℂ) * exp (angle2 * I) ∧ a1 ≠ 0 ∧ a2 ≠ 0 ∧
      m = ⟨((if r ≠ 0 ∨ x ≠ 0 then 1 / (⟨r, x⟩ : ℂ) else 0) + ysh1) / (conj a1 * a1), (-(if r ≠ 0 ∨ x ≠ 0 then 1 / (⟨r, x⟩ : ℂ) else 0)) / (conj a1 * a2),
        (-(if r ≠ 0 ∨ x ≠ 0 then 1 / (⟨r, x⟩ : ℂ) else 0)) / (conj a2 * a1), ((if r ≠ 0 ∨ x ≠ 0 then 1 / (⟨r, x⟩ : ℂ) else 0) + ysh2) / (conj a2 * a2)⟩ := by
  have n1 : (ratio1 : ℂ) * exp (angle1 * I) ≠ 0 := mul_ne_zero (by exact_mod_cast h1.ne') (exp_ne_zero _)
  have n2 : (ratio2 : ℂ) * exp (angle2 * I) ≠ 0 := mul_ne_zero (by exact_mod_cast h2.ne') (exp_ne_zero _)
  have p1 : polar ratio1 angle1 = some (ratio1 * exp (angle1 * I)) := by unfold polar; rw [if_pos h1.le]
  have p2 : polar ratio2 angle2 = some (ratio2 * exp (angle2 * I)) := by unfold polar; rw [if_pos h2.le]
  have hy : seriesAdmittance r x = some (if r ≠ 0 ∨ x ≠ 0 then 1 / (⟨r, x⟩ : ℂ) else 0) := by
    unfold seriesAdmittance
    split
    · rename_i h
      apply cdiv_of_ne
      intro e
      have e1 := congrArg Complex.re e
      have e2 := congrArg Complex.im e
      simp at e1 e2
      exact h.elim (fun h => h e1) (fun h => h e2)
    · rfl
  refine ⟨_, _, _, ?_, rfl, rfl, n1, n2, rfl⟩
  unfold calculateBranchAdmittance
  simp only [p1, p2, hy, Option.bind_eq_bind, Option.bind_some, Option.pure_def, cdiv_of_ne (mul_ne_zero (conj_ne_zero n1) n1),
    cdiv_of_ne (mul_ne_zero (conj_ne_zero n1) n2), cdiv_of_ne (mul_ne_zero (conj_ne_zero n2) n1), cdiv_of_ne (mul_ne_zero (conj_ne_zero n2) n2)]

/-- **C41**: for every branch with a non-zero impedance and a positive ratio, from every state with a positive voltage the state at the other side is
    computed, and when the voltage there is not zero coming back gives the initial state (the angle up to whole turns, exactly when it is
    between -180 and 180 degrees). -/
theorem come_back {r x g1 b1 g2 b2 rho alpha : ℝ} (hz : r ≠ 0 ∨ x ≠ 0) (hrho : 0 < rho) {sv : SV} (hu : 0 < sv.u) :
    ∃ sv', otherSide r x g1 b1 g2 b2 rho alpha sv = some sv' ∧ sv'.side ≠ sv.side ∧ (sv'.u ≠ 0 →
      (∃ sv'', otherSide r x g1 b1 g2 b2 rho alpha sv' = some sv'' ∧ SameState sv'' sv) ∧
      (-180 < sv.a → sv.a ≤ 180 → otherSide r x g1 b1 g2 b2 rho alpha sv' = some sv)) := by
  obtain ⟨m, a1, a2, hm, -, -, n1, n2, hmeq⟩ := admittance_spec (r := r) (x := x) (ratio1 := 1 / rho) (angle1 := -alpha) (ratio2 := 1) (angle2 := 0)
    (ysh1 := ⟨g1, b1⟩) (ysh2 := ⟨g2, b2⟩) (by positivity) one_pos
  have hzne : (⟨r, x⟩ : ℂ) ≠ 0 := by
    intro e
    have e1 := congrArg Complex.re e
    have e2 := congrArg Complex.im e
    simp at e1 e2
    exact hz.elim (fun h => h e1) (fun h => h e2)
  have y12 : m.y12 ≠ 0 := by
    rw [hmeq]
    simp only [if_pos hz]
    exact div_ne_zero (neg_ne_zero.2 (one_div_ne_zero hzne)) (mul_ne_zero (conj_ne_zero n1) n2)
  have y21 : m.y21 ≠ 0 := by
    rw [hmeq]
    simp only [if_pos hz]
    exact div_ne_zero (neg_ne_zero.2 (one_div_ne_zero hzne)) (mul_ne_zero (conj_ne_zero n2) n1)
  have ho : ∀ sv, otherSide r x g1 b1 g2 b2 rho alpha sv = otherSideAdm m sv := by
    intro sv
    unfold otherSide
    simp only [rdiv, if_neg hrho.ne', Option.bind_eq_bind, Option.bind_some, hm]
  obtain ⟨sv', hsv⟩ := otherSide_defined hu y12 y21
  refine ⟨sv', by rw [ho, hsv], ?_, ?_⟩
  · unfold otherSideAdm at hsv
    cases hs : sv.side with
    | one =>
      rw [hs] at hsv
      simp only [Option.bind_eq_bind, Option.bind_eq_some_iff, Option.pure_def, Option.some.injEq] at hsv
      obtain ⟨_, _, _, _, rfl⟩ := hsv
      simp [mkSV]
    | two =>
      rw [hs] at hsv
      simp only [Option.bind_eq_bind, Option.bind_eq_some_iff, Option.pure_def, Option.some.injEq] at hsv
      obtain ⟨_, _, _, _, rfl⟩ := hsv
      simp [mkSV]
  · intro hu'
    refine ⟨?_, ?_⟩
    · obtain ⟨sv'', h1, h2⟩ := come_back_adm hsv hu' y12 y21
      exact ⟨sv'', by rw [ho, h1], h2⟩
    · intro ha1 ha2
      rw [ho, come_back_adm_exact hsv hu' y12 y21 ha1 ha2]

example : ∃ sv', otherSide 3 33 0 0.0001 0 0.0001 1 0 ⟨100, 50, 400, 10, .one⟩ = some sv' :=
  let ⟨sv', h, _⟩ := come_back (r := 3) (x := 33) (g1 := 0) (b1 := 0.0001) (g2 := 0) (b2 := 0.0001) (rho := 1) (alpha := 0) (sv := ⟨100, 50, 400, 10, .one⟩)
    (.inl (by norm_num)) one_pos (by norm_num)
  ⟨sv', h⟩

/-- **C41**: without impedance nothing can be computed. -/
theorem no_impedance {g1 b1 g2 b2 rho alpha : ℝ} (hrho : 0 < rho) (sv : SV) : otherSide 0 0 g1 b1 g2 b2 rho alpha sv = none := by
  obtain ⟨m, a1, a2, hm, -, -, n1, n2, hmeq⟩ := admittance_spec (r := 0) (x := 0) (ratio1 := 1 / rho) (angle1 := -alpha) (ratio2 := 1) (angle2 := 0)
    (ysh1 := ⟨g1, b1⟩) (ysh2 := ⟨g2, b2⟩) (by positivity) one_pos
  have y12 : m.y12 = 0 := by rw [hmeq]; simp
  have y21 : m.y21 = 0 := by rw [hmeq]; simp
  unfold otherSide
  simp only [rdiv, if_neg hrho.ne', Option.bind_eq_bind, Option.bind_some, hm]
  unfold otherSideAdm voltageAtEnd1 voltageAtEnd2
  have hc : ∀ z : ℂ, cdiv z 0 = none := by intro z; simp [cdiv]
  cases sv.side <;>
  · simp only [y12, y21, hc, Option.bind_eq_bind, Option.bind_eq_none_iff]
    intros
    first | trivial | contradiction | simp_all

/-- **C41**: the separate computations of the voltage, angle and powers agree with the whole one. -/
theorem parts_agree (m : Adm) (sv : SV) :
    otherSideU m sv = (otherSideAdm m sv).map (·.u) ∧ otherSideA m sv = (otherSideAdm m sv).map (·.a) ∧
    otherSideP m sv = (otherSideAdm m sv).map (·.p) ∧ otherSideQ m sv = (otherSideAdm m sv).map (·.q) := by
  refine ⟨?_, ?_, rfl, rfl⟩
  · unfold otherSideU otherSideV otherSideAdm
    cases sv.side <;> simp only [Option.bind_eq_bind, Option.map_bind, Option.pure_def] <;>
    · congr 1
      funext v
      simp only [Function.comp_apply]
      first
        | cases voltageAtEnd2 m v ⟨sv.p, sv.q⟩ <;> rfl
        | cases voltageAtEnd1 m v ⟨sv.p, sv.q⟩ <;> rfl
  · unfold otherSideA otherSideV otherSideAdm
    cases sv.side <;> simp only [Option.bind_eq_bind, Option.map_bind, Option.pure_def] <;>
    · congr 1
      funext v
      simp only [Function.comp_apply]
      first
        | cases voltageAtEnd2 m v ⟨sv.p, sv.q⟩ <;> rfl
        | cases voltageAtEnd1 m v ⟨sv.p, sv.q⟩ <;> rfl

/-! ### C59: the branch equations -/

/-- **C59**: the admittance matrix is the one of the circuit: an ideal transformer of complex ratio `a1` (`a2`) at each end, shunt admittances
    and a series impedance `z` between them.  `e1`, `e2` are the voltages inside, `j1`, `j2` the currents entering inside, `i1`, `i2` the currents
    entering at the ends. -/
theorem circuit {r x ratio1 angle1 ratio2 angle2 : ℝ} {ysh1 ysh2 : ℂ} (h1 : 0 < ratio1) (h2 : 0 < ratio2) (hz : r ≠ 0 ∨ x ≠ 0) {m : Adm}
    (hm : calculateBranchAdmittance r x ratio1 angle1 ratio2 angle2 ysh1 ysh2 = some m)
    {a1 a2 v1 v2 e1 e2 j1 j2 i1 i2 z : ℂ} (ha1 : a1 = ratio1 * exp (angle1 * I)) (ha2 : a2 = ratio2 * exp (angle2 * I)) (hzd : z = r + x * I)
    (t1 : v1 = a1 * e1) (t2 : v2 = a2 * e2) (k1 : j1 = conj a1 * i1) (k2 : j2 = conj a2 * i2)
    (o1 : z * (j1 - ysh1 * e1) = e1 - e2) (o2 : z * (j2 - ysh2 * e2) = e2 - e1) :
    i1 = m.y11 * v1 + m.y12 * v2 ∧ i2 = m.y21 * v1 + m.y22 * v2 := by
  obtain ⟨m', b1, b2, hm', hb1, hb2, n1, n2, hmeq⟩ := admittance_spec (r := r) (x := x) (ratio1 := ratio1) (angle1 := angle1) (ratio2 := ratio2)
    (angle2 := angle2) (ysh1 := ysh1) (ysh2 := ysh2) h1 h2
  rw [hm] at hm'
  cases hm'
  rw [← ha1] at hb1
  rw [← ha2] at hb2
  subst hb1 hb2
  have hzne : z ≠ 0 := by
    intro e
    rw [hzd] at e
    have e1 := congrArg Complex.re e
    have e2 := congrArg Complex.im e
    simp at e1 e2
    exact hz.elim (fun h => h e1) (fun h => h e2)
  have hzz : (⟨r, x⟩ : ℂ) = z := by rw [hzd]; apply Complex.ext <;> simp
  have c1 := conj_ne_zero n1
  have c2 := conj_ne_zero n2
  rw [hmeq]
  simp only [if_pos hz, hzz]
  have q1 : j1 = (e1 - e2) / z + ysh1 * e1 := by rw [← o1]; field_simp; ring
  have q2 : j2 = (e2 - e1) / z + ysh2 * e2 := by rw [← o2]; field_simp; ring
  constructor
  · have : i1 = j1 / conj b1 := by rw [k1]; field_simp
    rw [this, q1, t1, t2]
    field_simp
    ring
  · have : i2 = j2 / conj b2 := by rw [k2]; field_simp
    rw [this, q2, t1, t2]
    field_simp
    ring

/-- **C59**: the flows computed at the ends are voltage times conjugate of the current entering. -/
theorem flows_are_powers (m : Adm) (v1 v2 : ℂ) :
    flowAtEnd1 m v1 v2 = v1 * conj (m.y11 * v1 + m.y12 * v2) ∧ flowAtEnd2 m v1 v2 = v2 * conj (m.y21 * v1 + m.y22 * v2) := by
  unfold flowAtEnd1 flowAtEnd2
  rw [conj_mul, conj_mul, conj_conj, conj_conj]
  exact ⟨mul_comm _ _, mul_comm _ _⟩

/-- **C59**: the powers entering at both ends sum up to what the series admittance and both shunt admittances consume. -/
theorem power_balance {r x ratio1 angle1 ratio2 angle2 : ℝ} {ysh1 ysh2 : ℂ} (h1 : 0 < ratio1) (h2 : 0 < ratio2) (hz : r ≠ 0 ∨ x ≠ 0) {m : Adm}
    (hm : calculateBranchAdmittance r x ratio1 angle1 ratio2 angle2 ysh1 ysh2 = some m)
    {a1 a2 : ℂ} (ha1 : a1 = ratio1 * exp (angle1 * I)) (ha2 : a2 = ratio2 * exp (angle2 * I)) (v1 v2 : ℂ) :
    flowAtEnd1 m v1 v2 + flowAtEnd2 m v1 v2 =
      (‖v1 / a1 - v2 / a2‖ ^ 2 : ℝ) * conj (1 / (r + x * I)) + (‖v1 / a1‖ ^ 2 : ℝ) * conj ysh1 + (‖v2 / a2‖ ^ 2 : ℝ) * conj ysh2 := by
  obtain ⟨m', b1, b2, hm', hb1, hb2, n1, n2, hmeq⟩ := admittance_spec (r := r) (x := x) (ratio1 := ratio1) (angle1 := angle1) (ratio2 := ratio2)
    (angle2 := angle2) (ysh1 := ysh1) (ysh2 := ysh2) h1 h2
  rw [hm] at hm'
  cases hm'
  rw [← ha1] at hb1
  rw [← ha2] at hb2
  subst hb1 hb2
  have c1 := conj_ne_zero n1
  have c2 := conj_ne_zero n2
  have hzz : (⟨r, x⟩ : ℂ) = r + x * I := by apply Complex.ext <;> simp
  simp only [if_pos hz, hzz] at hmeq
  generalize 1 / ((r : ℂ) + x * I) = y at hmeq ⊢
  obtain ⟨f1, f2⟩ := flows_are_powers m v1 v2
  have hv1 : v1 = b1 * (v1 / b1) := by field_simp
  have hv2 : v2 = b2 * (v2 / b2) := by field_simp
  generalize v1 / b1 = e1 at hv1 ⊢
  generalize v2 / b2 = e2 at hv2 ⊢
  have g1 : flowAtEnd1 m v1 v2 = e1 * conj ((y + ysh1) * e1 - y * e2) := by
    rw [f1]
    have : m.y11 * v1 + m.y12 * v2 = ((y + ysh1) * e1 - y * e2) / conj b1 := by
      rw [hmeq, hv1, hv2]; field_simp; ring
    rw [this, hv1]
    have : conj (((y + ysh1) * e1 - y * e2) / conj b1) = conj ((y + ysh1) * e1 - y * e2) / b1 := by
      simp [conj]
    rw [this]; field_simp
  have g2 : flowAtEnd2 m v1 v2 = e2 * conj ((y + ysh2) * e2 - y * e1) := by
    rw [f2]
    have : m.y21 * v1 + m.y22 * v2 = ((y + ysh2) * e2 - y * e1) / conj b2 := by
      rw [hmeq, hv1, hv2]; field_simp; ring
    rw [this, hv2]
    have : conj (((y + ysh2) * e2 - y * e1) / conj b2) = conj ((y + ysh2) * e2 - y * e1) / b2 := by
      simp [conj]
    rw [this]; field_simp
  rw [g1, g2]
  have nsq : ∀ z : ℂ, ((‖z‖ ^ 2 : ℝ) : ℂ) = z * conj z := by
    intro z; unfold conj; rw [Complex.mul_conj, Complex.normSq_eq_norm_sq]
  rw [nsq, nsq, nsq]
  simp only [conj, map_sub, map_add, map_mul]
  ring

/-- **C59**: a branch without resistance nor conductance loses no active power. -/
theorem lossless {x ratio1 angle1 ratio2 angle2 b1 b2 : ℝ} (h1 : 0 < ratio1) (h2 : 0 < ratio2) (hx : x ≠ 0) {m : Adm}
    (hm : calculateBranchAdmittance 0 x ratio1 angle1 ratio2 angle2 ⟨0, b1⟩ ⟨0, b2⟩ = some m) (v1 v2 : ℂ) :
    (flowAtEnd1 m v1 v2).re + (flowAtEnd2 m v1 v2).re = 0 := by
  rw [← Complex.add_re, power_balance h1 h2 (.inr hx) hm rfl rfl v1 v2]
  simp [conj, -ofReal_pow]

/-- **C59**: a branch with a non-negative resistance and non-negative conductances never produces active power. -/
theorem losses_nonneg {r x ratio1 angle1 ratio2 angle2 g1 b1 g2 b2 : ℝ} (h1 : 0 < ratio1) (h2 : 0 < ratio2) (hz : r ≠ 0 ∨ x ≠ 0)
    (hr : 0 ≤ r) (hg1 : 0 ≤ g1) (hg2 : 0 ≤ g2) {m : Adm}
    (hm : calculateBranchAdmittance r x ratio1 angle1 ratio2 angle2 ⟨g1, b1⟩ ⟨g2, b2⟩ = some m) (v1 v2 : ℂ) :
    0 ≤ (flowAtEnd1 m v1 v2).re + (flowAtEnd2 m v1 v2).re := by
  rw [← Complex.add_re, power_balance h1 h2 hz hm rfl rfl v1 v2]
  have hre : (conj (1 / ((r : ℂ) + x * I))).re = r / (r ^ 2 + x ^ 2) := by
    simp [conj, Complex.inv_re, Complex.normSq_apply]
    ring
  rw [Complex.add_re, Complex.add_re, Complex.re_ofReal_mul, Complex.re_ofReal_mul, Complex.re_ofReal_mul, hre]
  have e1 : (conj (⟨g1, b1⟩ : ℂ)).re = g1 := by simp [conj]
  have e2 : (conj (⟨g2, b2⟩ : ℂ)).re = g2 := by simp [conj]
  rw [e1, e2]
  positivity

/-- A branch of 3 + 33i ohms with a ratio has an admittance matrix. -/
example : ∃ m, calculateBranchAdmittance 3 33 0.95 0.1 1 0 ⟨0, 0.0001⟩ ⟨0, 0.0001⟩ = some m :=
  let ⟨m, _, _, h, _⟩ := admittance_spec (r := 3) (x := 33) (ratio1 := 0.95) (angle1 := 0.1) (ratio2 := 1) (angle2 := 0) (ysh1 := ⟨0, 0.0001⟩)
    (ysh2 := ⟨0, 0.0001⟩) (by norm_num) one_pos
  ⟨m, h⟩

/-- **C59**: the effective values of a transformer: without tap changers its own values and the ratio of its rated voltages. -/
theorem transformer_without_tap_changers (r x g b u1 u2 : ℝ) (hu : u1 ≠ 0) (split : Bool) (sv : SV) :
    otherSideTransformer ⟨r, x, g, b, u1, u2, none, none⟩ split sv =
      if split then otherSide r x (g / 2) (b / 2) (g / 2) (b / 2) (u2 / u1) 0 sv else otherSide r x g b 0 0 (u2 / u1) 0 sv := by
  unfold otherSideTransformer getRho rdiv getAlpha corrected
  simp only [if_neg hu, Option.bind_eq_bind, Option.bind_some, Option.pure_def, zero_mul]
  have : ∀ z : ℝ, z * 0.5 = z / 2 := by intro z; norm_num; ring
  simp only [this]

/-- The current steps of a transformer. -/
def steps (t : Transformer) : List Step := t.ratio.toList ++ t.phase.toList

/-- A value corrected by every step, each in percent. -/
noncomputable def effective (v : ℝ) (f : Step → ℝ) (t : Transformer) : ℝ := v * ((steps t).map fun s => (100 + f s) / 100).prod

/-- **C59**: the effective values of a transformer with tap changers: every step corrects the impedance and the shunt admittance by its percentage and
    multiplies the ratio of the rated voltages by its ratio; only the phase tap changer shifts the angle (in degrees). -/
theorem transformer_effective (t : Transformer) (hu : t.ratedU1 ≠ 0) (split : Bool) (sv : SV) :
    otherSideTransformer t split sv =
      otherSide (effective t.r Step.r t) (effective t.x Step.x t)
        (effective t.g Step.g t / if split then 2 else 1) (effective t.b Step.b t / if split then 2 else 1)
        (if split then effective t.g Step.g t / 2 else 0) (if split then effective t.b Step.b t / 2 else 0)
        (t.ratedU2 / t.ratedU1 * ((steps t).map Step.rho).prod) ((t.phase.elim 0 Step.alpha) * (Real.pi / 180)) sv := by
  have hc : ∀ v f, corrected v f t = effective v f t := by
    intro v f
    unfold corrected effective steps
    cases t.ratio <;> cases t.phase <;> simp only [Option.toList_none, Option.toList_some, List.nil_append, List.append_nil, List.cons_append, List.map_nil, List.map_cons, List.prod_nil, List.prod_cons] <;> ring
  have hr : getRho t = some (t.ratedU2 / t.ratedU1 * ((steps t).map Step.rho).prod) := by
    unfold getRho rdiv steps
    simp only [if_neg hu, Option.bind_eq_bind, Option.bind_some, Option.pure_def, Option.some.injEq]
    cases t.ratio <;> cases t.phase <;> simp
    ring
  have ha : getAlpha t = (t.phase.elim 0 Step.alpha) * (Real.pi / 180) := by
    unfold getAlpha toRadians
    cases t.phase <;> rfl
  have h2 : ∀ z : ℝ, z * 0.5 = z / 2 := by intro z; norm_num; ring
  unfold otherSideTransformer
  simp only [hr, hc, ha, h2, Option.bind_eq_bind, Option.bind_some]
  cases split <;> simp

example : (⟨1, 10, 0, 0, 400, 225, some ⟨10, 10, 0, 0, 1.1, 0⟩, some ⟨0, 0, 0, 0, 1, 30⟩⟩ : Transformer).ratedU1 ≠ 0 := by norm_num

/-- **C59**: a dangling line is a line whose shunt admittance is at the network side, or in halves at both sides. -/
theorem dangling_effective (r x g b : ℝ) (sv : SV) :
    otherSideDangling r x g b false sv = otherSideLine r x g b 0 0 sv ∧
    otherSideDangling r x g b true sv = otherSideLine r x (g / 2) (b / 2) (g / 2) (b / 2) sv := by
  have h2 : ∀ z : ℝ, z * 0.5 = z / 2 := by intro z; norm_num; ring
  simp [otherSideDangling, otherSideLine, h2]

/-- **C59**: a positive current step never changes the sign of the ratio, so the other side of a transformer with a non-zero corrected impedance and
    positive rated voltages and step ratios can always be computed, and coming back gives the initial state. -/
theorem transformer_come_back {t : Transformer} (h1 : 0 < t.ratedU1) (h2 : 0 < t.ratedU2) (hr : ∀ s ∈ t.ratio, 0 < s.rho) (hp : ∀ s ∈ t.phase, 0 < s.rho)
    (hz : corrected t.r (·.r) t ≠ 0 ∨ corrected t.x (·.x) t ≠ 0) (split : Bool) {sv : SV} (hu : 0 < sv.u) :
    ∃ sv', otherSideTransformer t split sv = some sv' ∧ sv'.side ≠ sv.side ∧ (sv'.u ≠ 0 →
      (∃ sv'', otherSideTransformer t split sv' = some sv'' ∧ SameState sv'' sv) ∧
      (-180 < sv.a → sv.a ≤ 180 → otherSideTransformer t split sv' = some sv)) := by
  have hrho : ∃ rho, getRho t = some rho ∧ 0 < rho := by
    unfold getRho rdiv
    simp only [if_neg h1.ne', Option.bind_eq_bind, Option.bind_some, Option.pure_def, Option.some.injEq, exists_eq_left']
    have h0 : 0 < t.ratedU2 / t.ratedU1 := by positivity
    cases hr' : t.ratio with
    | none =>
      cases hp' : t.phase with
      | none => exact h0
      | some s => exact mul_pos h0 (hp s (by rw [hp']; rfl))
    | some s' =>
      have h0' := mul_pos h0 (hr s' (by rw [hr']; rfl))
      cases hp' : t.phase with
      | none => exact h0'
      | some s => exact mul_pos h0' (hp s (by rw [hp']; rfl))
  obtain ⟨rho, e, hpos⟩ := hrho
  have ho : ∀ sv, otherSideTransformer t split sv = (if split then
      otherSide (corrected t.r (·.r) t) (corrected t.x (·.x) t) (corrected t.g (·.g) t * 0.5) (corrected t.b (·.b) t * 0.5)
        (corrected t.g (·.g) t * 0.5) (corrected t.b (·.b) t * 0.5) rho (getAlpha t) sv
      else otherSide (corrected t.r (·.r) t) (corrected t.x (·.x) t) (corrected t.g (·.g) t) (corrected t.b (·.b) t) 0 0 rho (getAlpha t) sv) := by
    intro sv
    unfold otherSideTransformer
    rw [e]
    rfl
  cases split with
  | true =>
    simp only [ho, if_true]
    exact come_back hz hpos hu
  | false =>
    simp only [ho, Bool.false_eq_true, if_false]
    exact come_back hz hpos hu

example : ∃ sv', otherSideTransformer ⟨0.5, 10, 0, 0.0001, 400, 225, some ⟨0, 0, 0, 0, 1.05, 0⟩, none⟩ true ⟨100, 50, 400, 10, .one⟩ = some sv' :=
  let ⟨sv', h, _⟩ := transformer_come_back (t := ⟨0.5, 10, 0, 0.0001, 400, 225, some ⟨0, 0, 0, 0, 1.05, 0⟩, none⟩) (by norm_num) (by norm_num)
    (by simp; norm_num) (by simp) (.inl (by norm_num [corrected])) true (sv := ⟨100, 50, 400, 10, .one⟩) (by norm_num)
  ⟨sv', h⟩

/-! ### C40 -/

/-- The current of a terminal as the property states it. -/
noncomputable def specI (p q v : ℝ) : ℝ := Real.sqrt (p ^ 2 + q ^ 2) / (Real.sqrt 3 * v / 1000)

/-- **C40**, partial: for a terminal with known powers and a positive voltage, the current is right exactly when the voltage is 1000 or there is no
    power: the code multiplies by the voltage instead of dividing.  Missing: all other voltages (`getI_wrong`). -/
theorem getI_right_iff_partial {p q v : ℝ} (hv : 0 < v) :
    getI ⟨false, some p, some q, some v⟩ = some (specI p q v) ↔ v = 1000 ∨ (p = 0 ∧ q = 0) := by
  unfold getI specI
  simp only [Bool.false_eq_true, if_false, Option.bind_eq_bind, Option.bind_some, Option.pure_def, Option.some.injEq]
  have h3 : Real.sqrt 3 ≠ 0 := by positivity
  constructor
  · intro h
    by_cases hpq : p ^ 2 + q ^ 2 = 0
    · right
      have h1 := sq_nonneg p
      have h2 := sq_nonneg q
      have e1 : p ^ 2 = 0 := by linarith
      have e2 : q ^ 2 = 0 := by linarith
      exact ⟨by simpa using e1, by simpa using e2⟩
    · left
      have hs : Real.sqrt (p ^ 2 + q ^ 2) ≠ 0 := by
        have : 0 < p ^ 2 + q ^ 2 := lt_of_le_of_ne (by positivity) (Ne.symm hpq)
        positivity
      have hvne := hv.ne'
      field_simp at h
      nlinarith
  · rintro (rfl | ⟨rfl, rfl⟩)
    · field_simp
    · simp

/-- **C40**, partial: a busbar section has no current. -/
theorem getI_busbar_partial (p q v : Option ℝ) : getI ⟨true, p, q, v⟩ = some 0 := rfl

/-- 3 MW and 4 Mvar at 400 kV: the current is not the specified one. -/
theorem getI_wrong : getI ⟨false, some 3, some 4, some 400⟩ ≠ some (specI 3 4 400) := by
  rw [Ne, getI_right_iff_partial (by norm_num)]
  norm_num

/-- A disconnected terminal (on a bus) has no number as current, instead of 0. -/
theorem getI_disconnected (p q busV : Option ℝ) : getI ⟨false, p, q, busTerminalV false busV⟩ = none := by
  unfold getI busTerminalV
  simp

end Verif.Flow
