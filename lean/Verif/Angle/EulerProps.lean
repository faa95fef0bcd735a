import Verif.Angle.Props

/-!
# C67: Euler angles and transfer matrices; C68: clockwise interior point
-/

namespace Volmdlr.Angle

open Real

/-- The matrix of a rotation: its rows are unit, pairwise orthogonal, and its determinant is one. -/
structure IsRotation (m : Mat3) : Prop where
  row0 : m.r00 ^ 2 + m.r01 ^ 2 + m.r02 ^ 2 = 1
  row1 : m.r10 ^ 2 + m.r11 ^ 2 + m.r12 ^ 2 = 1
  row2 : m.r20 ^ 2 + m.r21 ^ 2 + m.r22 ^ 2 = 1
  row01 : m.r00 * m.r10 + m.r01 * m.r11 + m.r02 * m.r12 = 0
  row02 : m.r00 * m.r20 + m.r01 * m.r21 + m.r02 * m.r22 = 0
  row12 : m.r10 * m.r20 + m.r11 * m.r21 + m.r12 * m.r22 = 0
  det : m.r00 * (m.r11 * m.r22 - m.r12 * m.r21) - m.r01 * (m.r10 * m.r22 - m.r12 * m.r20) +
    m.r02 * (m.r10 * m.r21 - m.r11 * m.r20) = 1

/-- **C67.** For all angles, the matrix is that of a rotation. -/
theorem C67_euler_rotation (psi theta phi : ℝ) : IsRotation (eulerToMatrix psi theta phi) := by
  have a := sin_sq_add_cos_sq psi
  have b := sin_sq_add_cos_sq theta
  have c := sin_sq_add_cos_sq phi
  generalize hsa : sin psi = sa at *
  generalize hca : cos psi = ca at *
  generalize hsb : sin theta = sb at *
  generalize hcb : cos theta = cb at *
  generalize hsc : sin phi = sc at *
  generalize hcc : cos phi = cc at *
  constructor <;> unfold eulerToMatrix <;> dsimp only <;> simp only [hsa, hca, hsb, hcb, hsc, hcc]
  · linear_combination (cc ^ 2 + sc ^ 2 * cb ^ 2) * a + sc ^ 2 * b + c
  · linear_combination (sc ^ 2 + cb ^ 2 * cc ^ 2) * a + cc ^ 2 * b + c
  · linear_combination sb ^ 2 * a + b
  · linear_combination (cc * sc - cb ^ 2 * sc * cc) * a - sc * cc * b
  · linear_combination (-sc * cb * sb) * a
  · linear_combination (cb * cc * sb) * a
  · linear_combination (cc ^ 2 + sc ^ 2 * cb ^ 2) * a + sc ^ 2 * b + c + (cc * ca - sc * cb * sa) * cc * ca * b -
      (-sa * cc - ca * cb * sc) * sa * cc * b + sb ^ 2 * sc ^ 2 * a

lemma atan2_spec {x y : ℝ} (h : x ^ 2 + y ^ 2 = 1) : cos (atan2 y x) = x ∧ sin (atan2 y x) = y := by
  have hn : ‖(⟨x, y⟩ : ℂ)‖ = 1 := by
    rw [Complex.norm_def, Complex.normSq_mk, show x * x + y * y = 1 by nlinarith, sqrt_one]
  have hne : (⟨x, y⟩ : ℂ) ≠ 0 := by
    rw [← norm_ne_zero_iff, hn]; exact one_ne_zero
  unfold atan2
  rw [Complex.cos_arg hne, Complex.sin_arg, hn, div_one, div_one]
  exact ⟨rfl, rfl⟩

lemma atan2_cos_sin {t : ℝ} (h : t ∈ Set.Ioc (-π) π) : atan2 (sin t) (cos t) = t := by
  unfold atan2
  have := Complex.arg_cos_add_sin_mul_I h
  convert this using 2
  rw [← Complex.ofReal_cos, ← Complex.ofReal_sin]
  apply Complex.ext
  · simp only [Complex.add_re, Complex.mul_re, Complex.ofReal_re, Complex.ofReal_im, Complex.I_re, Complex.I_im]; ring
  · simp only [Complex.add_im, Complex.mul_im, Complex.ofReal_re, Complex.ofReal_im, Complex.I_re, Complex.I_im]; ring

/-- The rows of a rotation are the cross products of the other two. -/
lemma IsRotation.cofactor {m : Mat3} (h : IsRotation m) :
    m.r10 = m.r21 * m.r02 - m.r22 * m.r01 ∧ m.r11 = m.r22 * m.r00 - m.r20 * m.r02 ∧ m.r12 = m.r20 * m.r01 - m.r21 * m.r00 ∧
    m.r00 = m.r11 * m.r22 - m.r12 * m.r21 ∧ m.r01 = m.r12 * m.r20 - m.r10 * m.r22 ∧ m.r02 = m.r10 * m.r21 - m.r11 * m.r20 := by
  obtain ⟨h0, h1, h2, h01, h02, h12, hd⟩ := h
  have e1 : (m.r10 - (m.r21 * m.r02 - m.r22 * m.r01)) ^ 2 + (m.r11 - (m.r22 * m.r00 - m.r20 * m.r02)) ^ 2 +
      (m.r12 - (m.r20 * m.r01 - m.r21 * m.r00)) ^ 2 = 0 := by
    have lag : (m.r21 * m.r02 - m.r22 * m.r01) ^ 2 + (m.r22 * m.r00 - m.r20 * m.r02) ^ 2 + (m.r20 * m.r01 - m.r21 * m.r00) ^ 2 =
      (m.r00 ^ 2 + m.r01 ^ 2 + m.r02 ^ 2) * (m.r20 ^ 2 + m.r21 ^ 2 + m.r22 ^ 2) - (m.r00 * m.r20 + m.r01 * m.r21 + m.r02 * m.r22) ^ 2 := by ring
    rw [h0, h2, h02] at lag
    linear_combination lag + h1 - 2 * hd
  have e0 : (m.r00 - (m.r11 * m.r22 - m.r12 * m.r21)) ^ 2 + (m.r01 - (m.r12 * m.r20 - m.r10 * m.r22)) ^ 2 +
      (m.r02 - (m.r10 * m.r21 - m.r11 * m.r20)) ^ 2 = 0 := by
    have lag : (m.r11 * m.r22 - m.r12 * m.r21) ^ 2 + (m.r12 * m.r20 - m.r10 * m.r22) ^ 2 + (m.r10 * m.r21 - m.r11 * m.r20) ^ 2 =
      (m.r10 ^ 2 + m.r11 ^ 2 + m.r12 ^ 2) * (m.r20 ^ 2 + m.r21 ^ 2 + m.r22 ^ 2) - (m.r10 * m.r20 + m.r11 * m.r21 + m.r12 * m.r22) ^ 2 := by ring
    rw [h1, h2, h12] at lag
    linear_combination lag + h0 - 2 * hd
  have z : ∀ a b c : ℝ, a ^ 2 + b ^ 2 + c ^ 2 = 0 → a = 0 ∧ b = 0 ∧ c = 0 := by
    intro a b c h
    have := sq_nonneg a; have := sq_nonneg b; have := sq_nonneg c
    exact ⟨pow_eq_zero_iff (two_ne_zero) |>.1 (by linarith), pow_eq_zero_iff (two_ne_zero) |>.1 (by linarith),
      pow_eq_zero_iff (two_ne_zero) |>.1 (by linarith)⟩
  obtain ⟨a1, a2, a3⟩ := z _ _ _ e1
  obtain ⟨b1, b2, b3⟩ := z _ _ _ e0
  exact ⟨by linarith, by linarith, by linarith, by linarith, by linarith, by linarith⟩

/-- **C67.** For every rotation matrix, the Euler angles computed from it exist and give back the matrix, including when the last axis is
kept or reversed. -/
theorem C67_matrix_euler_matrix (m : Mat3) (h : IsRotation m) :
    ∃ psi theta phi, matrixToEuler m = some (psi, theta, phi) ∧ eulerToMatrix psi theta phi = m := by
  obtain ⟨c10, c11, c12, c00, c01, c02⟩ := h.cofactor
  obtain ⟨h0, h1, h2, h01, h02, h12, hd⟩ := h
  unfold matrixToEuler
  have hle : |m.r22| ≤ 1 := by
    rw [abs_le]; constructor <;> nlinarith [sq_nonneg m.r20, sq_nonneg m.r21]
  have hcol : m.r02 ^ 2 + m.r12 ^ 2 + m.r22 ^ 2 = 1 := by
    have e22 : m.r22 = m.r00 * m.r11 - m.r01 * m.r10 := by grind
    grind
  by_cases hz : m.r22 ≠ 1 ∧ m.r22 ≠ -1
  · rw [if_pos hz, if_pos hle]
    refine ⟨_, _, _, rfl, ?_⟩
    have hct : cos (arccos m.r22) = m.r22 := cos_arccos (abs_le.1 hle).1 (abs_le.1 hle).2
    set s := sin (arccos m.r22) with hs
    have hs2 : s ^ 2 = 1 - m.r22 ^ 2 := by
      rw [hs, sin_arccos, sq_sqrt (by nlinarith [abs_le.1 hle])]
    have hs0 : s ≠ 0 := by
      intro e
      rw [e] at hs2
      have : (m.r22 - 1) * (m.r22 + 1) = 0 := by nlinarith
      rcases mul_eq_zero.1 this with e | e
      · exact hz.1 (by linarith)
      · exact hz.2 (by linarith)
    have hs2' : s ^ 2 ≠ 0 := pow_ne_zero 2 hs0
    obtain ⟨cpsi, spsi⟩ := atan2_spec (x := m.r21 / s) (y := m.r20 / s) (by
      rw [div_pow, div_pow, ← add_div, div_eq_one_iff_eq hs2', hs2]; linarith)
    obtain ⟨cphi, sphi⟩ := atan2_spec (x := -m.r12 / s) (y := m.r02 / s) (by
      rw [div_pow, div_pow, ← add_div, div_eq_one_iff_eq hs2', hs2]; linarith)
    unfold eulerToMatrix
    rw [cpsi, spsi, cphi, sphi, hct, ← hs]
    ext <;> dsimp only
    · field_simp
      rw [hs2]; linear_combination (-m.r20) * h02 - m.r21 * c12 + m.r00 * h2
    · field_simp
      rw [hs2]; linear_combination (-m.r21) * h02 + m.r20 * c12 + m.r01 * h2
    · field_simp
    · field_simp
      rw [hs2]; linear_combination (-m.r20) * h12 + m.r21 * c02 + m.r10 * h2
    · field_simp
      rw [hs2]; linear_combination (-m.r21) * h12 - m.r20 * c02 + m.r11 * h2
    · field_simp
    · field_simp
    · field_simp
  · rw [if_neg hz]
    have hsq : m.r22 ^ 2 = 1 := by
      by_cases e : m.r22 = 1
      · rw [e]; norm_num
      · have : m.r22 = -1 := by by_contra hc; exact hz ⟨e, hc⟩
        rw [this]; norm_num
    have z20 : m.r20 = 0 := pow_eq_zero_iff (two_ne_zero) |>.1 (by linarith [sq_nonneg m.r20, sq_nonneg m.r21])
    have z21 : m.r21 = 0 := pow_eq_zero_iff (two_ne_zero) |>.1 (by linarith [sq_nonneg m.r20, sq_nonneg m.r21])
    have z02 : m.r02 = 0 := pow_eq_zero_iff (two_ne_zero) |>.1 (by linarith [sq_nonneg m.r02, sq_nonneg m.r12])
    have z12 : m.r12 = 0 := pow_eq_zero_iff (two_ne_zero) |>.1 (by linarith [sq_nonneg m.r02, sq_nonneg m.r12])
    by_cases e : m.r22 = 1
    · rw [if_pos e]
      refine ⟨_, _, _, rfl, ?_⟩
      rw [z21, z02, e] at c10; rw [z20, z02, e] at c11
      obtain ⟨c, s⟩ := atan2_spec (x := m.r00) (y := m.r10) (by rw [z02] at h0; rw [c10]; linear_combination h0)
      unfold eulerToMatrix
      rw [c, s]
      ext <;> simp [z20, z21, z02, z12, e] <;> linarith
    · have e' : m.r22 = -1 := by by_contra hc; exact hz ⟨e, hc⟩
      rw [if_neg e]
      refine ⟨_, _, _, rfl, ?_⟩
      rw [z21, z02, e'] at c10; rw [z20, z02, e'] at c11
      obtain ⟨c, s⟩ := atan2_spec (x := m.r00) (y := m.r10) (by rw [z02] at h0; rw [c10]; linear_combination h0)
      unfold eulerToMatrix
      rw [cos_neg, sin_neg, c, s]
      ext <;> simp [z20, z21, z02, z12, e'] <;> linarith

/-- **C67.** Angles with `theta` in `(0, π)` and the other two in `(-π, π]` are given back. -/
theorem C67_euler_matrix_euler (psi theta phi : ℝ) (h1 : psi ∈ Set.Ioc (-π) π) (h2 : 0 < theta) (h3 : theta < π)
    (h4 : phi ∈ Set.Ioc (-π) π) : matrixToEuler (eulerToMatrix psi theta phi) = some (psi, theta, phi) := by
  have hs : 0 < sin theta := sin_pos_of_pos_of_lt_pi h2 h3
  have hc : |cos theta| ≤ 1 := abs_cos_le_one theta
  have hne : cos theta ≠ 1 ∧ cos theta ≠ -1 := by
    have := sin_sq_add_cos_sq theta
    constructor <;> intro e <;> rw [e] at this <;> nlinarith
  have ha : arccos (cos theta) = theta := arccos_cos h2.le h3.le
  unfold matrixToEuler eulerToMatrix
  dsimp only
  rw [if_pos hne, if_pos hc]
  rw [ha, mul_div_cancel_right₀ _ hs.ne', mul_div_cancel_right₀ _ hs.ne', mul_div_cancel_left₀ _ hs.ne',
    show -(-sin theta * cos phi) / sin theta = cos phi by field_simp, atan2_cos_sin h1, atan2_cos_sin h4]

/-- A quarter of a turn around the `y` axis. -/
example : IsRotation ⟨0, 0, 1, 0, 1, 0, -1, 0, 0⟩ := by constructor <;> norm_num

/-! ## C68 -/

/-- Turning clockwise from the angle `a` one meets `b`, strictly between, before reaching `c`: `b = a - x`, `c = a - y` with
`0 < x < y ≤ 2π`, angles being counted up to full turns. -/
def ClockwiseBetween (a b c : ℝ) : Prop :=
  ∃ x y : ℝ, 0 < x ∧ x < y ∧ y ≤ 2 * π ∧ (∃ n : ℤ, b = a - x + n * (2 * π)) ∧ ∃ n : ℤ, c = a - y + n * (2 * π)

lemma clockwiseInteriorAngle_spec {a c : ℝ} (ha : 0 ≤ a) (ha' : a < 2 * π) (hc : 0 ≤ c) (hc' : c < 2 * π) :
    ClockwiseBetween a (clockwiseInteriorAngle a c) c ∧ 0 ≤ clockwiseInteriorAngle a c ∧ clockwiseInteriorAngle a c ≤ 2 * π := by
  have hp := pi_pos
  unfold clockwiseInteriorAngle
  dsimp only
  by_cases h : a > c
  · rw [if_pos h, if_neg (by linarith)]
    refine ⟨⟨(a - c) / 2, a - c, by linarith, by linarith, by linarith, ⟨0, by push_cast; ring⟩, ⟨0, by push_cast; ring⟩⟩, by linarith, by linarith⟩
  · rw [if_neg h]
    push Not at h
    have hb : (∃ n : ℤ, (a + c) / 2 + 2 * π / 2 = a - (a - c + 2 * π) / 2 + n * (2 * π)) := ⟨1, by push_cast; ring⟩
    by_cases h2 : (a + c) / 2 + 2 * π / 2 > 2 * π
    · rw [if_pos h2]
      refine ⟨⟨(a - c + 2 * π) / 2, a - c + 2 * π, by linarith, by linarith, by linarith, ⟨0, by push_cast; ring⟩, ⟨1, by push_cast; ring⟩⟩,
        by linarith, by linarith⟩
    · rw [if_neg h2]
      refine ⟨⟨(a - c + 2 * π) / 2, a - c + 2 * π, by linarith, by linarith, by linarith, hb, ⟨1, by push_cast; ring⟩⟩, by linarith, by linarith⟩

/-- **C68.** The point returned is on the circle, and turning clockwise from (the angle found for) the start one meets it before (the
angle found for) the end. -/
theorem C68_clockwise_interior (radius : ℝ) (hr : 0 < radius) (a c : ℝ) (ha : 0 ≤ a) (ha' : a < (1 - 1 / 10 ^ 9) * (2 * π))
    (hc : 0 ≤ c) (hc' : c < (1 - 1 / 10 ^ 9) * (2 * π)) :
    ∃ b, clockwiseInterior radius ⟨radius * cos a, radius * sin a⟩ ⟨radius * cos c, radius * sin c⟩ = ⟨radius * cos b, radius * sin b⟩ ∧
      ClockwiseBetween a b c := by
  have hp := pi_pos
  refine ⟨clockwiseInteriorAngle a c, ?_, (clockwiseInteriorAngle_spec ha (by linarith) hc (by linarith)).1⟩
  unfold clockwiseInterior
  dsimp only
  rw [mul_div_cancel_left₀ _ hr.ne', mul_div_cancel_left₀ _ hr.ne', mul_div_cancel_left₀ _ hr.ne', mul_div_cancel_left₀ _ hr.ne',
    C54_sin_cos_angle_eq a ha ha', C54_sin_cos_angle_eq c hc hc']

/-- From the top to the right of the unit circle. -/
example : ClockwiseBetween (π / 2) (π / 4) 0 :=
  ⟨π / 4, π / 2, by positivity, by linarith [pi_pos], by linarith [pi_pos], ⟨0, by push_cast; ring⟩, ⟨0, by push_cast; ring⟩⟩

end Volmdlr.Angle
