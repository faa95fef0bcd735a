import Verif.Hull.Model
import Verif.Angle.Props
import Mathlib.Analysis.SpecialFunctions.Trigonometric.Bounds

/-!
# Counter-clockwise angles between vectors of the plane
-/

namespace Volmdlr.Hull

open Real Volmdlr.Angle Volmdlr.Arc

/-- The angle to turn counter-clockwise from `u` to `v`. -/
noncomputable def cc (u v : V2 ℝ) : ℝ := 2 * π - clockwiseAngle u v

theorem norm_pos {u : V2 ℝ} (h : u ≠ ⟨0, 0⟩) : 0 < V2.norm u := by
  unfold V2.norm
  apply Real.sqrt_pos.2
  rcases eq_or_ne u.x 0 with hx | hx
  · have hy : u.y ≠ 0 := fun hy => h (V2.ext hx hy)
    have := mul_self_pos.2 hy
    nlinarith [mul_self_nonneg u.x]
  · have := mul_self_pos.2 hx
    nlinarith [mul_self_nonneg u.y]

theorem norm_sq (u : V2 ℝ) : V2.norm u * V2.norm u = u.x * u.x + u.y * u.y :=
  Real.mul_self_sqrt (by nlinarith [mul_self_nonneg u.x, mul_self_nonneg u.y])

theorem cc_spec {u v : V2 ℝ} (hu : u ≠ ⟨0, 0⟩) (hv : v ≠ ⟨0, 0⟩) :
    0 ≤ cc u v ∧ cc u v < 2 * π ∧ cos (cc u v) * (V2.norm u * V2.norm v) = V2.dot u v ∧
    sin (cc u v) * (V2.norm u * V2.norm v) = V2.cross u v := by
  obtain ⟨h1, h2, h3⟩ := C54_clockwise_angle u v hu hv
  unfold cc
  set a := clockwiseAngle u v
  rw [cos_two_pi_sub, sin_two_pi_sub]
  have nu := norm_pos hu
  have hx := congrArg V2.x h3
  have hy := congrArg V2.y h3
  simp only [V2.smul, V2.rotation, V2.rotationCS, cos_neg, sin_neg] at hx hy
  simp only [show ∀ p q : V2 ℝ, (p - q).x = p.x - q.x from fun _ _ => rfl,
    show ∀ p q : V2 ℝ, (p - q).y = p.y - q.y from fun _ _ => rfl, sub_zero, add_zero] at hx hy
  have hs := norm_sq u
  refine ⟨by linarith, by linarith, ?_, ?_⟩
  · apply mul_left_cancel₀ nu.ne'
    unfold V2.dot
    linear_combination u.x * hx + u.y * hy + cos a * V2.norm v * hs
  · apply mul_left_cancel₀ nu.ne'
    unfold V2.cross
    linear_combination u.x * hy - u.y * hx - sin a * V2.norm v * hs

theorem cc_le_pi {u v : V2 ℝ} (hu : u ≠ ⟨0, 0⟩) (hv : v ≠ ⟨0, 0⟩) : cc u v ≤ π ↔ 0 ≤ V2.cross u v := by
  obtain ⟨h1, h2, -, h4⟩ := cc_spec hu hv
  have hp := mul_pos (norm_pos hu) (norm_pos hv)
  rw [← h4]
  constructor
  · intro h
    exact mul_nonneg (sin_nonneg_of_nonneg_of_le_pi h1 h) hp.le
  · intro h
    by_contra hc
    have hs : sin (cc u v) < 0 := by
      have : 0 < sin (cc u v - π) := sin_pos_of_pos_of_lt_pi (by linarith) (by linarith)
      rw [sin_sub_pi] at this
      linarith
    nlinarith

/-- Angles from a common vector give the angle between two vectors. -/
theorem cross_of_cc {u v w : V2 ℝ} (hu : u ≠ ⟨0, 0⟩) (hv : v ≠ ⟨0, 0⟩) (hw : w ≠ ⟨0, 0⟩) :
    V2.cross v w = V2.norm v * V2.norm w * sin (cc u w - cc u v) := by
  obtain ⟨-, -, a1, a2⟩ := cc_spec hu hv
  obtain ⟨-, -, b1, b2⟩ := cc_spec hu hw
  have nu := norm_pos hu
  have hs := norm_sq u
  have e : (V2.norm u * V2.norm u) * V2.cross v w = V2.dot u v * V2.cross u w - V2.cross u v * V2.dot u w := by
    rw [hs]; unfold V2.cross V2.dot; ring
  apply mul_left_cancel₀ (mul_pos nu nu).ne'
  rw [e, ← a1, ← a2, ← b1, ← b2, sin_sub]
  ring

theorem dot_of_cc {u v w : V2 ℝ} (hu : u ≠ ⟨0, 0⟩) (hv : v ≠ ⟨0, 0⟩) (hw : w ≠ ⟨0, 0⟩) :
    V2.dot v w = V2.norm v * V2.norm w * cos (cc u w - cc u v) := by
  obtain ⟨-, -, a1, a2⟩ := cc_spec hu hv
  obtain ⟨-, -, b1, b2⟩ := cc_spec hu hw
  have nu := norm_pos hu
  have hs := norm_sq u
  have e : (V2.norm u * V2.norm u) * V2.dot v w = V2.dot u v * V2.dot u w + V2.cross u v * V2.cross u w := by
    rw [hs]; unfold V2.cross V2.dot; ring
  apply mul_left_cancel₀ (mul_pos nu nu).ne'
  rw [e, ← a1, ← a2, ← b1, ← b2, cos_sub]
  ring

/-- Among vectors on the left of `u`, a smaller angle means more to the right. -/
theorem cross_nonneg_of_cc_le {u v w : V2 ℝ} (hu : u ≠ ⟨0, 0⟩) (hv : v ≠ ⟨0, 0⟩) (hw : w ≠ ⟨0, 0⟩)
    (h2 : 0 ≤ V2.cross u w) (h : cc u v ≤ cc u w) : 0 ≤ V2.cross v w := by
  rw [cross_of_cc hu hv hw]
  have a1 := (cc_spec hu hv).1
  have b1 := (cc_le_pi hu hw).2 h2
  exact mul_nonneg (mul_nonneg (norm_pos hv).le (norm_pos hw).le)
    (sin_nonneg_of_nonneg_of_le_pi (by linarith) (by linarith))

/-- Two angles of the interval `[0, 2π)` with the same cosine and sine are equal. -/
theorem angle_unique {a b : ℝ} (ha : 0 ≤ a) (ha' : a < 2 * π) (hb : 0 ≤ b) (hb' : b < 2 * π)
    (hc : cos a = cos b) (hs : sin a = sin b) : a = b := by
  have h : cos (a - b) = 1 := by
    rw [cos_sub, hc, hs]
    nlinarith [sin_sq_add_cos_sq b]
  obtain ⟨n, hn⟩ := (Real.cos_eq_one_iff _).1 h
  have hp := Real.two_pi_pos
  have h1 : ((n : ℝ)) < 1 := by by_contra hh; nlinarith
  have h2 : (-1 : ℝ) < n := by by_contra hh; nlinarith
  have h3 : n < 1 := by exact_mod_cast h1
  have h4 : -1 < n := by exact_mod_cast h2
  have : n = 0 := by omega
  rw [this] at hn
  simp at hn
  linarith

/-- Composition of angles. -/
theorem cc_add {u v w : V2 ℝ} (hu : u ≠ ⟨0, 0⟩) (hv : v ≠ ⟨0, 0⟩) (hw : w ≠ ⟨0, 0⟩) (h : cc u v + cc v w < 2 * π) :
    cc u v + cc v w = cc u w := by
  have nu := norm_pos hu
  have nv := norm_pos hv
  have nw := norm_pos hw
  have h1 := cross_of_cc hu hv hw
  have h2 := dot_of_cc hu hv hw
  obtain ⟨a1, a2, a3, a4⟩ := cc_spec hu hv
  obtain ⟨b1, b2, b3, b4⟩ := cc_spec hv hw
  obtain ⟨c1, c2, c3, c4⟩ := cc_spec hu hw
  have e1 : sin (cc v w) = sin (cc u w - cc u v) := by
    apply mul_left_cancel₀ (mul_pos nv nw).ne'
    linarith
  have e2 : cos (cc v w) = cos (cc u w - cc u v) := by
    apply mul_left_cancel₀ (mul_pos nv nw).ne'
    linarith
  have e : cc u w = cc u v + (cc u w - cc u v) := by ring
  apply angle_unique (by linarith) h c1 c2
  · rw [cos_add, e2, e1, ← cos_add]; congr 1; ring
  · rw [sin_add, e2, e1, ← sin_add]; congr 1; ring

/-- If the composition exceeds a full turn, the first vector is in the sector of the two others. -/
theorem sector_of_cc {u v w : V2 ℝ} (hu : u ≠ ⟨0, 0⟩) (hv : v ≠ ⟨0, 0⟩) (hw : w ≠ ⟨0, 0⟩)
    (hvw : 0 < V2.cross v w) (h : 2 * π ≤ cc u v + cc v w) : 0 < V2.cross v u ∧ 0 ≤ V2.cross u w := by
  have nu := norm_pos hu
  have nv := norm_pos hv
  have nw := norm_pos hw
  have h1 := cross_of_cc hu hv hw
  have h2 := dot_of_cc hu hv hw
  obtain ⟨a1, a2, a3, a4⟩ := cc_spec hu hv
  obtain ⟨b1, b2, b3, b4⟩ := cc_spec hv hw
  obtain ⟨c1, c2, c3, c4⟩ := cc_spec hu hw
  have hpi := (cc_le_pi hv hw).2 hvw.le
  have hne : cc v w ≠ π := by
    intro e
    rw [e, sin_pi] at b4
    linarith
  have hlt : cc v w < π := lt_of_le_of_ne hpi hne
  have e1 : sin (cc v w) = sin (cc u w - cc u v) := by
    apply mul_left_cancel₀ (mul_pos nv nw).ne'
    linarith
  have e2 : cos (cc v w) = cos (cc u w - cc u v) := by
    apply mul_left_cancel₀ (mul_pos nv nw).ne'
    linarith
  constructor
  · have : sin (cc u v) < 0 := by
      have : 0 < sin (cc u v - π) := sin_pos_of_pos_of_lt_pi (by linarith) (by linarith)
      rw [sin_sub_pi] at this
      linarith
    have h5 : V2.cross v u = -V2.cross u v := by unfold V2.cross; ring
    rw [h5, ← a4]
    nlinarith [mul_pos nu nv]
  · rw [← c4]
    have e : cc u w = cc u v + (cc u w - cc u v) := by ring
    have : sin (cc u w) = sin (cc u v + cc v w) := by
      rw [e, sin_add, ← e1, ← e2, ← sin_add]
    rw [this]
    have h6 : sin (cc u v + cc v w) = sin (cc u v + cc v w - 2 * π) := by rw [sin_sub_two_pi]
    rw [h6]
    exact mul_nonneg (sin_nonneg_of_nonneg_of_le_pi (by linarith) (by linarith)) (mul_pos nu nw).le

/-- A closed path turns by exactly one turn. -/
theorem cc_back {u v : V2 ℝ} (hu : u ≠ ⟨0, 0⟩) (hv : v ≠ ⟨0, 0⟩) : cc u v + cc v u ≤ 2 * π := by
  by_contra hc
  push Not at hc
  obtain ⟨a1, a2, a3, a4⟩ := cc_spec hu hv
  obtain ⟨b1, b2, b3, b4⟩ := cc_spec hv hu
  have hp := mul_pos (norm_pos hu) (norm_pos hv)
  have e1 : sin (cc v u) = -sin (cc u v) := by
    apply mul_right_cancel₀ hp.ne'
    have : V2.cross v u = -V2.cross u v := by unfold V2.cross; ring
    linarith
  have e2 : cos (cc v u) = cos (cc u v) := by
    apply mul_right_cancel₀ hp.ne'
    have : V2.dot v u = V2.dot u v := by unfold V2.dot; ring
    linarith
  have : cos (cc u v + cc v u) = 1 := by
    rw [cos_add, e1, e2]
    nlinarith [sin_sq_add_cos_sq (cc u v)]
  obtain ⟨n, hn⟩ := (Real.cos_eq_one_iff _).1 this
  have hpp := Real.two_pi_pos
  have h1 : ((n : ℝ)) < 2 := by by_contra hh; nlinarith
  have h2 : (1 : ℝ) < n := by by_contra hh; nlinarith
  have h3 : n < 2 := by exact_mod_cast h1
  have h4 : 1 < n := by exact_mod_cast h2
  omega

end Volmdlr.Hull
