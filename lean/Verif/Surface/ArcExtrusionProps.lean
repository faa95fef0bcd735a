import Verif.Surface.ArcExtrusionModel
import Verif.Surface.ArcSweepProps

/-!
# C218: extrusion of an arc of space
-/

namespace Volmdlr.Surface

open Volmdlr.Angle Volmdlr.Arc Real

/-! ## Specification -/

/-- The points swept by an arc moved along a vector; the arc is the points of its start turned about its centre by the angles from zero to `arcAngle`. -/
def ArcSweptAlong (start center normal : V3 ℝ) (arcAngle : ℝ) (vector : V3 ℝ) : Set (V3 ℝ) :=
  {p | ∃ s t : ℝ, 0 ≤ s ∧ s ≤ arcAngle ∧ 0 ≤ t ∧ t ≤ 1 ∧ p = V3.rotation start center normal s + V3.smul t vector}

/-- The point of a circle at an angle of its frame. -/
noncomputable def circlePoint (c : Circle3) (a : ℝ) : V3 ℝ :=
  c.frame.origin + V3.smul (c.radius * cos a) c.frame.basis.u + V3.smul (c.radius * sin a) c.frame.basis.v

/-! ## Proofs -/

lemma circlePoint_rotation (c : Circle3) (hu : V3.dot c.frame.basis.u c.frame.basis.u = 1) (hw : V3.dot c.frame.basis.w c.frame.basis.w = 1) (ho : V3.dot c.frame.basis.u c.frame.basis.w = 0)
    (hv : c.frame.basis.v = V3.cross c.frame.basis.w c.frame.basis.u) (a s : ℝ) : V3.rotation (circlePoint c a) c.frame.origin c.frame.basis.w s = circlePoint c (a + s) := by
  unfold circlePoint V3.rotation V3.rotationCS
  rw [hv, cos_add, sin_add]
  clear hv
  generalize c.frame.basis.u = u at hu ho ⊢
  generalize c.frame.basis.w = w at hw ho ⊢
  simp only [V3.dot] at hu hw ho
  ext
  · simp only [V3.add_x, V3.smul_x, V3.sub_x, V3.add_y, V3.smul_y, V3.sub_y, V3.add_z, V3.smul_z, V3.sub_z, V3.dot, V3.cross]
    linear_combination c.radius * ((1 - cos s) * cos a * w.x + sin s * sin a * w.x) * ho - c.radius * sin s * sin a * u.x * hw
  · simp only [V3.add_x, V3.smul_x, V3.sub_x, V3.add_y, V3.smul_y, V3.sub_y, V3.add_z, V3.smul_z, V3.sub_z, V3.dot, V3.cross]
    linear_combination c.radius * ((1 - cos s) * cos a * w.y + sin s * sin a * w.y) * ho - c.radius * sin s * sin a * u.y * hw
  · simp only [V3.add_x, V3.smul_x, V3.sub_x, V3.add_y, V3.smul_y, V3.sub_y, V3.add_z, V3.smul_z, V3.sub_z, V3.dot, V3.cross]
    linear_combination c.radius * ((1 - cos s) * cos a * w.z + sin s * sin a * w.z) * ho - c.radius * sin s * sin a * u.z * hw

/-- The last angle of the rectangle is the first one plus the angle of the arc. -/
lemma last_angle {a b alpha : ℝ} (a0 : 0 ≤ a) (a1 : a < 2 * π) (b0 : 0 ≤ b) (b1 : b < 2 * π) (h0 : 0 < alpha) (h1 : alpha ≤ 2 * π) (n : ℤ) (h : b = a + alpha + n * (2 * π)) :
    (open Classical in cylinderEnd a (if b < a then b + 2 * π else b)) = a + alpha := by
  have hp := Real.pi_pos
  have n0 : n < 1 := by
    by_contra hn
    have : (1 : ℝ) ≤ n := by exact_mod_cast not_lt.mp hn
    nlinarith
  have n1 : -2 < n := by
    by_contra hn
    have : (n : ℝ) ≤ -2 := by exact_mod_cast not_lt.mp hn
    nlinarith
  unfold cylinderEnd
  have hn : n = 0 ∨ n = -1 := by omega
  rcases hn with rfl | rfl
  · have hb : b = a + alpha := by rw [h]; push_cast; ring
    rw [if_neg (by linarith : ¬ b < a), if_neg (by intro e; linarith), hb]
  · have hb : b = a + alpha - 2 * π := by rw [h]; push_cast; ring
    by_cases hlt : b < a
    · rw [if_pos hlt, if_neg (by intro e; linarith)]
      linarith
    · rw [if_neg hlt]
      have : b = a := by linarith
      rw [if_pos this.symm]
      linarith

/-- **C218** (partial) the extrusion of an arc along its normal, in either direction, is one cylindrical face whose points are the points swept by the arc; another direction is refused. -/
theorem C218_extrusion_partial (colinear : V3 ℝ → Bool) (c : Circle3) (hu : V3.dot c.frame.basis.u c.frame.basis.u = 1) (hw : V3.dot c.frame.basis.w c.frame.basis.w = 1)
    (ho : V3.dot c.frame.basis.u c.frame.basis.w = 0) (hv : c.frame.basis.v = V3.cross c.frame.basis.w c.frame.basis.u)
    (angle1 angle2 arcAngle : ℝ) (a0 : 0 ≤ angle1) (a1 : angle1 < 2 * π) (b0 : 0 ≤ angle2) (b1 : angle2 < 2 * π) (h0 : 0 < arcAngle) (h1 : arcAngle ≤ 2 * π)
    (hend : ∃ n : ℤ, angle2 = angle1 + arcAngle + n * (2 * π)) :
    (∀ vector, colinear vector = false → arcExtrusion colinear c angle1 angle2 vector = .error .notImplemented) ∧
    ∀ k : ℝ, k ≠ 0 → colinear (V3.smul k c.frame.basis.w) = true →
      ∃ f, arcExtrusion colinear c angle1 angle2 (V3.smul k c.frame.basis.w) = .ok [f] ∧
        f.points = ArcSweptAlong (circlePoint c angle1) c.frame.origin c.frame.basis.w arcAngle (V3.smul k c.frame.basis.w) := by
  refine ⟨fun v h => by unfold arcExtrusion; rw [h, if_neg (by simp)], ?_⟩
  intro k hk hc
  obtain ⟨n, hn⟩ := hend
  have hlast := last_angle a0 a1 b0 b1 h0 h1 n hn
  have hwv : ∃ w, V3.unitVector (V3.smul k c.frame.basis.w) = some w ∧ V3.dot w c.frame.basis.w * V3.norm (V3.smul k c.frame.basis.w) = k := by
    rcases lt_or_gt_of_ne hk with h | h
    · refine ⟨_, unit_smul_neg hw h, ?_⟩
      rw [norm_smul hw, abs_of_neg h]
      have : V3.dot (-c.frame.basis.w) c.frame.basis.w = -1 := by
        simp only [V3.dot, V3.neg_x, V3.neg_y, V3.neg_z] at *
        linarith
      rw [this]; ring
    · refine ⟨_, unit_smul hw h, ?_⟩
      rw [norm_smul hw, abs_of_pos h, hw, one_mul]
  obtain ⟨w, hw1, hw2⟩ := hwv
  refine ⟨.cylinder ⟨c.frame, c.radius⟩ angle1 (angle1 + arcAngle) 0 k, ?_, ?_⟩
  · unfold arcExtrusion
    rw [hc, if_pos rfl, hw1]
    dsimp only
    rw [hlast, hw2]
  · ext p
    have key : ∀ a b : ℝ, Cylinder.paramTo3d ⟨c.frame, c.radius⟩ ⟨angle1 + a * (angle1 + arcAngle - angle1), 0 + b * (k - 0)⟩ =
        V3.rotation (circlePoint c angle1) c.frame.origin c.frame.basis.w (a * arcAngle) + V3.smul b (V3.smul k c.frame.basis.w) := by
      intro a b
      rw [circlePoint_rotation c hu hw ho hv]
      unfold Cylinder.paramTo3d circlePoint
      dsimp only
      rw [show angle1 + a * (angle1 + arcAngle - angle1) = angle1 + a * arcAngle by ring]
      ext
      · simp only [V3.add_x, V3.smul_x]; ring
      · simp only [V3.add_y, V3.smul_y]; ring
      · simp only [V3.add_z, V3.smul_z]; ring
    constructor
    · rintro ⟨a, b, a0, a1, b0, b1, rfl⟩
      exact ⟨a * arcAngle, b, by positivity, by nlinarith, b0, b1, key a b⟩
    · rintro ⟨s, t, s0, s1, t0, t1, rfl⟩
      refine ⟨s / arcAngle, t, by positivity, (div_le_one h0).mpr s1, t0, t1, ?_⟩
      rw [key, div_mul_cancel₀ _ h0.ne']

/-- The hypotheses of C218 are met, for an arc through the angle zero. -/
example : ∃ f, arcExtrusion (fun _ => true) ⟨⟨⟨0, 0, 0⟩, ⟨⟨1, 0, 0⟩, ⟨0, 1, 0⟩, ⟨0, 0, 1⟩⟩⟩, 2⟩ (3 / 2 * π) (1 / 2 * π) (V3.smul (-3) ⟨0, 0, 1⟩) = .ok [f] ∧
    f.points = ArcSweptAlong (circlePoint ⟨⟨⟨0, 0, 0⟩, ⟨⟨1, 0, 0⟩, ⟨0, 1, 0⟩, ⟨0, 0, 1⟩⟩⟩, 2⟩ (3 / 2 * π)) ⟨0, 0, 0⟩ ⟨0, 0, 1⟩ π (V3.smul (-3) ⟨0, 0, 1⟩) := by
  have hp := Real.pi_pos
  exact (C218_extrusion_partial (fun _ => true) ⟨⟨⟨0, 0, 0⟩, ⟨⟨1, 0, 0⟩, ⟨0, 1, 0⟩, ⟨0, 0, 1⟩⟩⟩, 2⟩ (by norm_num [V3.dot]) (by norm_num [V3.dot]) (by norm_num [V3.dot]) (by ext <;> simp [V3.cross])
    (3 / 2 * π) (1 / 2 * π) π (by positivity) (by linarith) (by positivity) (by linarith) hp (by linarith) ⟨-1, by push_cast; ring⟩).2 (-3) (by norm_num) rfl

end Volmdlr.Surface
