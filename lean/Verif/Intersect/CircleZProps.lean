import Verif.Intersect.CircleProps

/-!
# A circle of a horizontal plane and a line crossing this plane (C56)
-/

namespace Volmdlr.Intersect

open Volmdlr.Angle Volmdlr.Arc

open Classical in
/-- C56, circle and line: for a line crossing the plane of the circle (not parallel to it, and not in the tolerance band of the planar case) at the
point `x`: the points returned are `[x]` when `x` is on the circle, none when `x` is farther than the tolerance from it (in square of distances),
and never another point.  Missing: the lines parallel to the plane at another height (`C56_circle_line_counterexample`), and the tolerance band. -/
theorem C56_circle_line_partial (c : Circle3) (l : Line3) (hr : 0 < c.radius) (hz : l.dir.z ≠ 0)
    (hpl : ¬(mathIsClose l.point1.z l.point2.z (1 / 10 ^ 6) ∧ mathIsClose l.point2.z c.frame.origin.z (1 / 10 ^ 6)))
    (x : V3 ℝ) (hx : OnLine3 l.point1 l.point2 x) (hxz : x.z = c.frame.origin.z) :
    (V3.pointDistance c.frame.origin x = c.radius → circleLineZ c l = .ok [x]) ∧
    (circleLineZ c l = .ok [] ∨ circleLineZ c l = .ok [x]) ∧
    (¬mathIsClose (V3.pointDistance c.frame.origin x ^ 2) (c.radius ^ 2) (1 / 10 ^ 6) → circleLineZ c l = .ok []) ∧
    ∀ p, OnLine3 l.point1 l.point2 p → p.z = c.frame.origin.z → p = x := by
  obtain ⟨t, t1, t2, t3⟩ := hx
  have hzz : l.dir.z = l.point2.z - l.point1.z := by simp [Line3.dir]
  have hzx : l.dir.x = l.point2.x - l.point1.x := by simp [Line3.dir]
  have hzy : l.dir.y = l.point2.y - l.point1.y := by simp [Line3.dir]
  have hne : l.point1 ≠ l.point2 := by
    intro e
    apply hz
    rw [hzz, e, sub_self]
  have hk : (c.frame.origin.z - l.point1.z) / l.dir.z = t := by
    rw [div_eq_iff hz, ← hxz, t3, hzz]; ring
  have hsq : V3.pointDistance c.frame.origin x ^ 2 = (x.x - c.frame.origin.x) ^ 2 + (x.y - c.frame.origin.y) ^ 2 := by
    rw [sq_pointDistance3]
    rw [hxz]; ring
  obtain ⟨d, hd, -, hmin⟩ := C73_point_distance3 l hne c.frame.origin
  have hform : circleLineZ c l = if d > c.radius then .ok [] else
      if mathIsClose (V3.pointDistance c.frame.origin x ^ 2) (c.radius ^ 2) (1 / 10 ^ 6) then .ok [x] else .ok [] := by
    unfold circleLineZ
    rw [hd]
    dsimp only
    by_cases h1 : d > c.radius
    · rw [if_pos h1, if_pos h1]
    · rw [if_neg h1, if_neg h1, if_neg hpl, if_neg hz, hk]
      have ex : t * l.dir.x + l.point1.x = x.x := by rw [t1, hzx]; ring
      have ey : t * l.dir.y + l.point1.y = x.y := by rw [t2, hzy]; ring
      rw [ex, ey, hsq, ← hxz]
  refine ⟨?_, ?_, ?_, ?_⟩
  · intro h
    rw [hform, if_neg (not_lt.2 ((hmin x ⟨t, t1, t2, t3⟩).trans h.le)), if_pos]
    rw [h]
    unfold mathIsClose
    rw [sub_self, abs_zero]
    positivity
  · rw [hform]
    split_ifs <;> simp
  · intro h
    rw [hform]
    split_ifs <;> rfl
  · rintro p ⟨s, s1, s2, s3⟩ hpz
    have : s = t := by
      have : s * l.dir.z = t * l.dir.z := by rw [hzz]; linarith
      exact mul_right_cancel₀ hz this
    subst this
    ext
    · rw [s1, t1]
    · rw [s2, t2]
    · rw [hpz, hxz]

-- a vertical line through a point of the unit circle meets the hypotheses
example : OnLine3 (⟨1, 0, -1⟩ : V3 ℝ) ⟨1, 0, 1⟩ ⟨1, 0, 0⟩ ∧ V3.pointDistance (⟨0, 0, 0⟩ : V3 ℝ) ⟨1, 0, 0⟩ = 1 ∧
    ¬(mathIsClose (-1) 1 (1 / 10 ^ 6)) := by
  refine ⟨⟨1 / 2, by norm_num, by norm_num, by norm_num⟩, by norm_num [V3.pointDistance, V3.norm], ?_⟩
  unfold mathIsClose
  norm_num [abs_of_pos, abs_of_neg]

end Volmdlr.Intersect
