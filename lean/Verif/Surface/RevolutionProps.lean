import Mathlib.Analysis.Real.Pi.Bounds
import Verif.Surface.RevolutionModel
import Verif.Segment.Props
import Verif.Frame.Props

/-!
# C212: revolution of a line segment of space
-/

namespace Volmdlr.Surface

open Volmdlr.Angle Volmdlr.Intersect Real

/-! ## Specification -/

/-- The points of a segment turned about an axis, by the angles from zero to `angle`. -/
def SweptSet (start fin axisPoint axis : V3 ℝ) (angle : ℝ) : Set (V3 ℝ) :=
  {p | ∃ s t : ℝ, 0 ≤ s ∧ s ≤ 1 ∧ 0 ≤ t ∧ t ≤ angle ∧ p = V3.rotation (start + V3.smul s (fin - start)) axisPoint axis t}

/-- The points of a face of a revolution. -/
def RevFace.points : RevFace → Set (V3 ℝ)
  | .cone s theta1 theta2 z1 z2 => {p | ∃ a b : ℝ, 0 ≤ a ∧ a ≤ 1 ∧ 0 ≤ b ∧ b ≤ 1 ∧ p = s.paramTo3d ⟨theta1 + a * (theta2 - theta1), z1 + b * (z2 - z1)⟩}
  | .cylinder s theta1 theta2 z1 z2 => {p | ∃ a b : ℝ, 0 ≤ a ∧ a ≤ 1 ∧ 0 ≤ b ∧ b ≤ 1 ∧ p = s.paramTo3d ⟨theta1 + a * (theta2 - theta1), z1 + b * (z2 - z1)⟩}
  | .plane frame region => {p | ∃ q ∈ region, p = frame.origin + V3.smul q.x frame.basis.u + V3.smul q.y frame.basis.v}

/-- A segment in a plane with the axis: `foot` is the projection of its start on the axis, `u` a unit vector orthogonal to the axis; the start is at the distance `r1` of the axis,
the end at the distance `r2` (negative on the other side of the axis) and at the height `h` above the start. -/
structure Meridian (start fin axisPoint axis foot u : V3 ℝ) (r1 r2 h : ℝ) : Prop where
  unit_axis : V3.dot axis axis = 1
  unit_u : V3.dot u u = 1
  orth : V3.dot u axis = 0
  foot_axis : ∃ q, foot = axisPoint + V3.smul q axis
  start_eq : start = foot + V3.smul r1 u
  fin_eq : fin = foot + V3.smul r2 u + V3.smul h axis

/-- The point at the distance `r`, the angle `t` and the height `z`. -/
noncomputable def around (foot u axis : V3 ℝ) (r t z : ℝ) : V3 ℝ :=
  foot + V3.smul (r * cos t) u + V3.smul (r * sin t) (V3.cross axis u) + V3.smul z axis

lemma swept_iff {start fin axisPoint axis foot u : V3 ℝ} {r1 r2 h : ℝ} (m : Meridian start fin axisPoint axis foot u r1 r2 h) (angle : ℝ) (p : V3 ℝ) :
    p ∈ SweptSet start fin axisPoint axis angle ↔ ∃ s t : ℝ, 0 ≤ s ∧ s ≤ 1 ∧ 0 ≤ t ∧ t ≤ angle ∧ p = around foot u axis (r1 + s * (r2 - r1)) t (s * h) := by
  have key : ∀ s t : ℝ, V3.rotation (start + V3.smul s (fin - start)) axisPoint axis t = around foot u axis (r1 + s * (r2 - r1)) t (s * h) := by
    intro s t
    obtain ⟨q, hq⟩ := m.foot_axis
    have hu := m.orth
    have hw := m.unit_axis
    rw [m.start_eq, m.fin_eq, hq]
    unfold V3.rotation V3.rotationCS around
    simp only [V3.dot] at hu hw
    ext
    · simp only [V3.add_x, V3.smul_x, V3.sub_x, V3.add_y, V3.smul_y, V3.sub_y, V3.add_z, V3.smul_z, V3.sub_z, V3.dot, V3.cross]
      linear_combination (1 - cos t) * axis.x * ((r1 + s * (r2 - r1)) * hu + (q + s * h) * hw)
    · simp only [V3.add_x, V3.smul_x, V3.sub_x, V3.add_y, V3.smul_y, V3.sub_y, V3.add_z, V3.smul_z, V3.sub_z, V3.dot, V3.cross]
      linear_combination (1 - cos t) * axis.y * ((r1 + s * (r2 - r1)) * hu + (q + s * h) * hw)
    · simp only [V3.add_x, V3.smul_x, V3.sub_x, V3.add_y, V3.smul_y, V3.sub_y, V3.add_z, V3.smul_z, V3.sub_z, V3.dot, V3.cross]
      linear_combination (1 - cos t) * axis.z * ((r1 + s * (r2 - r1)) * hu + (q + s * h) * hw)
  constructor
  · rintro ⟨s, t, h1, h2, h3, h4, rfl⟩
    exact ⟨s, t, h1, h2, h3, h4, key s t⟩
  · rintro ⟨s, t, h1, h2, h3, h4, rfl⟩
    exact ⟨s, t, h1, h2, h3, h4, (key s t).symm⟩

lemma lastAngle_eq {a : ℝ} (h : a ≠ 0) : lastAngle a = a := by unfold lastAngle; rw [if_neg (Ne.symm h)]

/-- The points of a cone built by `_conical_revolution`. -/
lemma cone_points (foot u axis dir : V3 ℝ) (delta h z0 dist1 dist2 angle : ℝ) (hu : V3.dot u u = 1) (hw : V3.dot axis axis = 1) (huw : V3.dot u axis = 0)
    (hdir : dir = V3.smul delta u + V3.smul h axis) (hd : delta ≠ 0) (hh : h ≠ 0) (ha : 0 < angle) :
    ∃ f, conicalRevolution dir axis u dist1 dist2 angle (foot + V3.smul z0 axis) = some f ∧
      ∀ p, p ∈ f.points ↔ ∃ s t : ℝ, 0 ≤ s ∧ s ≤ 1 ∧ 0 ≤ t ∧ t ≤ angle ∧
        p = around foot u axis (dist1 + s * (dist2 - dist1)) t (z0 + (dist1 + s * (dist2 - dist1)) * h / delta) := by
  have hne : dir ≠ ⟨0, 0, 0⟩ := by
    intro e
    have : V3.dot dir u = delta := by
      rw [hdir]
      simp only [V3.dot, V3.add_x, V3.add_y, V3.add_z, V3.smul_x, V3.smul_y, V3.smul_z] at *
      linear_combination delta * hu + h * huw
    rw [e] at this
    apply hd
    rw [← this]
    simp [V3.dot]
  obtain ⟨d, hdu⟩ := V3.unitVector_some hne
  obtain ⟨npos, h1, -⟩ := V3.unitVector_spec hdu
  obtain ⟨n, hn⟩ : ∃ n, n = V3.norm dir := ⟨_, rfl⟩
  rw [← hn] at npos h1
  have hn0 := npos.ne'
  have du : V3.dot d u = delta / n := by
    rw [eq_div_iff hn0]
    have : V3.dot dir u = delta := by
      rw [hdir]
      simp only [V3.dot, V3.add_x, V3.add_y, V3.add_z, V3.smul_x, V3.smul_y, V3.smul_z] at *
      linear_combination delta * hu + h * huw
    rw [← this, h1]
    simp only [V3.dot, V3.smul_x, V3.smul_y, V3.smul_z]
    ring
  have dw : V3.dot d axis = h / n := by
    rw [eq_div_iff hn0]
    have : V3.dot dir axis = h := by
      rw [hdir]
      simp only [V3.dot, V3.add_x, V3.add_y, V3.add_z, V3.smul_x, V3.smul_y, V3.smul_z] at *
      linear_combination delta * huw + h * hw
    rw [← this, h1]
    simp only [V3.dot, V3.smul_x, V3.smul_y, V3.smul_z]
    ring
  have htan : tan (atan2 (V3.dot d u) (V3.dot d axis)) = delta / h := by
    unfold atan2
    rw [Complex.tan_arg, du, dw]
    dsimp only
    field_simp
  have hk : delta / h ≠ 0 := div_ne_zero hd hh
  unfold conicalRevolution
  rw [hdu]
  dsimp only [Option.bind]
  by_cases hs : atan2 (V3.dot d u) (V3.dot d axis) > 1 / 2 * π
  · rw [if_pos hs]
    have ht2 : tan (π - atan2 (V3.dot d u) (V3.dot d axis)) = -(delta / h) := by rw [Real.tan_pi_sub, htan]
    dsimp only
    rw [ht2, if_neg (neg_ne_zero.mpr hk), lastAngle_eq (neg_ne_zero.mpr ha.ne')]
    refine ⟨_, rfl, fun p => ?_⟩
    have key : ∀ a b : ℝ, Cone.paramTo3d ⟨⟨foot + V3.smul z0 axis, ⟨u, -V3.cross axis u, -axis⟩⟩, π - atan2 (V3.dot d u) (V3.dot d axis)⟩
        ⟨0 + a * (-angle - 0), dist1 / -(delta / h) + b * (dist2 / -(delta / h) - dist1 / -(delta / h))⟩ =
        around foot u axis (dist1 + b * (dist2 - dist1)) (a * angle) (z0 + (dist1 + b * (dist2 - dist1)) * h / delta) := by
      intro a b
      unfold Cone.paramTo3d
      dsimp only
      rw [ht2, show 0 + a * (-angle - 0) = -(a * angle) by ring, cos_neg, sin_neg]
      have e1 : (dist1 / -(delta / h) + b * (dist2 / -(delta / h) - dist1 / -(delta / h))) * -(delta / h) = dist1 + b * (dist2 - dist1) := by field_simp; ring
      have e2 : dist1 / -(delta / h) + b * (dist2 / -(delta / h) - dist1 / -(delta / h)) = -((dist1 + b * (dist2 - dist1)) * h / delta) := by field_simp; ring
      rw [e1, e2]
      unfold around
      ext
      · simp only [V3.add_x, V3.smul_x, V3.neg_x]; ring
      · simp only [V3.add_y, V3.smul_y, V3.neg_y]; ring
      · simp only [V3.add_z, V3.smul_z, V3.neg_z]; ring
    constructor
    · rintro ⟨a, b, a0, a1, b0, b1, rfl⟩
      exact ⟨b, a * angle, b0, b1, by positivity, by nlinarith, key a b⟩
    · rintro ⟨s, t, s0, s1, t0, t1, rfl⟩
      refine ⟨t / angle, s, by positivity, (div_le_one ha).mpr t1, s0, s1, ?_⟩
      rw [key, div_mul_cancel₀ _ ha.ne']
  · rw [if_neg hs]
    dsimp only
    rw [htan, if_neg hk, lastAngle_eq ha.ne']
    refine ⟨_, rfl, fun p => ?_⟩
    have key : ∀ a b : ℝ, Cone.paramTo3d ⟨⟨foot + V3.smul z0 axis, ⟨u, V3.cross axis u, axis⟩⟩, atan2 (V3.dot d u) (V3.dot d axis)⟩
        ⟨0 + a * (angle - 0), dist1 / (delta / h) + b * (dist2 / (delta / h) - dist1 / (delta / h))⟩ =
        around foot u axis (dist1 + b * (dist2 - dist1)) (a * angle) (z0 + (dist1 + b * (dist2 - dist1)) * h / delta) := by
      intro a b
      unfold Cone.paramTo3d
      dsimp only
      rw [htan, show 0 + a * (angle - 0) = a * angle by ring]
      have e1 : (dist1 / (delta / h) + b * (dist2 / (delta / h) - dist1 / (delta / h))) * (delta / h) = dist1 + b * (dist2 - dist1) := by field_simp
      have e2 : dist1 / (delta / h) + b * (dist2 / (delta / h) - dist1 / (delta / h)) = (dist1 + b * (dist2 - dist1)) * h / delta := by field_simp
      rw [e1, e2]
      unfold around
      ext
      · simp only [V3.add_x, V3.smul_x]; ring
      · simp only [V3.add_y, V3.smul_y]; ring
      · simp only [V3.add_z, V3.smul_z]; ring
    constructor
    · rintro ⟨a, b, a0, a1, b0, b1, rfl⟩
      exact ⟨b, a * angle, b0, b1, by positivity, by nlinarith, key a b⟩
    · rintro ⟨s, t, s0, s1, t0, t1, rfl⟩
      refine ⟨t / angle, s, by positivity, (div_le_one ha).mpr t1, s0, s1, ?_⟩
      rw [key, div_mul_cancel₀ _ ha.ne']

/-! ## The projections and the unit vectors computed -/

lemma foot_start {start fin axisPoint axis foot u : V3 ℝ} {r1 r2 h : ℝ} (m : Meridian start fin axisPoint axis foot u r1 r2 h) :
    ∃ s, pointProjection3 start axisPoint (axisPoint + axis) = some (foot, s) := by
  obtain ⟨q, hq⟩ := m.foot_axis
  have hu := m.orth
  have hw := m.unit_axis
  have he : axisPoint + axis - axisPoint = axis := by ext <;> simp
  unfold pointProjection3
  dsimp only
  rw [he, V3.norm_pow_two, hw, if_neg one_ne_zero]
  have ht : V3.dot (start - axisPoint) axis = q := by
    rw [m.start_eq, hq]
    simp only [V3.dot, V3.add_x, V3.add_y, V3.add_z, V3.smul_x, V3.smul_y, V3.smul_z, V3.sub_x, V3.sub_y, V3.sub_z] at *
    linear_combination q * hw + r1 * hu
  rw [ht, div_one, ← hq]
  exact ⟨_, rfl⟩

lemma foot_fin {start fin axisPoint axis foot u : V3 ℝ} {r1 r2 h : ℝ} (m : Meridian start fin axisPoint axis foot u r1 r2 h) :
    ∃ s, pointProjection3 fin axisPoint (axisPoint + axis) = some (foot + V3.smul h axis, s) := by
  obtain ⟨q, hq⟩ := m.foot_axis
  have hu := m.orth
  have hw := m.unit_axis
  have he : axisPoint + axis - axisPoint = axis := by ext <;> simp
  unfold pointProjection3
  dsimp only
  rw [he, V3.norm_pow_two, hw, if_neg one_ne_zero]
  have ht : V3.dot (fin - axisPoint) axis = q + h := by
    rw [m.fin_eq, hq]
    simp only [V3.dot, V3.add_x, V3.add_y, V3.add_z, V3.smul_x, V3.smul_y, V3.smul_z, V3.sub_x, V3.sub_y, V3.sub_z] at *
    linear_combination (q + h) * hw + r2 * hu
  rw [ht, div_one]
  have : axisPoint + V3.smul (q + h) axis = foot + V3.smul h axis := by
    rw [hq]
    ext
    · simp only [V3.add_x, V3.smul_x]; ring
    · simp only [V3.add_y, V3.smul_y]; ring
    · simp only [V3.add_z, V3.smul_z]; ring
  rw [this]
  exact ⟨_, rfl⟩

lemma norm_smul {u : V3 ℝ} (hu : V3.dot u u = 1) (r : ℝ) : V3.norm (V3.smul r u) = |r| := by
  have h1 := V3.norm_pow_two (V3.smul r u)
  have h2 : V3.dot (V3.smul r u) (V3.smul r u) = r ^ 2 := by
    simp only [V3.dot, V3.smul_x, V3.smul_y, V3.smul_z] at *
    linear_combination r ^ 2 * hu
  rw [h2] at h1
  rw [← abs_of_nonneg (V3.norm_nonneg _)]
  exact (sq_eq_sq_iff_abs_eq_abs _ _).mp h1

lemma unit_smul {u : V3 ℝ} (hu : V3.dot u u = 1) {r : ℝ} (hr : 0 < r) : V3.unitVector (V3.smul r u) = some u := by
  unfold V3.unitVector
  rw [norm_smul hu, abs_of_pos hr, if_neg hr.ne']
  congr 1
  ext
  · simp only [V3.smul_x]; field_simp
  · simp only [V3.smul_y]; field_simp
  · simp only [V3.smul_z]; field_simp

lemma unit_smul_neg {u : V3 ℝ} (hu : V3.dot u u = 1) {r : ℝ} (hr : r < 0) : V3.unitVector (V3.smul r u) = some (-u) := by
  have h1 : V3.dot (-u) (-u) = 1 := by simp only [V3.dot, V3.neg_x, V3.neg_y, V3.neg_z] at *; linarith
  have h2 : V3.smul r u = V3.smul (-r) (-u) := by ext <;> simp
  rw [h2]
  exact unit_smul h1 (by linarith)

lemma dists {start fin axisPoint axis foot u : V3 ℝ} {r1 r2 h : ℝ} (m : Meridian start fin axisPoint axis foot u r1 r2 h) :
    start - foot = V3.smul r1 u ∧ fin - (foot + V3.smul h axis) = V3.smul r2 u ∧ V3.pointDistance start foot = |r1| ∧ V3.pointDistance fin (foot + V3.smul h axis) = |r2| := by
  have e1 : start - foot = V3.smul r1 u := by rw [m.start_eq]; ext <;> simp
  have e2 : fin - (foot + V3.smul h axis) = V3.smul r2 u := by rw [m.fin_eq]; ext <;> simp
  refine ⟨e1, e2, ?_, ?_⟩
  · unfold V3.pointDistance; rw [e1, norm_smul m.unit_u]
  · unfold V3.pointDistance; rw [e2, norm_smul m.unit_u]

/-- A distance is not in the tolerance of zero without being zero. -/
def ClearOfZero (r : ℝ) : Prop := r = 0 ∨ 1 / 10 ^ 9 < |r|

lemma close_zero {r : ℝ} (h : ClearOfZero r) : mathIsClose |r| 0 (1 / 10 ^ 9) ↔ r = 0 := by
  unfold mathIsClose
  rw [sub_zero, abs_abs, abs_zero, max_eq_left (abs_nonneg r)]
  constructor
  · intro hc
    rcases h with h | h
    · exact h
    · rcases le_max_iff.mp hc with h1 | h1
      · have := abs_nonneg r; linarith
      · linarith
  · rintro rfl
    rw [abs_zero, mul_zero]
    exact le_max_right _ _ |>.trans' (by norm_num)

/-! ## C212 -/

/-- The faces are the points swept by the segment. -/
def Covers (faces : List RevFace) (start fin axisPoint axis : V3 ℝ) (angle : ℝ) : Prop :=
  ∀ p, p ∈ SweptSet start fin axisPoint axis angle ↔ ∃ f ∈ faces, p ∈ f.points

/-- **C212** (partial) a segment oblique to the axis, that does not go through it: a part of a cone. -/
theorem C212_cone_partial {start fin axisPoint axis foot u : V3 ℝ} {r1 r2 h : ℝ} (m : Meridian start fin axisPoint axis foot u r1 r2 h) (angle : ℝ) (ha : 0 < angle)
    (h1 : 0 ≤ r1) (h2 : 0 ≤ r2) (c1 : ClearOfZero r1) (c2 : ClearOfZero r2) (hh : h ≠ 0) (h12 : ¬mathIsClose r1 r2 (1 / 10 ^ 9))
    (i : V3 ℝ) (hi : ∃ k q, i = start + V3.smul k (fin - start) ∧ i = foot + V3.smul q axis) (belongs colinear : V3 ℝ → Bool)
    (hb : belongs i = true → ∃ k, 0 ≤ k ∧ k ≤ 1 ∧ i = start + V3.smul k (fin - start)) (hc : colinear u = false) :
    ∃ faces, revolution false (some i) belongs colinear start fin axisPoint axis angle = .ok faces ∧ Covers faces start fin axisPoint axis angle := by
  have hne : r2 - r1 ≠ 0 := by
    intro e
    apply h12
    unfold mathIsClose
    rw [show r1 - r2 = 0 by linarith, abs_zero]
    exact le_max_of_le_right (by norm_num)
  -- the intersection with the axis
  have coords : ∀ k q : ℝ, start + V3.smul k (fin - start) = foot + V3.smul q axis → r1 + k * (r2 - r1) = 0 ∧ q = k * h := by
    intro k q e
    have hu := m.unit_u
    have hw := m.unit_axis
    have ho := m.orth
    rw [m.start_eq, m.fin_eq] at e
    have ex := congrArg V3.x e
    have ey := congrArg V3.y e
    have ez := congrArg V3.z e
    simp only [V3.dot, V3.add_x, V3.add_y, V3.add_z, V3.smul_x, V3.smul_y, V3.smul_z, V3.sub_x, V3.sub_y, V3.sub_z] at *
    constructor
    · linear_combination u.x * ex + u.y * ey + u.z * ez - (r1 + k * (r2 - r1)) * hu - (k * h - q) * ho
    · linear_combination -(axis.x * ex + axis.y * ey + axis.z * ez) + (r1 + k * (r2 - r1)) * ho + (k * h - q) * hw
  obtain ⟨k, q, hk, hq⟩ := hi
  obtain ⟨e1, e2⟩ := coords k q (hk.symm.trans hq)
  have hdir : fin - start = V3.smul (r2 - r1) u + V3.smul h axis := by
    rw [m.start_eq, m.fin_eq]
    ext
    · simp only [V3.add_x, V3.smul_x, V3.sub_x]; ring
    · simp only [V3.add_y, V3.smul_y, V3.sub_y]; ring
    · simp only [V3.add_z, V3.smul_z, V3.sub_z]; ring
  obtain ⟨f, hf, hpts⟩ := cone_points foot u axis (fin - start) (r2 - r1) h q r1 r2 angle m.unit_u m.unit_axis m.orth hdir hne hh ha
  rw [← hq] at hf
  refine ⟨[f], ?_, ?_⟩
  · obtain ⟨s1, p1⟩ := foot_start m
    obtain ⟨s2, p2⟩ := foot_fin m
    obtain ⟨d1, d2, d3, d4⟩ := dists m
    have a1 : |r1| = r1 := abs_of_nonneg h1
    have a2 : |r2| = r2 := abs_of_nonneg h2
    unfold revolution
    rw [if_neg (by simp), p1, p2]
    dsimp only
    rw [d1, d2, d3, d4]
    simp only [close_zero c1, close_zero c2]
    rw [if_neg (fun hh => hne (by rw [hh.1, hh.2, sub_zero]))]
    have hunit : (if r1 = 0 then V3.unitVector (V3.smul r2 u) else V3.unitVector (V3.smul r1 u)) = some u := by
      by_cases h0 : r1 = 0
      · rw [if_pos h0]
        have : r2 ≠ 0 := fun e => hne (by rw [h0, e, sub_zero])
        exact unit_smul m.unit_u (lt_of_le_of_ne h2 (Ne.symm this))
      · rw [if_neg h0]
        exact unit_smul m.unit_u (lt_of_le_of_ne h1 (Ne.symm h0))
    rw [hunit]
    dsimp only
    rw [hc, if_neg (by simp)]
    have hcross : ¬(belongs i = true ∧ ¬r1 = 0 ∧ ¬r2 = 0) := by
      rintro ⟨b, n1, n2⟩
      obtain ⟨k', k0, k1, hk'⟩ := hb b
      obtain ⟨e3, -⟩ := coords k' q (hk'.symm.trans hq)
      have p1 : 0 < r1 := lt_of_le_of_ne h1 (Ne.symm n1)
      have p2 : 0 < r2 := lt_of_le_of_ne h2 (Ne.symm n2)
      rcases k0.lt_or_eq with k0' | k0'
      · nlinarith [mul_nonneg (sub_nonneg.mpr k1) p1.le, mul_pos k0' p2]
      · rw [← k0'] at e3; linarith
    rw [if_neg hcross]
    dsimp only
    rw [a1, a2, if_pos h12, hf]
  · intro p
    rw [swept_iff m]
    simp only [List.mem_singleton, exists_eq_left]
    rw [hpts]
    have hz : ∀ s : ℝ, q + (r1 + s * (r2 - r1)) * h / (r2 - r1) = s * h := by
      intro s
      rw [e2, show r1 + s * (r2 - r1) = (s - k) * (r2 - r1) by linear_combination e1, mul_right_comm, mul_div_cancel_right₀ _ hne]
      ring
    simp only [hz]

/-- **C212** (partial) a segment that goes through the axis: two parts of a cone. -/
theorem C212_two_cones_partial {start fin axisPoint axis foot u : V3 ℝ} {r1 r2 h : ℝ} (m : Meridian start fin axisPoint axis foot u r1 r2 h) (angle : ℝ) (ha : 0 < angle)
    (h1 : 1 / 10 ^ 9 < r1) (h2 : r2 < -(1 / 10 ^ 9)) (hh : h ≠ 0)
    (i : V3 ℝ) (hi : ∃ k q, i = start + V3.smul k (fin - start) ∧ i = foot + V3.smul q axis) (belongs colinear : V3 ℝ → Bool)
    (hb : (∃ k, 0 ≤ k ∧ k ≤ 1 ∧ i = start + V3.smul k (fin - start)) → belongs i = true) (hc : colinear u = false) :
    ∃ faces, revolution false (some i) belongs colinear start fin axisPoint axis angle = .ok faces ∧
      ∀ p, (∃ f ∈ faces, p ∈ f.points) ↔ ∃ s t : ℝ, 0 ≤ s ∧ s ≤ 1 ∧ 0 ≤ t ∧ t ≤ angle ∧
        p = V3.rotation (start + V3.smul s (fin - start)) axisPoint axis t := by
  have p1 : 0 < r1 := by have : (0 : ℝ) < 1 / 10 ^ 9 := by norm_num
                         linarith
  have p2 : r2 < 0 := by have : (0 : ℝ) < 1 / 10 ^ 9 := by norm_num
                         linarith
  have hne : r2 - r1 ≠ 0 := by linarith [p1, p2] |> ne_of_lt
  have coords : ∀ k q : ℝ, start + V3.smul k (fin - start) = foot + V3.smul q axis → r1 + k * (r2 - r1) = 0 ∧ q = k * h := by
    intro k q e
    have hu := m.unit_u
    have hw := m.unit_axis
    have ho := m.orth
    rw [m.start_eq, m.fin_eq] at e
    have ex := congrArg V3.x e
    have ey := congrArg V3.y e
    have ez := congrArg V3.z e
    simp only [V3.dot, V3.add_x, V3.add_y, V3.add_z, V3.smul_x, V3.smul_y, V3.smul_z, V3.sub_x, V3.sub_y, V3.sub_z] at *
    constructor
    · linear_combination u.x * ex + u.y * ey + u.z * ez - (r1 + k * (r2 - r1)) * hu - (k * h - q) * ho
    · linear_combination -(axis.x * ex + axis.y * ey + axis.z * ez) + (r1 + k * (r2 - r1)) * ho + (k * h - q) * hw
  obtain ⟨k, q, hk, hq⟩ := hi
  obtain ⟨e1, e2⟩ := coords k q (hk.symm.trans hq)
  have hk0 : k = r1 / (r1 - r2) := by rw [eq_div_iff (by linarith)]; linarith
  have k0 : 0 < k := by rw [hk0]; exact div_pos p1 (by linarith)
  have k1 : k < 1 := by rw [hk0, div_lt_one (by linarith)]; linarith
  have hdir : fin - start = V3.smul (r2 - r1) u + V3.smul h axis := by
    rw [m.start_eq, m.fin_eq]
    ext
    · simp only [V3.add_x, V3.smul_x, V3.sub_x]; ring
    · simp only [V3.add_y, V3.smul_y, V3.sub_y]; ring
    · simp only [V3.add_z, V3.smul_z, V3.sub_z]; ring
  have hdir' : fin - start = V3.smul (-(r2 - r1)) (-u) + V3.smul h axis := by
    rw [hdir]
    ext
    · simp only [V3.add_x, V3.smul_x, V3.neg_x]; ring
    · simp only [V3.add_y, V3.smul_y, V3.neg_y]; ring
    · simp only [V3.add_z, V3.smul_z, V3.neg_z]; ring
  have hun : V3.dot (-u) (-u) = 1 := by have := m.unit_u; simp only [V3.dot, V3.neg_x, V3.neg_y, V3.neg_z] at *; linarith
  have hon : V3.dot (-u) axis = 0 := by have := m.orth; simp only [V3.dot, V3.neg_x, V3.neg_y, V3.neg_z] at *; linarith
  obtain ⟨f, hf, hpf⟩ := cone_points foot u axis (fin - start) (r2 - r1) h q 0 r1 angle m.unit_u m.unit_axis m.orth hdir hne hh ha
  obtain ⟨g, hg, hpg⟩ := cone_points foot (-u) axis (fin - start) (-(r2 - r1)) h q 0 (-r2) angle hun m.unit_axis hon hdir' (neg_ne_zero.mpr hne) hh ha
  rw [← hq] at hf hg
  refine ⟨[f, g], ?_, ?_⟩
  · obtain ⟨s1, q1⟩ := foot_start m
    obtain ⟨s2, q2⟩ := foot_fin m
    obtain ⟨d1, d2, d3, d4⟩ := dists m
    have a1 : |r1| = r1 := abs_of_pos p1
    have a2 : |r2| = -r2 := abs_of_neg p2
    have c1 : ClearOfZero r1 := Or.inr (by rw [a1]; exact h1)
    have c2 : ClearOfZero r2 := Or.inr (by rw [a2]; linarith)
    unfold revolution
    rw [if_neg (by simp), q1, q2]
    dsimp only
    rw [d1, d2, d3, d4]
    simp only [close_zero c1, close_zero c2]
    rw [if_neg (fun hh => p1.ne' hh.1), if_neg p1.ne', unit_smul m.unit_u p1]
    dsimp only
    rw [hc, if_neg (by simp), if_pos ⟨hb ⟨k, k0.le, k1.le, hk⟩, p1.ne', p2.ne⟩]
    dsimp only
    rw [unit_smul_neg m.unit_u p2]
    dsimp only
    rw [a1, a2, hf, hg]
  · intro p
    have hsw := swept_iff m angle p
    change _ ↔ p ∈ SweptSet start fin axisPoint axis angle
    rw [hsw]
    simp only [List.mem_cons, List.not_mem_nil, or_false, exists_eq_or_imp, exists_eq_left]
    rw [hpf, hpg]
    have hflip : ∀ r t z : ℝ, around foot (-u) axis r t z = around foot u axis (-r) t z := by
      intro r t z
      unfold around
      ext
      · simp only [V3.add_x, V3.smul_x, V3.neg_x, V3.cross, V3.neg_y, V3.neg_z]; ring
      · simp only [V3.add_y, V3.smul_y, V3.neg_x, V3.cross, V3.neg_y, V3.neg_z]; ring
      · simp only [V3.add_z, V3.smul_z, V3.neg_x, V3.cross, V3.neg_y, V3.neg_z]; ring
    have canc : ∀ x a : ℝ, x = a * (r2 - r1) → x * h / (r2 - r1) = a * h := by
      rintro x a rfl
      rw [mul_right_comm, mul_div_cancel_right₀ _ hne]
    have canc' : ∀ x a : ℝ, x = -a * (r2 - r1) → x * h / -(r2 - r1) = a * h := by
      rintro x a rfl
      rw [show -a * (r2 - r1) * h = a * h * -(r2 - r1) by ring, mul_div_cancel_right₀ _ (neg_ne_zero.mpr hne)]
    constructor
    · rintro (⟨s, t, s0, s1, t0, t1, rfl⟩ | ⟨s, t, s0, s1, t0, t1, rfl⟩)
      · refine ⟨(1 - s) * k, t, by nlinarith, by nlinarith, t0, t1, ?_⟩
        congr 1
        · linear_combination -(1 - s) * e1
        · rw [e2, canc _ (-(s * k)) (by linear_combination s * e1)]
          ring
      · refine ⟨k + s * (1 - k), t, by nlinarith, by nlinarith, t0, t1, ?_⟩
        rw [hflip]
        congr 1
        · linear_combination -(1 - s) * e1
        · rw [e2, canc' _ (s * (1 - k)) (by linear_combination -s * e1)]
          ring
    · rintro ⟨s, t, s0, s1, t0, t1, rfl⟩
      rcases le_total s k with hs | hs
      · left
        have hσ : s / k * k = s := div_mul_cancel₀ _ k0.ne'
        refine ⟨1 - s / k, t, ?_, ?_, t0, t1, ?_⟩
        · have := (div_le_one k0).mpr hs; linarith
        · have := div_nonneg s0 k0.le; linarith
        · congr 1
          · linear_combination (s / k) * e1 - (r2 - r1) * hσ
          · rw [e2, canc _ (s - k) (by linear_combination (1 - s / k) * e1 + (r2 - r1) * hσ)]
            ring
      · right
        have hk1 : 0 < 1 - k := by linarith
        have hσ : (s - k) / (1 - k) * (1 - k) = s - k := div_mul_cancel₀ _ hk1.ne'
        refine ⟨(s - k) / (1 - k), t, div_nonneg (by linarith) hk1.le, (div_le_one hk1).mpr (by linarith), t0, t1, ?_⟩
        rw [hflip]
        congr 1
        · linear_combination (1 - (s - k) / (1 - k)) * e1 - (r2 - r1) * hσ
        · rw [e2, canc' _ (s - k) (by linear_combination -((s - k) / (1 - k)) * e1 - (r2 - r1) * hσ)]
          ring

/-- **C212** (partial) a segment parallel to the axis: a part of a cylinder. -/
theorem C212_cylinder_partial {start fin axisPoint axis foot u : V3 ℝ} {r h : ℝ} (m : Meridian start fin axisPoint axis foot u r r h) (angle : ℝ) (ha : 0 < angle)
    (h1 : 1 / 10 ^ 9 < r) (belongs colinear : V3 ℝ → Bool) (hc : colinear u = false) :
    ∃ faces, revolution false none belongs colinear start fin axisPoint axis angle = .ok faces ∧ Covers faces start fin axisPoint axis angle := by
  have p1 : 0 < r := by have : (0 : ℝ) < 1 / 10 ^ 9 := by norm_num
                        linarith
  have a1 : |r| = r := abs_of_pos p1
  have c1 : ClearOfZero r := Or.inr (by rw [a1]; exact h1)
  refine ⟨[cylindricalRevolution start fin axis u foot r angle], ?_, ?_⟩
  · obtain ⟨s1, q1⟩ := foot_start m
    obtain ⟨s2, q2⟩ := foot_fin m
    obtain ⟨d1, d2, d3, d4⟩ := dists m
    have hcl : mathIsClose r r (1 / 10 ^ 9) := by
      unfold mathIsClose
      rw [sub_self, abs_zero]
      exact le_max_of_le_right (by norm_num)
    unfold revolution
    rw [if_neg (by simp), q1, q2]
    dsimp only
    rw [d1, d2, d3, d4]
    simp only [close_zero c1]
    rw [if_neg (fun hh => p1.ne' hh.1), if_neg p1.ne', unit_smul m.unit_u p1]
    dsimp only
    rw [hc, if_neg (by simp), a1, if_neg (not_not.mpr hcl)]
  · intro p
    rw [swept_iff m]
    simp only [List.mem_singleton, exists_eq_left]
    have hH : V3.dot (fin - start) axis = h := by
      have hw := m.unit_axis
      rw [m.start_eq, m.fin_eq]
      simp only [V3.dot, V3.add_x, V3.add_y, V3.add_z, V3.smul_x, V3.smul_y, V3.smul_z, V3.sub_x, V3.sub_y, V3.sub_z] at *
      linear_combination h * hw
    unfold cylindricalRevolution
    rw [hH, lastAngle_eq ha.ne']
    have key : ∀ a b : ℝ, Cylinder.paramTo3d ⟨⟨foot, ⟨u, V3.cross axis u, axis⟩⟩, r⟩ ⟨0 + a * (angle - 0), 0 + b * (h - 0)⟩ = around foot u axis (r + b * (r - r)) (a * angle) (b * h) := by
      intro a b
      unfold Cylinder.paramTo3d around
      dsimp only
      rw [show 0 + a * (angle - 0) = a * angle by ring, show r + b * (r - r) = r by ring]
      ext
      · simp only [V3.add_x, V3.smul_x]; ring
      · simp only [V3.add_y, V3.smul_y]; ring
      · simp only [V3.add_z, V3.smul_z]; ring
    constructor
    · rintro ⟨s, t, s0, s1, t0, t1, rfl⟩
      refine ⟨t / angle, s, by positivity, (div_le_one ha).mpr t1, s0, s1, ?_⟩
      rw [key, div_mul_cancel₀ _ ha.ne']
    · rintro ⟨a, b, a0, a1, b0, b1, rfl⟩
      exact ⟨b, a * angle, b0, b1, by positivity, by nlinarith, key a b⟩

/-- The points of a planar face in the frame of the foot of the start. -/
lemma plane_points (foot u axis : V3 ℝ) (region : Set (V2 ℝ)) (p : V3 ℝ) :
    p ∈ (RevFace.plane ⟨foot, ⟨u, V3.cross axis u, axis⟩⟩ region).points ↔ ∃ q ∈ region, p = foot + V3.smul q.x u + V3.smul q.y (V3.cross axis u) := Iff.rfl

lemma around_zero (foot u axis : V3 ℝ) (r t : ℝ) : around foot u axis r t 0 = foot + V3.smul (r * cos t) u + V3.smul (r * sin t) (V3.cross axis u) := by
  unfold around
  ext
  · simp only [V3.add_x, V3.smul_x]; ring
  · simp only [V3.add_y, V3.smul_y]; ring
  · simp only [V3.add_z, V3.smul_z]; ring

/-- **C212** (partial) a segment orthogonal to the axis that does not meet it: a part of a ring. -/
theorem C212_ring_partial {start fin axisPoint axis foot u : V3 ℝ} {r1 r2 : ℝ} (m : Meridian start fin axisPoint axis foot u r1 r2 0) (angle : ℝ)
    (h1 : 1 / 10 ^ 9 < r1) (h2 : 1 / 10 ^ 9 < r2) (hfull : ¬ mathIsClose angle (2 * π) (1 / 10 ^ 6)) (i : V3 ℝ) (belongs colinear : V3 ℝ → Bool) (hb : belongs i = false) (hc : colinear u = true) :
    ∃ faces, revolution false (some i) belongs colinear start fin axisPoint axis angle = .ok faces ∧ Covers faces start fin axisPoint axis angle := by
  have e9 : (0 : ℝ) < 1 / 10 ^ 9 := by norm_num
  have p1 : 0 < r1 := by linarith
  have p2 : 0 < r2 := by linarith
  have a1 : |r1| = r1 := abs_of_pos p1
  have a2 : |r2| = r2 := abs_of_pos p2
  refine ⟨[.plane ⟨foot, ⟨u, V3.cross axis u, axis⟩⟩ (sector (min r1 r2) (max r1 r2) 0 angle)], ?_, ?_⟩
  · obtain ⟨s1, q1⟩ := foot_start m
    obtain ⟨s2, q2⟩ := foot_fin m
    obtain ⟨d1, d2, d3, d4⟩ := dists m
    have c1 : ClearOfZero r1 := Or.inr (by rw [a1]; exact h1)
    have c2 : ClearOfZero r2 := Or.inr (by rw [a2]; exact h2)
    unfold revolution
    rw [if_neg (by simp), q1, q2]
    dsimp only
    rw [d1, d2, d3, d4]
    simp only [close_zero c1, close_zero c2]
    rw [if_neg (fun hh => p1.ne' hh.1), if_neg p1.ne', unit_smul m.unit_u p1]
    dsimp only
    rw [hc, if_pos rfl, hb]
    unfold planeRevolution
    rw [if_neg (by simp), if_neg hfull, a1, a2]
  · intro p
    rw [swept_iff m]
    simp only [List.mem_singleton, exists_eq_left]
    rw [plane_points]
    constructor
    · rintro ⟨s, t, s0, s1, t0, t1, rfl⟩
      refine ⟨⟨(r1 + s * (r2 - r1)) * cos t, (r1 + s * (r2 - r1)) * sin t⟩, ⟨r1 + s * (r2 - r1), t, ?_, ?_, t0, by linarith, rfl⟩, ?_⟩
      · rcases le_total r1 r2 with h | h
        · rw [min_eq_left h]; nlinarith
        · rw [min_eq_right h]; nlinarith
      · rcases le_total r1 r2 with h | h
        · rw [max_eq_right h]; nlinarith
        · rw [max_eq_left h]; nlinarith
      · rw [mul_zero, around_zero]
    · rintro ⟨q, ⟨r, t, ra, rb, t0, t1, rfl⟩, rfl⟩
      have hs : ∃ s, 0 ≤ s ∧ s ≤ 1 ∧ r = r1 + s * (r2 - r1) := by
        rcases lt_trichotomy r1 r2 with h | h | h
        · rw [min_eq_left h.le] at ra
          rw [max_eq_right h.le] at rb
          have hp : 0 < r2 - r1 := by linarith
          exact ⟨(r - r1) / (r2 - r1), div_nonneg (by linarith) hp.le, (div_le_one hp).mpr (by linarith), by rw [div_mul_cancel₀ _ hp.ne']; ring⟩
        · subst h
          rw [min_self] at ra
          rw [max_self] at rb
          exact ⟨0, le_refl _, zero_le_one, by linarith⟩
        · rw [min_eq_right h.le] at ra
          rw [max_eq_left h.le] at rb
          have hp : 0 < r1 - r2 := by linarith
          exact ⟨(r1 - r) / (r1 - r2), div_nonneg (by linarith) hp.le, (div_le_one hp).mpr (by linarith), by
            have : (r1 - r) / (r1 - r2) * (r1 - r2) = r1 - r := div_mul_cancel₀ _ hp.ne'
            linear_combination this⟩
      obtain ⟨s, s0, s1, rfl⟩ := hs
      exact ⟨s, t, s0, s1, t0, by linarith, by rw [mul_zero, around_zero]⟩

/-- **C212** (partial) a segment orthogonal to the axis and through it: two sectors, on the two sides of the axis. -/
theorem C212_two_sectors_partial {start fin axisPoint axis foot u : V3 ℝ} {r1 r2 : ℝ} (m : Meridian start fin axisPoint axis foot u r1 r2 0) (angle : ℝ)
    (h1 : 1 / 10 ^ 9 < r1) (h2 : r2 < -(1 / 10 ^ 9)) (i : V3 ℝ) (belongs colinear : V3 ℝ → Bool) (hb : belongs i = true) (hc : colinear u = true) :
    ∃ faces, revolution false (some i) belongs colinear start fin axisPoint axis angle = .ok faces ∧ Covers faces start fin axisPoint axis angle := by
  have e9 : (0 : ℝ) < 1 / 10 ^ 9 := by norm_num
  have p1 : 0 < r1 := by linarith
  have p2 : r2 < 0 := by linarith
  have a1 : |r1| = r1 := abs_of_pos p1
  have a2 : |r2| = -r2 := abs_of_neg p2
  have c1 : ClearOfZero r1 := Or.inr (by rw [a1]; exact h1)
  have c2 : ClearOfZero r2 := Or.inr (by rw [a2]; linarith)
  have c3 : ClearOfZero (-r2) := Or.inr (by rw [abs_neg, a2]; linarith)
  refine ⟨[.plane ⟨foot, ⟨u, V3.cross axis u, axis⟩⟩ (sector 0 r1 0 angle), .plane ⟨foot, ⟨u, V3.cross axis u, axis⟩⟩ (sector 0 (-r2) π angle)], ?_, ?_⟩
  · obtain ⟨s1, q1⟩ := foot_start m
    obtain ⟨s2, q2⟩ := foot_fin m
    obtain ⟨d1, d2, d3, d4⟩ := dists m
    unfold revolution
    rw [if_neg (by simp), q1, q2]
    dsimp only
    rw [d1, d2, d3, d4]
    simp only [close_zero c1, close_zero c2]
    rw [if_neg (fun hh => p1.ne' hh.1), if_neg p1.ne', unit_smul m.unit_u p1]
    dsimp only
    rw [hc, if_pos rfl, hb]
    unfold planeRevolution
    rw [if_pos rfl, a1, a2]
    have k1 : ¬ mathIsClose r1 0 (1 / 10 ^ 9) := by
      intro hh
      unfold mathIsClose at hh
      rw [sub_zero, abs_zero, a1, max_eq_left p1.le] at hh
      rcases le_max_iff.mp hh with hh | hh
      · linarith
      · linarith
    have k2 : ¬ mathIsClose (-r2) 0 (1 / 10 ^ 9) := by
      intro hh
      unfold mathIsClose at hh
      rw [sub_zero, abs_zero, abs_of_pos (by linarith : 0 < -r2), max_eq_left (by linarith : (0:ℝ) ≤ -r2)] at hh
      rcases le_max_iff.mp hh with hh | hh
      · linarith
      · linarith
    rw [if_neg k1, if_neg k2]
    rfl
  · intro p
    rw [swept_iff m]
    simp only [List.mem_cons, List.not_mem_nil, or_false, exists_eq_or_imp, exists_eq_left]
    rw [plane_points, plane_points]
    have hd : 0 < r1 - r2 := by linarith
    constructor
    · rintro ⟨s, t, s0, s1, t0, t1, rfl⟩
      rw [mul_zero, around_zero]
      rcases le_total 0 (r1 + s * (r2 - r1)) with h | h
      · left
        exact ⟨⟨(r1 + s * (r2 - r1)) * cos t, (r1 + s * (r2 - r1)) * sin t⟩, ⟨r1 + s * (r2 - r1), t, h, by nlinarith, t0, by linarith, rfl⟩, rfl⟩
      · right
        refine ⟨⟨(r1 + s * (r2 - r1)) * cos t, (r1 + s * (r2 - r1)) * sin t⟩, ⟨-(r1 + s * (r2 - r1)), t + π, by linarith, by nlinarith, by linarith, by linarith, ?_⟩, rfl⟩
        rw [cos_add_pi, sin_add_pi, neg_mul_neg, neg_mul_neg]
    · have rad : ∀ r t : ℝ, r2 ≤ r → r ≤ r1 → 0 ≤ t → t ≤ angle → ∃ s t' : ℝ, 0 ≤ s ∧ s ≤ 1 ∧ 0 ≤ t' ∧ t' ≤ angle ∧
          foot + V3.smul (r * cos t) u + V3.smul (r * sin t) (V3.cross axis u) = around foot u axis (r1 + s * (r2 - r1)) t' (s * 0) := by
        intro r t ra rb t0 t1
        refine ⟨(r1 - r) / (r1 - r2), t, div_nonneg (by linarith) hd.le, (div_le_one hd).mpr (by linarith), t0, t1, ?_⟩
        have : (r1 - r) / (r1 - r2) * (r1 - r2) = r1 - r := div_mul_cancel₀ _ hd.ne'
        rw [mul_zero, around_zero, show r1 + (r1 - r) / (r1 - r2) * (r2 - r1) = r by linear_combination -this]
      rintro (⟨q, ⟨r, t, ra, rb, t0, t1, rfl⟩, rfl⟩ | ⟨q, ⟨r, t, ra, rb, t0, t1, rfl⟩, rfl⟩)
      · exact rad r t (by linarith) rb t0 (by linarith)
      · have := rad (-r) (t - π) (by linarith) (by linarith) (by linarith) (by linarith)
        rwa [cos_sub_pi, sin_sub_pi, neg_mul_neg, neg_mul_neg] at this

/-- C212 as expected by a user, for a segment in a plane with the axis: the faces of the revolution are the points swept by the segment. -/
def C212_full_statement : Prop := ∀ (start fin axisPoint axis foot u : V3 ℝ) (r1 r2 h angle : ℝ), Meridian start fin axisPoint axis foot u r1 r2 h → 0 < angle → angle < 2 * π →
  ∀ (i : V3 ℝ) (belongs colinear : V3 ℝ → Bool), (∃ k q, i = start + V3.smul k (fin - start) ∧ i = foot + V3.smul q axis) →
  (belongs i = true ↔ ∃ k, 0 ≤ k ∧ k ≤ 1 ∧ i = start + V3.smul k (fin - start)) → (colinear u = true ↔ h = 0) → colinear (-u) = colinear u → (r1 ≠ 0 ∨ r2 ≠ 0) →
  ∃ faces, revolution false (some i) belongs colinear start fin axisPoint axis angle = .ok faces ∧ Covers faces start fin axisPoint axis angle

/-- **C212** false: a segment orthogonal to the axis that starts on it gives a sector on the other side of the axis. -/
theorem C212_counterexample : ¬ C212_full_statement := by
  have hp := pi_gt_three
  intro hfull
  have m : Meridian (⟨0, 0, 0⟩ : V3 ℝ) ⟨1, 0, 0⟩ ⟨0, 0, 0⟩ ⟨0, 0, 1⟩ ⟨0, 0, 0⟩ ⟨1, 0, 0⟩ 0 1 0 := by
    refine ⟨by norm_num [V3.dot], by norm_num [V3.dot], by norm_num [V3.dot], ⟨0, by ext <;> simp⟩, by ext <;> simp, by ext <;> simp⟩
  obtain ⟨faces, hrun, hcov⟩ := hfull _ _ _ _ _ _ 0 1 0 1 m one_pos (by linarith) ⟨0, 0, 0⟩ (fun _ => true) (fun _ => true) ⟨0, 0, by ext <;> simp, by ext <;> simp⟩
    ⟨fun _ => ⟨0, le_refl _, zero_le_one, by ext <;> simp⟩, fun _ => rfl⟩ ⟨fun _ => rfl, fun _ => rfl⟩ rfl (Or.inr one_ne_zero)
  obtain ⟨s1, q1⟩ := foot_start m
  obtain ⟨s2, q2⟩ := foot_fin m
  obtain ⟨d1, d2, d3, d4⟩ := dists m
  have c1 : ClearOfZero 0 := Or.inl rfl
  have c2 : ClearOfZero 1 := Or.inr (by norm_num)
  unfold revolution at hrun
  rw [if_neg (by simp), q1, q2] at hrun
  dsimp only at hrun
  rw [d1, d2, d3, d4] at hrun
  simp only [close_zero c1, close_zero c2] at hrun
  rw [if_neg (fun hh => one_ne_zero hh.2), if_pos trivial, unit_smul m.unit_u one_pos] at hrun
  dsimp only at hrun
  rw [if_pos trivial] at hrun
  cases hrun
  have hin := (hcov ⟨1, 0, 0⟩).mp ⟨1, 0, zero_le_one, le_refl _, le_refl _, zero_le_one, by
    unfold V3.rotation V3.rotationCS; ext <;> simp [V3.dot, V3.cross]⟩
  obtain ⟨f, hf, hpf⟩ := hin
  unfold planeRevolution at hf
  simp only [close_zero c1, close_zero c2] at hf
  simp only [if_true, List.nil_append, one_ne_zero, if_false, List.mem_singleton] at hf
  subst hf
  obtain ⟨q, ⟨r, t, r0, r1, t0, t1, rfl⟩, hq⟩ := hpf
  have hx := congrArg V3.x hq
  simp [V3.cross] at hx
  have hcos : cos t < 0 := cos_neg_of_pi_div_two_lt_of_lt (by linarith) (by linarith)
  nlinarith

/-- The hypotheses of C212 are met. -/
example : Meridian (⟨1, 0, 0⟩ : V3 ℝ) ⟨2, 0, 3⟩ ⟨0, 0, 5⟩ ⟨0, 0, 1⟩ ⟨0, 0, 0⟩ ⟨1, 0, 0⟩ 1 2 3 ∧
    (⟨0, 0, -3⟩ : V3 ℝ) = ⟨1, 0, 0⟩ + V3.smul (-1) ((⟨2, 0, 3⟩ : V3 ℝ) - ⟨1, 0, 0⟩) := by
  refine ⟨⟨by norm_num [V3.dot], by norm_num [V3.dot], by norm_num [V3.dot], ⟨-5, by ext <;> simp⟩, by ext <;> simp, by ext <;> simp⟩, by ext <;> simp <;> norm_num⟩

end Volmdlr.Surface
