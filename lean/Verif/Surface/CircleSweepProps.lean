import Verif.Surface.CircleSweepModel
import Verif.Surface.RevolutionProps
import Verif.Angle.Props

/-!
# C214, C215: extrusion and revolution of a circle of space
-/

namespace Volmdlr.Surface

open Volmdlr.Angle Volmdlr.Arc Real

/-! ## Specification -/

/-- The points of a circle of space: at the distance of the radius of the centre, in the plane orthogonal to the normal. -/
def OnCircle (center normal : V3 ℝ) (radius : ℝ) (p : V3 ℝ) : Prop := V3.dot (p - center) normal = 0 ∧ V3.dot (p - center) (p - center) = radius ^ 2

/-- The points of a face. -/
def CircleFace.points : CircleFace → Set (V3 ℝ)
  | .cylinder s theta1 theta2 z1 z2 => {p | ∃ a b : ℝ, 0 ≤ a ∧ a ≤ 1 ∧ 0 ≤ b ∧ b ≤ 1 ∧ p = s.paramTo3d ⟨theta1 + a * (theta2 - theta1), z1 + b * (z2 - z1)⟩}
  | .torus s theta1 theta2 phi1 phi2 => {p | ∃ a b : ℝ, 0 ≤ a ∧ a ≤ 1 ∧ 0 ≤ b ∧ b ≤ 1 ∧ p = s.paramTo3d ⟨theta1 + a * (theta2 - theta1), phi1 + b * (phi2 - phi1)⟩}

/-- The points of the circle moved along a vector. -/
def CircleSweptAlong (c : Circle3) (vector : V3 ℝ) : Set (V3 ℝ) :=
  {p | ∃ q t, OnCircle c.frame.origin c.frame.basis.w c.radius q ∧ 0 ≤ t ∧ t ≤ 1 ∧ p = q + V3.smul t vector}

/-- The points of the circle turned about an axis. -/
def CircleSweptAround (c : Circle3) (axisPoint axis : V3 ℝ) (angle : ℝ) : Set (V3 ℝ) :=
  {p | ∃ q t, OnCircle c.frame.origin c.frame.basis.w c.radius q ∧ 0 ≤ t ∧ t ≤ angle ∧ p = V3.rotation q axisPoint axis t}

/-! ## Proofs -/

lemma norm_neg_sub' (a b : V3 ℝ) : V3.pointDistance a b = V3.norm (b - a) := by
  unfold V3.pointDistance V3.norm
  congr 1
  simp only [V3.sub_x, V3.sub_y, V3.sub_z]
  ring

/-- A vector in an orthonormal basis. -/
lemma decompose {u w : V3 ℝ} (hu : V3.dot u u = 1) (hw : V3.dot w w = 1) (ho : V3.dot u w = 0) (d : V3 ℝ) :
    d = V3.smul (V3.dot d u) u + V3.smul (V3.dot d (V3.cross w u)) (V3.cross w u) + V3.smul (V3.dot d w) w := by
  simp only [V3.dot] at hu hw ho
  ext
  · simp only [V3.add_x, V3.smul_x, V3.dot, V3.cross]
    linear_combination (-d.x + w.x * (d.x * w.x + d.y * w.y + d.z * w.z)) * hu + (-d.x * (u.x * u.x + u.y * u.y + u.z * u.z) + u.x * (d.x * u.x + d.y * u.y + d.z * u.z)) * hw +
      (d.x * (u.x * w.x + u.y * w.y + u.z * w.z) - (w.x * (d.x * u.x + d.y * u.y + d.z * u.z) + u.x * (d.x * w.x + d.y * w.y + d.z * w.z))) * ho
  · simp only [V3.add_y, V3.smul_y, V3.dot, V3.cross]
    linear_combination (-d.y + w.y * (d.x * w.x + d.y * w.y + d.z * w.z)) * hu + (-d.y * (u.x * u.x + u.y * u.y + u.z * u.z) + u.y * (d.x * u.x + d.y * u.y + d.z * u.z)) * hw +
      (d.y * (u.x * w.x + u.y * w.y + u.z * w.z) - (w.y * (d.x * u.x + d.y * u.y + d.z * u.z) + u.y * (d.x * w.x + d.y * w.y + d.z * w.z))) * ho
  · simp only [V3.add_z, V3.smul_z, V3.dot, V3.cross]
    linear_combination (-d.z + w.z * (d.x * w.x + d.y * w.y + d.z * w.z)) * hu + (-d.z * (u.x * u.x + u.y * u.y + u.z * u.z) + u.z * (d.x * u.x + d.y * u.y + d.z * u.z)) * hw +
      (d.z * (u.x * w.x + u.y * w.y + u.z * w.z) - (w.z * (d.x * u.x + d.y * u.y + d.z * u.z) + u.z * (d.x * w.x + d.y * w.y + d.z * w.z))) * ho

/-- The points of a circle by an angle. -/
lemma onCircle_iff {u w n : V3 ℝ} (hu : V3.dot u u = 1) (hw : V3.dot w w = 1) (ho : V3.dot u w = 0) (hn : n = V3.cross w u ∨ n = -V3.cross w u) (center : V3 ℝ) {r : ℝ} (hr : 0 < r) (p : V3 ℝ) :
    OnCircle center n r p ↔ ∃ a : ℝ, 0 ≤ a ∧ a ≤ 2 * π ∧ p = center + V3.smul (r * cos a) u + V3.smul (r * sin a) w := by
  have hplane : ∀ d : V3 ℝ, V3.dot d n = 0 ↔ V3.dot d (V3.cross w u) = 0 := by
    intro d
    rcases hn with rfl | rfl
    · exact Iff.rfl
    · have : V3.dot d (-V3.cross w u) = -V3.dot d (V3.cross w u) := by simp only [V3.dot, V3.neg_x, V3.neg_y, V3.neg_z]; ring
      rw [this, neg_eq_zero]
  unfold OnCircle
  rw [hplane]
  constructor
  · rintro ⟨h1, h2⟩
    have hd := decompose hu hw ho (p - center)
    rw [h1] at hd
    obtain ⟨x, hx⟩ : ∃ x, x = V3.dot (p - center) u := ⟨_, rfl⟩
    obtain ⟨y, hy⟩ : ∃ y, y = V3.dot (p - center) w := ⟨_, rfl⟩
    rw [← hx, ← hy] at hd
    have hxy : x ^ 2 + y ^ 2 = r ^ 2 := by
      rw [← h2, hd]
      simp only [V3.dot, V3.add_x, V3.add_y, V3.add_z, V3.smul_x, V3.smul_y, V3.smul_z] at *
      linear_combination -x ^ 2 * hu - y ^ 2 * hw - 2 * x * y * ho
    obtain ⟨a, ⟨a0, a1, ca, sa⟩, -⟩ := C54_sin_cos_angle (x / r) (y / r) (by field_simp; exact hxy)
    refine ⟨a, a0, a1.le, ?_⟩
    rw [ca, sa, mul_div_cancel₀ _ hr.ne', mul_div_cancel₀ _ hr.ne']
    have ex := congrArg V3.x hd
    have ey := congrArg V3.y hd
    have ez := congrArg V3.z hd
    simp only [V3.add_x, V3.add_y, V3.add_z, V3.smul_x, V3.smul_y, V3.smul_z, V3.sub_x, V3.sub_y, V3.sub_z] at ex ey ez
    ext
    · simp only [V3.add_x, V3.smul_x]; linear_combination ex
    · simp only [V3.add_y, V3.smul_y]; linear_combination ey
    · simp only [V3.add_z, V3.smul_z]; linear_combination ez
  · rintro ⟨a, -, -, rfl⟩
    constructor
    · simp only [V3.dot, V3.cross, V3.add_x, V3.add_y, V3.add_z, V3.smul_x, V3.smul_y, V3.smul_z, V3.sub_x, V3.sub_y, V3.sub_z]
      ring
    · have := Real.sin_sq_add_cos_sq a
      simp only [V3.dot, V3.add_x, V3.add_y, V3.add_z, V3.smul_x, V3.smul_y, V3.smul_z, V3.sub_x, V3.sub_y, V3.sub_z] at *
      linear_combination (r * cos a) ^ 2 * hu + (r * sin a) ^ 2 * hw + 2 * (r * cos a) * (r * sin a) * ho + r ^ 2 * this

/-- **C214** (partial) the extrusion of a circle along its normal, in either direction, is one cylindrical face whose points are the points swept by the circle; another direction is refused. -/
theorem C214_extrusion_partial (colinear : V3 ℝ → Bool) (c : Circle3) (hw : V3.dot c.frame.basis.w c.frame.basis.w = 1) (hr : 0 < c.radius) :
    (∀ vector, colinear vector = false → circleExtrusion colinear c vector = .error .notImplemented) ∧
    ∀ k : ℝ, k ≠ 0 → colinear (V3.smul k c.frame.basis.w) = true →
      ∃ f, circleExtrusion colinear c (V3.smul k c.frame.basis.w) = .ok [f] ∧ f.points = CircleSweptAlong c (V3.smul k c.frame.basis.w) := by
  refine ⟨fun v h => by unfold circleExtrusion; rw [h, if_neg (by simp)], ?_⟩
  intro k hk hc
  obtain ⟨n, hn⟩ : ∃ n, n = c.frame.basis.w := ⟨_, rfl⟩
  rw [← hn] at hw hc ⊢
  have hwv : ∃ w, V3.unitVector (V3.smul k n) = some w ∧ V3.smul (V3.norm (V3.smul k n)) w = V3.smul k n := by
    have hk' : V3.smul k n ≠ ⟨0, 0, 0⟩ := by
      intro e
      have := norm_smul hw k
      rw [e] at this
      have h0 : V3.norm (⟨0, 0, 0⟩ : V3 ℝ) = 0 := by unfold V3.norm; simp
      rw [h0] at this
      exact hk (abs_eq_zero.mp this.symm)
    obtain ⟨w, h⟩ := V3.unitVector_some hk'
    exact ⟨w, h, (V3.unitVector_spec h).2.1.symm⟩
  obtain ⟨w, hw1, hw2⟩ := hwv
  obtain ⟨f, hf, -, -, -⟩ := C63_fromPointAndNormal c.frame.origin n hw
  have hfu : ∃ u, f = ⟨c.frame.origin, ⟨u, V3.cross n u, n⟩⟩ ∧ V3.dot u u = 1 ∧ V3.dot u n = 0 := by
    obtain ⟨f', hf', ho, hb, hd⟩ := C63_fromPointAndNormal c.frame.origin n hw
    rw [hf] at hf'
    cases hf'
    unfold Frame3.fromPointAndNormal at hf
    rcases h1 : V3.deterministicNormalVector n with _ | m
    · rw [h1] at hf; cases hf
    · rw [h1] at hf
      rcases h2 : V3.unitVector m with _ | u
      · simp [h2] at hf
      · simp only [Option.bind_eq_bind, Option.bind_some, h2, Option.pure_def, Option.some.injEq] at hf
        subst hf
        exact ⟨u, rfl, hd.1, hd.2.2.2.2.1⟩
  obtain ⟨u, rfl, hu, hun⟩ := hfu
  have hv : V3.dot (V3.cross n u) (V3.cross n u) = 1 := by
    simp only [V3.dot, V3.cross] at *
    linear_combination hw * (u.x * u.x + u.y * u.y + u.z * u.z) + hu - (u.x * n.x + u.y * n.y + u.z * n.z) * hun
  have huv : V3.dot u (V3.cross n u) = 0 := by simp only [V3.dot, V3.cross]; ring
  have hnn : n = -V3.cross (V3.cross n u) u := by
    simp only [V3.dot] at hu hun
    ext
    · simp only [V3.neg_x, V3.cross]; linear_combination -n.x * hu + u.x * hun
    · simp only [V3.neg_y, V3.cross]; linear_combination -n.y * hu + u.y * hun
    · simp only [V3.neg_z, V3.cross]; linear_combination -n.z * hu + u.z * hun
  refine ⟨.cylinder ⟨⟨c.frame.origin, ⟨u, V3.cross n u, w⟩⟩, c.radius⟩ 0 (lastAngle (2 * π)) 0 (V3.norm (V3.smul k n)), ?_, ?_⟩
  · unfold circleExtrusion
    rw [hc, if_pos rfl, ← hn, hf, hw1]
  · ext p
    unfold CircleSweptAlong
    rw [← hn]
    simp only [onCircle_iff hu hv huv (Or.inr hnn) c.frame.origin hr]
    have hp := Real.pi_pos
    rw [lastAngle_eq (by positivity)]
    have key : ∀ a b : ℝ, Cylinder.paramTo3d ⟨⟨c.frame.origin, ⟨u, V3.cross n u, w⟩⟩, c.radius⟩ ⟨0 + a * (2 * π - 0), 0 + b * (V3.norm (V3.smul k n) - 0)⟩ =
        c.frame.origin + V3.smul (c.radius * cos (a * (2 * π))) u + V3.smul (c.radius * sin (a * (2 * π))) (V3.cross n u) + V3.smul b (V3.smul k n) := by
      intro a b
      have ex := congrArg V3.x hw2
      have ey := congrArg V3.y hw2
      have ez := congrArg V3.z hw2
      simp only [V3.smul_x, V3.smul_y, V3.smul_z] at ex ey ez
      unfold Cylinder.paramTo3d
      dsimp only
      rw [show 0 + a * (2 * π - 0) = a * (2 * π) by ring]
      ext
      · simp only [V3.add_x, V3.smul_x]; linear_combination b * ex
      · simp only [V3.add_y, V3.smul_y]; linear_combination b * ey
      · simp only [V3.add_z, V3.smul_z]; linear_combination b * ez
    constructor
    · rintro ⟨a, b, a0, a1, b0, b1, rfl⟩
      exact ⟨_, b, ⟨a * (2 * π), by positivity, by nlinarith, rfl⟩, b0, b1, key a b⟩
    · rintro ⟨q, b, ⟨a, a0, a1, rfl⟩, b0, b1, rfl⟩
      refine ⟨a / (2 * π), b, by positivity, (div_le_one (by positivity)).mpr a1, b0, b1, ?_⟩
      rw [key, div_mul_cancel₀ _ (by positivity)]

lemma torusAngle_pos {a : ℝ} (h : 0 < a) : torusAngle a = a := by
  unfold torusAngle
  rw [if_neg h.ne, if_neg (not_lt.mpr h.le)]

/-- **C215** (partial) the revolution of a circle whose plane contains the axis direction and the radius from the axis to its centre is a part of a torus, whose points are the points swept by the circle. -/
theorem C215_revolution_partial (c : Circle3) (axisPoint axis foot u : V3 ℝ) (distance angle : ℝ) (hd : 0 < distance) (hr : 0 < c.radius) (ha : 0 < angle)
    (hw : V3.dot axis axis = 1) (hu : V3.dot u u = 1) (ho : V3.dot u axis = 0) (hfoot : ∃ q, foot = axisPoint + V3.smul q axis)
    (hc : c.frame.origin = foot + V3.smul distance u) (hn : c.frame.basis.w = V3.cross axis u ∨ c.frame.basis.w = -V3.cross axis u) :
    ∃ f, circleRevolution c axisPoint axis angle = .ok [f] ∧ f.points = CircleSweptAround c axisPoint axis angle := by
  have hp := Real.pi_pos
  have m : Meridian c.frame.origin c.frame.origin axisPoint axis foot u distance distance 0 := by
    refine ⟨hw, hu, ho, hfoot, hc, ?_⟩
    rw [hc]
    ext <;> simp
  refine ⟨.torus ⟨⟨foot, ⟨u, V3.cross axis u, axis⟩⟩, distance, c.radius⟩ 0 angle 0 (2 * π), ?_, ?_⟩
  · obtain ⟨s, hs⟩ := foot_start m
    obtain ⟨d1, -, d3, -⟩ := dists m
    have d3' : V3.pointDistance foot c.frame.origin = distance := by
      rw [norm_neg_sub', d1, norm_smul hu, abs_of_pos hd]
    unfold circleRevolution
    rw [hs]
    dsimp only
    rw [d1, unit_smul hu hd]
    dsimp only
    have h0 : V3.dot c.frame.basis.w u = 0 := by
      rcases hn with h | h <;> rw [h]
      · simp only [V3.dot, V3.cross]; ring
      · simp only [V3.dot, V3.cross, V3.neg_x, V3.neg_y, V3.neg_z]; ring
    have hcl : mathIsClose (V3.dot c.frame.basis.w u) 0 (1 / 10 ^ 9) := by
      rw [h0]
      unfold mathIsClose
      rw [sub_self, abs_zero]
      exact le_max_of_le_right (by norm_num)
    rw [if_neg (not_not.mpr hcl), d3', torusAngle_pos ha, torusAngle_pos (by positivity)]
  · ext p
    unfold CircleSweptAround
    simp only [onCircle_iff hu hw ho hn c.frame.origin hr]
    have key : ∀ a b : ℝ, Torus.paramTo3d ⟨⟨foot, ⟨u, V3.cross axis u, axis⟩⟩, distance, c.radius⟩ ⟨0 + a * (angle - 0), 0 + b * (2 * π - 0)⟩ =
        V3.rotation (c.frame.origin + V3.smul (c.radius * cos (b * (2 * π))) u + V3.smul (c.radius * sin (b * (2 * π))) axis) axisPoint axis (a * angle) := by
      intro a b
      obtain ⟨q, hq⟩ := hfoot
      rw [hc, hq]
      unfold V3.rotation V3.rotationCS Torus.paramTo3d
      dsimp only
      rw [show 0 + a * (angle - 0) = a * angle by ring, show 0 + b * (2 * π - 0) = b * (2 * π) by ring]
      obtain ⟨C, hC⟩ : ∃ C, C = cos (a * angle) := ⟨_, rfl⟩
      obtain ⟨S, hS⟩ : ∃ S, S = sin (a * angle) := ⟨_, rfl⟩
      obtain ⟨x, hx⟩ : ∃ x, x = c.radius * cos (b * (2 * π)) := ⟨_, rfl⟩
      obtain ⟨y, hy⟩ : ∃ y, y = c.radius * sin (b * (2 * π)) := ⟨_, rfl⟩
      rw [← hC, ← hS, ← hx, ← hy]
      simp only [V3.dot] at ho hw
      ext
      · simp only [V3.add_x, V3.smul_x, V3.sub_x, V3.add_y, V3.smul_y, V3.sub_y, V3.add_z, V3.smul_z, V3.sub_z, V3.dot, V3.cross]
        linear_combination -(1 - C) * axis.x * ((distance + x) * ho + (q + y) * hw)
      · simp only [V3.add_x, V3.smul_x, V3.sub_x, V3.add_y, V3.smul_y, V3.sub_y, V3.add_z, V3.smul_z, V3.sub_z, V3.dot, V3.cross]
        linear_combination -(1 - C) * axis.y * ((distance + x) * ho + (q + y) * hw)
      · simp only [V3.add_x, V3.smul_x, V3.sub_x, V3.add_y, V3.smul_y, V3.sub_y, V3.add_z, V3.smul_z, V3.sub_z, V3.dot, V3.cross]
        linear_combination -(1 - C) * axis.z * ((distance + x) * ho + (q + y) * hw)
    constructor
    · rintro ⟨a, b, a0, a1, b0, b1, rfl⟩
      exact ⟨_, a * angle, ⟨b * (2 * π), by positivity, by nlinarith, rfl⟩, by positivity, by nlinarith, key a b⟩
    · rintro ⟨q, t, ⟨b, b0, b1, rfl⟩, t0, t1, rfl⟩
      refine ⟨t / angle, b / (2 * π), by positivity, (div_le_one ha).mpr t1, by positivity, (div_le_one (by positivity)).mpr b1, ?_⟩
      rw [key, div_mul_cancel₀ _ ha.ne', div_mul_cancel₀ _ (by positivity)]

/-- C215 as expected by a user: a revolution that is not refused gives the points swept by the circle. -/
def C215_full_statement : Prop := ∀ (c : Circle3) (axisPoint axis : V3 ℝ) (angle : ℝ) (f : CircleFace), V3.dot axis axis = 1 → V3.dot c.frame.basis.w c.frame.basis.w = 1 → 0 < c.radius →
  0 < angle → angle < 2 * π → circleRevolution c axisPoint axis angle = .ok [f] → f.points = CircleSweptAround c axisPoint axis angle

/-- **C215** false: a circle in a plane orthogonal to the axis gives a part of a torus and not a part of the plane. -/
theorem C215_counterexample : ¬ C215_full_statement := by
  have hp := pi_gt_three
  intro hfull
  obtain ⟨c, hc⟩ : ∃ c : Circle3, c = ⟨⟨⟨3, 0, 0⟩, ⟨⟨1, 0, 0⟩, ⟨0, 1, 0⟩, ⟨0, 0, 1⟩⟩⟩, 1⟩ := ⟨_, rfl⟩
  have m : Meridian (⟨3, 0, 0⟩ : V3 ℝ) ⟨3, 0, 0⟩ ⟨0, 0, 0⟩ ⟨0, 0, 1⟩ ⟨0, 0, 0⟩ ⟨1, 0, 0⟩ 3 3 0 := by
    refine ⟨by norm_num [V3.dot], by norm_num [V3.dot], by norm_num [V3.dot], ⟨0, by ext <;> simp⟩, by ext <;> simp, by ext <;> simp⟩
  obtain ⟨s, hs⟩ := foot_start m
  obtain ⟨d1, -, d3, -⟩ := dists m
  have hrun : circleRevolution c ⟨0, 0, 0⟩ ⟨0, 0, 1⟩ 1 = .ok [.torus ⟨⟨⟨0, 0, 0⟩, ⟨⟨1, 0, 0⟩, V3.cross ⟨0, 0, 1⟩ ⟨1, 0, 0⟩, ⟨0, 0, 1⟩⟩⟩, 3, 1⟩ 0 1 0 (2 * π)] := by
    rw [hc]
    unfold circleRevolution
    rw [hs]
    dsimp only
    rw [d1, unit_smul m.unit_u (by norm_num)]
    dsimp only
    have hcl : mathIsClose (V3.dot (⟨0, 0, 1⟩ : V3 ℝ) ⟨1, 0, 0⟩) 0 (1 / 10 ^ 9) := by
      unfold mathIsClose V3.dot
      norm_num
    rw [if_neg (not_not.mpr hcl), torusAngle_pos one_pos, torusAngle_pos (by positivity)]
    have : V3.pointDistance (⟨0, 0, 0⟩ : V3 ℝ) ⟨3, 0, 0⟩ = 3 := by
      rw [norm_neg_sub', d1, norm_smul m.unit_u]
      norm_num
    rw [this]
  have h := hfull c ⟨0, 0, 0⟩ ⟨0, 0, 1⟩ 1 _ (by norm_num [V3.dot]) (by rw [hc]; norm_num [V3.dot]) (by rw [hc]; norm_num) one_pos (by linarith) hrun
  have hin : (⟨3, 0, 1⟩ : V3 ℝ) ∈ CircleSweptAround c ⟨0, 0, 0⟩ ⟨0, 0, 1⟩ 1 := by
    rw [← h]
    refine ⟨0, 1 / 4, le_refl _, zero_le_one, by norm_num, by norm_num, ?_⟩
    unfold Torus.paramTo3d
    dsimp only
    rw [show 0 + 1 / 4 * (2 * π - 0) = π / 2 by ring]
    ext <;> simp [V3.cross]
  obtain ⟨q, t, ⟨h1, -⟩, -, -, hq⟩ := hin
  rw [hc] at h1
  have hz := congrArg V3.z hq
  unfold V3.rotation V3.rotationCS at hz
  simp [V3.dot, V3.cross] at h1 hz
  rw [h1] at hz
  norm_num at hz

/-- The hypotheses of C214 and C215 are met. -/
example : ∃ c : Circle3, V3.dot c.frame.basis.w c.frame.basis.w = 1 ∧ 0 < c.radius ∧ c.frame.origin = (⟨0, 0, 0⟩ : V3 ℝ) + V3.smul 3 ⟨1, 0, 0⟩ ∧ c.frame.basis.w = V3.cross ⟨0, 0, 1⟩ ⟨1, 0, 0⟩ :=
  ⟨⟨⟨⟨3, 0, 0⟩, ⟨⟨1, 0, 0⟩, ⟨0, 0, -1⟩, ⟨0, 1, 0⟩⟩⟩, 1⟩, by norm_num [V3.dot], by norm_num, by ext <;> simp, by ext <;> simp [V3.cross]⟩

end Volmdlr.Surface
