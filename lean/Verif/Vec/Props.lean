import Verif.Vec.Model
import Mathlib.Tactic.Ring
import Mathlib.Tactic.LinearCombination
import Mathlib.Tactic.FieldSimp
import Mathlib.Tactic.Linarith
import Mathlib.Tactic.Positivity
import Mathlib.Tactic.NormNum

/-!
# C01, C02: rotations
-/

namespace Volmdlr
open Real

/-! ## C01, plane -/

/-- C01: 2D rotations preserve all distances. -/
theorem C01_rotation2d_isometry (p q center : V2 ℝ) (angle : ℝ) :
    V2.pointDistance (V2.rotation p center angle) (V2.rotation q center angle)
      = V2.pointDistance p q := by
  unfold V2.pointDistance V2.norm V2.rotation V2.rotationCS
  congr 1
  simp only [V2.sub_x, V2.sub_y]
  linear_combination ((p.x - q.x)^2 + (p.y - q.y)^2) * (Real.sin_sq_add_cos_sq angle)

/-- C01: 2D rotations preserve all dot products of differences (hence angles), and the orientation
(the cross product). -/
theorem C01_rotation2d_dot_cross (p q r center : V2 ℝ) (angle : ℝ) :
    V2.dot (V2.rotation p center angle - V2.rotation r center angle)
           (V2.rotation q center angle - V2.rotation r center angle) = V2.dot (p - r) (q - r)
    ∧ V2.cross (V2.rotation p center angle - V2.rotation r center angle)
           (V2.rotation q center angle - V2.rotation r center angle) = V2.cross (p - r) (q - r) := by
  unfold V2.dot V2.cross V2.rotation V2.rotationCS
  simp only [V2.sub_x, V2.sub_y]
  constructor
  · linear_combination ((p.x - r.x)*(q.x-r.x) + (p.y - r.y)*(q.y-r.y)) * (Real.sin_sq_add_cos_sq angle)
  · linear_combination ((p.x - r.x)*(q.y-r.y) - (p.y - r.y)*(q.x-r.x)) * (Real.sin_sq_add_cos_sq angle)

/-- C01: the centre is fixed. -/
theorem C01_rotation2d_center (center : V2 ℝ) (angle : ℝ) : V2.rotation center center angle = center := by
  ext <;> simp [V2.rotation, V2.rotationCS]

/-- C01: successive rotations about one centre add their angles. -/
theorem C01_rotation2d_add (p center : V2 ℝ) (a b : ℝ) :
    V2.rotation (V2.rotation p center a) center b = V2.rotation p center (a + b) := by
  unfold V2.rotation V2.rotationCS
  ext <;> simp only [V2.sub_x, V2.sub_y, Real.cos_add, Real.sin_add] <;> ring

/-- C01: the zero angle (and every full turn) does nothing. -/
theorem C01_rotation2d_full_turn (p center : V2 ℝ) (n : ℤ) :
    V2.rotation p center (n * (2 * π)) = p := by
  unfold V2.rotation V2.rotationCS
  rw [Real.cos_int_mul_two_pi]
  have hs : Real.sin (n * (2 * π)) = 0 := by
    have := Real.sin_int_mul_pi (2 * n); push_cast at this; rw [← this]; ring_nf
  rw [hs]
  ext <;> simp

/-- C01: the opposite angle undoes a rotation. -/
theorem C01_rotation2d_inverse (p center : V2 ℝ) (a : ℝ) :
    V2.rotation (V2.rotation p center a) center (-a) = p := by
  rw [C01_rotation2d_add]
  have := C01_rotation2d_full_turn p center 0
  simpa using this

/-- C01: a quarter turn is counterclockwise (pins down the sense of rotation). -/
theorem C01_rotation2d_quarter (p center : V2 ℝ) :
    V2.rotation p center (π / 2) = center + V2.normalVector (p - center) := by
  unfold V2.rotation V2.rotationCS V2.normalVector
  ext <;> simp <;> ring

/-! ## C01, space -/

/-- C01: 3D rotation about a unit axis preserves all distances. -/
theorem C01_rotation3d_isometry (p q center axis : V3 ℝ) (angle : ℝ) (hu : V3.norm axis = 1) :
    V3.pointDistance (V3.rotation p center axis angle) (V3.rotation q center axis angle)
      = V3.pointDistance p q := by
  have h1 : axis.x * axis.x + axis.y * axis.y + axis.z * axis.z = 1 := by
    unfold V3.norm at hu; exact Real.sqrt_eq_one.mp hu
  have h2 := Real.sin_sq_add_cos_sq angle
  unfold V3.pointDistance V3.norm V3.rotation V3.rotationCS V3.dot V3.cross
  congr 1
  simp only [V3.sub_x, V3.sub_y, V3.sub_z, V3.smul_x, V3.smul_y, V3.smul_z]
  generalize Real.cos angle = c at *
  generalize Real.sin angle = s at *
  obtain ⟨a, b, d⟩ := axis
  obtain ⟨px, py, pz⟩ := p
  obtain ⟨qx, qy, qz⟩ := q
  obtain ⟨ox, oy, oz⟩ := center
  dsimp only at *
  obtain ⟨x, hx⟩ : ∃ x, px = x + qx := ⟨px - qx, by ring⟩
  obtain ⟨y, hy⟩ : ∃ y, py = y + qy := ⟨py - qy, by ring⟩
  obtain ⟨z, hz⟩ : ∃ z, pz = z + qz := ⟨pz - qz, by ring⟩
  subst hx hy hz
  linear_combination ((x^2+y^2+z^2) - (x*a+y*b+z*d)^2) * h2
    + ((1-c)^2 * (x*a+y*b+z*d)^2 + s^2 * (x^2+y^2+z^2)) * h1

/-- C01: the rotation fixes the points of its axis. -/
theorem C01_rotation3d_axis (center axis : V3 ℝ) (t angle : ℝ) (hu : V3.norm axis = 1) :
    V3.rotation (center + V3.smul t axis) center axis angle = center + V3.smul t axis := by
  have h1 : axis.x * axis.x + axis.y * axis.y + axis.z * axis.z = 1 := by
    unfold V3.norm at hu; exact Real.sqrt_eq_one.mp hu
  unfold V3.rotation V3.rotationCS V3.dot V3.cross
  ext <;> simp only [V3.sub_x, V3.sub_y, V3.sub_z, V3.smul_x, V3.smul_y, V3.smul_z, V3.add_x, V3.add_y, V3.add_z]
  · linear_combination (axis.x * t * (1 - Real.cos angle)) * h1
  · linear_combination (axis.y * t * (1 - Real.cos angle)) * h1
  · linear_combination (axis.z * t * (1 - Real.cos angle)) * h1

/-- C01: successive rotations about one axis add their angles. -/
theorem C01_rotation3d_add (p center axis : V3 ℝ) (a b : ℝ) (hu : V3.norm axis = 1) :
    V3.rotation (V3.rotation p center axis a) center axis b = V3.rotation p center axis (a + b) := by
  have h1 : axis.x * axis.x + axis.y * axis.y + axis.z * axis.z = 1 := by
    unfold V3.norm at hu; exact Real.sqrt_eq_one.mp hu
  unfold V3.rotation V3.rotationCS V3.dot V3.cross
  rw [Real.cos_add, Real.sin_add]
  generalize Real.cos a = c at *
  generalize Real.sin a = s at *
  generalize Real.cos b = c' at *
  generalize Real.sin b = s' at *
  obtain ⟨ux, uy, uz⟩ := axis
  obtain ⟨px, py, pz⟩ := p
  obtain ⟨ox, oy, oz⟩ := center
  dsimp only at *
  obtain ⟨x, hx⟩ : ∃ x, px = x + ox := ⟨px - ox, by ring⟩
  obtain ⟨y, hy⟩ : ∃ y, py = y + oy := ⟨py - oy, by ring⟩
  obtain ⟨z, hz⟩ : ∃ z, pz = z + oz := ⟨pz - oz, by ring⟩
  subst hx hy hz
  ext <;> simp only [V3.sub_x, V3.sub_y, V3.sub_z, V3.smul_x, V3.smul_y, V3.smul_z]
  · linear_combination ((1-c')*(1-c)*(x*ux+y*uy+z*uz)*ux - s*s'*x) * h1
  · linear_combination ((1-c')*(1-c)*(x*ux+y*uy+z*uz)*uy - s*s'*y) * h1
  · linear_combination ((1-c')*(1-c)*(x*ux+y*uy+z*uz)*uz - s*s'*z) * h1

/-- C01: the opposite angle undoes the rotation. -/
theorem C01_rotation3d_inverse (p center axis : V3 ℝ) (a : ℝ) (hu : V3.norm axis = 1) :
    V3.rotation (V3.rotation p center axis a) center axis (-a) = p := by
  rw [C01_rotation3d_add _ _ _ _ _ hu]
  unfold V3.rotation V3.rotationCS
  ext <;> simp

/-- C01: full turns do nothing. -/
theorem C01_rotation3d_full_turn (p center axis : V3 ℝ) (n : ℤ) :
    V3.rotation p center axis (n * (2 * π)) = p := by
  unfold V3.rotation V3.rotationCS
  rw [Real.cos_int_mul_two_pi]
  have hs : Real.sin (n * (2 * π)) = 0 := by
    have := Real.sin_int_mul_pi (2 * n); push_cast at this; rw [← this]; ring_nf
  rw [hs]
  ext <;> simp

/-- C01: sense of rotation: a quarter turn of a vector orthogonal to the axis is `axis × v`. -/
theorem C01_rotation3d_quarter (p center axis : V3 ℝ) (ho : V3.dot (p - center) axis = 0) :
    V3.rotation p center axis (π / 2) = center + V3.cross axis (p - center) := by
  unfold V3.rotation V3.rotationCS
  dsimp only
  rw [ho]
  ext <;> simp [V3.cross] <;> ring

-- the hypotheses are met by a non-coordinate axis
example : V3.norm (⟨3/5, 0, 4/5⟩ : V3 ℝ) = 1 := by
  unfold V3.norm; rw [Real.sqrt_eq_one]; norm_num
example : V3.norm (⟨3/5, 0, 4/5⟩ : V3 ℝ) = 1 ∧
    V3.dot ((⟨4, 7, -3⟩ : V3 ℝ) - ⟨0, 0, 0⟩) ⟨3/5, 0, 4/5⟩ = 0 := by
  refine ⟨?_, by simp [V3.dot]; norm_num⟩
  unfold V3.norm; rw [Real.sqrt_eq_one]; norm_num

/-! ## C02 -/

/-- C02 as stated in English (kept in view): false of the code, see `C02_counterexample`. -/
def C02_full_statement : Prop :=
  ∀ (p : V3 ℝ) (a : ℝ),
    V3.xRotation p a = V3.rotation p ⟨0, 0, 0⟩ ⟨1, 0, 0⟩ a
    ∧ V3.yRotation p a = V3.rotation p ⟨0, 0, 0⟩ ⟨0, 1, 0⟩ a
    ∧ V3.zRotation p a = V3.rotation p ⟨0, 0, 0⟩ ⟨0, 0, 1⟩ a

/-- C02 is false: the three functions turn in the other sense. -/
theorem C02_counterexample : ¬ C02_full_statement := by
  intro h
  have h1 := (h ⟨0, 1, 0⟩ (π/2)).1
  have h2 := congrArg V3.z h1
  simp [V3.xRotation, V3.rotation, V3.rotationCS, V3.axisRotationParameters, V3.cross, V3.dot] at h2
  norm_num at h2

/-- C02 (what holds): `x_rotation(a)`, `y_rotation(a)`, `z_rotation(a)` are rotations about the
coordinate axes by the *opposite* angle `-a`. Missing: the sign. -/
theorem C02_axis_rotations_partial (p : V3 ℝ) (a : ℝ) :
    V3.xRotation p a = V3.rotation p ⟨0, 0, 0⟩ ⟨1, 0, 0⟩ (-a)
    ∧ V3.yRotation p a = V3.rotation p ⟨0, 0, 0⟩ ⟨0, 1, 0⟩ (-a)
    ∧ V3.zRotation p a = V3.rotation p ⟨0, 0, 0⟩ ⟨0, 0, 1⟩ (-a) := by
  refine ⟨?_, ?_, ?_⟩ <;> ext <;>
  simp [V3.xRotation, V3.yRotation, V3.zRotation, V3.rotation, V3.rotationCS, V3.axisRotationParameters,
    V3.cross, V3.dot] <;> ring

/-! ## Normal vectors (part of C06's toolbox): a deterministic normal is orthogonal and non-zero -/

/-- C06: `deterministic_normal_vector` of a non-zero vector is orthogonal to it, it fails exactly on the
zero vector, and the result is non-zero except for the tiny vectors `(0, y, 0)`, `|y| ≤ 1e-7`
(for which the code does return the zero vector). -/
theorem C06_deterministic_normal {K : Type*} [Field K] [LinearOrder K] [IsStrictOrderedRing K] (p : V3 K) :
    (p = ⟨0, 0, 0⟩ ∧ V3.deterministicNormalVector p = none) ∨
    (p ≠ ⟨0, 0, 0⟩ ∧ ∃ n, V3.deterministicNormalVector p = some n ∧ V3.dot n p = 0 ∧
      (n = ⟨0, 0, 0⟩ ↔ (p.x = 0 ∧ p.z = 0 ∧ |p.y| ≤ 1 / 10000000))) := by
  by_cases h0 : V3.sqNorm p = 0
  · left
    refine ⟨?_, by simp [V3.deterministicNormalVector, h0]⟩
    unfold V3.sqNorm at h0
    ext <;> dsimp only <;> nlinarith [mul_self_nonneg p.x, mul_self_nonneg p.y, mul_self_nonneg p.z]
  · right
    refine ⟨by rintro rfl; simp [V3.sqNorm] at h0, ?_⟩
    unfold V3.deterministicNormalVector
    simp only [h0, if_false]
    have hd : V3.sqNorm p = p.x * p.x + p.y * p.y + p.z * p.z := rfl
    split
    · rename_i hyz
      refine ⟨_, rfl, ?_, ?_, ?_⟩
      · simp only [V3.dot, V3.sub_x, V3.sub_y, V3.sub_z, V3.smul_x, V3.smul_y, V3.smul_z]
        field_simp; rw [hd]; ring
      · intro hn
        have hx := congrArg V3.x hn
        simp only [V3.dot, V3.sub_x, V3.smul_x] at hx
        field_simp at hx
        rw [hd] at hx
        have : p.y * p.y + p.z * p.z = 0 := by linarith
        have hy0 : p.y = 0 := by nlinarith [mul_self_nonneg p.y, mul_self_nonneg p.z]
        have hz0 : p.z = 0 := by nlinarith [mul_self_nonneg p.y, mul_self_nonneg p.z]
        rw [hy0, hz0] at hyz
        simp at hyz
      · rintro ⟨-, hz, hy⟩
        exfalso
        rw [hz] at hyz
        rcases hyz with h | h
        · exact h hy
        · simp at h
    · rename_i hyz
      push Not at hyz
      refine ⟨_, rfl, ?_, ?_, ?_⟩
      · simp only [V3.dot, V3.sub_x, V3.sub_y, V3.sub_z, V3.smul_x, V3.smul_y, V3.smul_z]
        field_simp; rw [hd]; ring
      · intro hn
        have hy := congrArg V3.y hn
        simp only [V3.dot, V3.sub_y, V3.smul_y] at hy
        field_simp at hy
        rw [hd] at hy
        have : p.x * p.x + p.z * p.z = 0 := by linarith
        exact ⟨by nlinarith [mul_self_nonneg p.x, mul_self_nonneg p.z],
          by nlinarith [mul_self_nonneg p.x, mul_self_nonneg p.z], hyz.1⟩
      · rintro ⟨hx, hz, -⟩
        have hp : p.y ≠ 0 := by
          intro hy; apply h0; rw [hd, hx, hy, hz]; ring
        ext <;> simp only [V3.dot, V3.sub_x, V3.sub_y, V3.sub_z, V3.smul_x, V3.smul_y, V3.smul_z, hd, hx, hz] <;>
          field_simp <;> ring

end Volmdlr
