import Verif.Solid.CylProps

/-!
# C80, C81: construction, lateral surface, membership and motion of cylinders and cones
-/

namespace Volmdlr.Solid

open Real Volmdlr.Surface

/-! ## Coordinates -/

theorem globalToLocal_flush (f : Frame3 ℝ) (hf : f.Invertible) (p : V3 ℝ) :
    ∃ q, p = pt f q ∧ f.globalToLocal p = .ok ⟨flush q.x, flush q.y, flush q.z⟩ := by
  obtain ⟨b, hb, h1, h2⟩ := Frame3.inverse_ok hf
  refine ⟨b.cMulVec (p - f.origin), ?_, ?_⟩
  · have := M33.cMulVec_mul f.basis.transfer b (p - f.origin)
    rw [h1, M33.cMulVec_one] at this
    have hx := congrArg V3.x this
    have hy := congrArg V3.y this
    have hz := congrArg V3.z this
    generalize b.cMulVec (p - f.origin) = q at *
    simp only [M33.cMulVec, Basis3.transfer, V3.sub_x, V3.sub_y, V3.sub_z] at hx hy hz
    unfold pt
    ext <;> simp only [V3.add_x, V3.add_y, V3.add_z, V3.smul_x, V3.smul_y, V3.smul_z] <;> linarith
  · unfold Frame3.globalToLocal Basis3.globalToLocal
    rw [hb]
    rfl

theorem flush_abs_le (x : ℝ) : |flush x| ≤ |x| := by
  unfold flush; split
  · rw [abs_zero]; exact abs_nonneg _
  · exact le_rfl

theorem flush_sq_le (x : ℝ) : flush x ^ 2 ≤ x ^ 2 := sq_le_sq.mpr (flush_abs_le x)

/-- Membership in a cylinder in the coordinates of an orthonormal frame with the same axis. -/
theorem inCyl_coord (f : Frame3 ℝ) (ho : Orthonormal3 f.basis) (R L : ℝ) (q : V3 ℝ) :
    InCyl f.origin f.basis.w R L (pt f q) ↔ q.x ^ 2 + q.y ^ 2 ≤ R ^ 2 ∧ |q.z| ≤ L / 2 := by
  obtain ⟨o, u, v, w⟩ := f
  obtain ⟨h1, h2, h3, h4, h5, h6⟩ := ho
  simp only [V3.dot] at h1 h2 h3 h4 h5 h6
  unfold pt
  dsimp only at *
  constructor
  · rintro ⟨t, r, ht, hr, hrr, h⟩
    have hx := congrArg V3.x h
    have hy := congrArg V3.y h
    have hz := congrArg V3.z h
    simp only [V3.add_x, V3.add_y, V3.add_z, V3.smul_x, V3.smul_y, V3.smul_z, V3.dot] at hx hy hz hr hrr
    have tz : t = q.z := by
      linear_combination -w.x * hx - w.y * hy - w.z * hz - hr + q.x * h5 + q.y * h6 + q.z * h3 - t * h3
    rw [tz] at hx hy hz ht
    have r1 : r.x = q.x * u.x + q.y * v.x := by linarith
    have r2 : r.y = q.x * u.y + q.y * v.y := by linarith
    have r3 : r.z = q.x * u.z + q.y * v.z := by linarith
    refine ⟨?_, ht⟩
    rw [r1, r2, r3] at hrr
    have : (q.x * u.x + q.y * v.x) * (q.x * u.x + q.y * v.x) + (q.x * u.y + q.y * v.y) * (q.x * u.y + q.y * v.y) +
      (q.x * u.z + q.y * v.z) * (q.x * u.z + q.y * v.z) = q.x ^ 2 + q.y ^ 2 := by
      linear_combination q.x ^ 2 * h1 + q.y ^ 2 * h2 + 2 * q.x * q.y * h4
    linarith
  · rintro ⟨h, hz⟩
    refine ⟨q.z, V3.smul q.x u + V3.smul q.y v, hz, ?_, ?_, ?_⟩
    · simp only [V3.dot, V3.add_x, V3.add_y, V3.add_z, V3.smul_x, V3.smul_y, V3.smul_z]
      linear_combination q.x * h5 + q.y * h6
    · refine le_trans (le_of_eq ?_) h
      simp only [V3.dot, V3.add_x, V3.add_y, V3.add_z, V3.smul_x, V3.smul_y, V3.smul_z]
      linear_combination q.x ^ 2 * h1 + q.y ^ 2 * h2 + 2 * q.x * q.y * h4
    · ext <;> simp <;> ring

/-- Membership in a cone in the coordinates of an orthonormal frame with the same axis. -/
theorem inCone_coord (f : Frame3 ℝ) (ho : Orthonormal3 f.basis) (R L : ℝ) (q : V3 ℝ) :
    InCone f.origin f.basis.w R L (pt f q) ↔ q.x ^ 2 + q.y ^ 2 ≤ (R * ((L / 2 - q.z) / L)) ^ 2 ∧ |q.z| ≤ L / 2 := by
  obtain ⟨o, u, v, w⟩ := f
  obtain ⟨h1, h2, h3, h4, h5, h6⟩ := ho
  simp only [V3.dot] at h1 h2 h3 h4 h5 h6
  unfold pt
  dsimp only at *
  constructor
  · rintro ⟨t, r, ht, hr, hrr, h⟩
    have hx := congrArg V3.x h
    have hy := congrArg V3.y h
    have hz := congrArg V3.z h
    simp only [V3.add_x, V3.add_y, V3.add_z, V3.smul_x, V3.smul_y, V3.smul_z, V3.dot] at hx hy hz hr hrr
    have tz : t = q.z := by
      linear_combination -w.x * hx - w.y * hy - w.z * hz - hr + q.x * h5 + q.y * h6 + q.z * h3 - t * h3
    rw [tz] at hx hy hz ht hrr
    have r1 : r.x = q.x * u.x + q.y * v.x := by linarith
    have r2 : r.y = q.x * u.y + q.y * v.y := by linarith
    have r3 : r.z = q.x * u.z + q.y * v.z := by linarith
    refine ⟨?_, ht⟩
    rw [r1, r2, r3] at hrr
    have : (q.x * u.x + q.y * v.x) * (q.x * u.x + q.y * v.x) + (q.x * u.y + q.y * v.y) * (q.x * u.y + q.y * v.y) +
      (q.x * u.z + q.y * v.z) * (q.x * u.z + q.y * v.z) = q.x ^ 2 + q.y ^ 2 := by
      linear_combination q.x ^ 2 * h1 + q.y ^ 2 * h2 + 2 * q.x * q.y * h4
    linarith
  · rintro ⟨h, hz⟩
    refine ⟨q.z, V3.smul q.x u + V3.smul q.y v, hz, ?_, ?_, ?_⟩
    · simp only [V3.dot, V3.add_x, V3.add_y, V3.add_z, V3.smul_x, V3.smul_y, V3.smul_z]
      linear_combination q.x * h5 + q.y * h6
    · refine le_trans (le_of_eq ?_) h
      simp only [V3.dot, V3.add_x, V3.add_y, V3.add_z, V3.smul_x, V3.smul_y, V3.smul_z]
      linear_combination q.x ^ 2 * h1 + q.y ^ 2 * h2 + 2 * q.x * q.y * h4
    · ext <;> simp <;> ring

/-! ## Constructors -/

theorem direct_orthonormal {b : Basis3 ℝ} (h : DirectOrthonormal b) : Orthonormal3 b :=
  ⟨h.1, h.2.1, h.2.2.1, h.2.2.2.1, h.2.2.2.2.1, h.2.2.2.2.2.1⟩

/-- C80: a cylinder built from two distinct end points has a direct orthonormal frame, the given radius, and its axis goes
from the first point to the second: the ends of its axis are exactly these points. -/
theorem C80_fromEndPoints (p1 p2 : V3 ℝ) (R : ℝ) (h : p1 ≠ p2) :
    ∃ c, Cyl.fromEndPoints p1 p2 R = some c ∧ DirectOrthonormal c.frame.basis ∧ c.radius = R ∧
      c.length = V3.pointDistance p1 p2 ∧ 0 < c.length ∧
      c.frame.origin - V3.smul (c.length / 2) c.frame.basis.w = p1 ∧
      c.frame.origin + V3.smul (c.length / 2) c.frame.basis.w = p2 := by
  have hne : p2 - p1 ≠ ⟨0, 0, 0⟩ := by
    intro h0
    apply h
    have hx := congrArg V3.x h0
    have hy := congrArg V3.y h0
    have hz := congrArg V3.z h0
    simp only [V3.sub_x, V3.sub_y, V3.sub_z] at hx hy hz
    ext <;> linarith
  obtain ⟨n, hn⟩ := V3.unitVector_some hne
  obtain ⟨hpos, he, hn1⟩ := V3.unitVector_spec hn
  obtain ⟨f, hf, h1, h2, h3⟩ := C63_fromPointAndNormal (V3.smul (1 / 2) (p1 + p2)) n hn1
  have hl : V3.pointDistance p1 p2 = V3.norm (p2 - p1) := by
    unfold V3.pointDistance V3.norm
    congr 1
    simp only [V3.sub_x, V3.sub_y, V3.sub_z]; ring
  refine ⟨⟨f, R, V3.pointDistance p1 p2⟩, ?_, h3, rfl, rfl, ?_, ?_, ?_⟩
  · unfold Cyl.fromEndPoints
    simp only [hn, hf, Option.bind_eq_bind, Option.bind_some, Option.pure_def]
  · dsimp only; rw [hl]; exact hpos
  · dsimp only
    rw [h1, h2, hl]
    have hx := congrArg V3.x he
    have hy := congrArg V3.y he
    have hz := congrArg V3.z he
    simp only [V3.sub_x, V3.sub_y, V3.sub_z, V3.smul_x, V3.smul_y, V3.smul_z] at hx hy hz
    ext <;> simp <;> linarith
  · dsimp only
    rw [h1, h2, hl]
    have hx := congrArg V3.x he
    have hy := congrArg V3.y he
    have hz := congrArg V3.z he
    simp only [V3.sub_x, V3.sub_y, V3.sub_z, V3.smul_x, V3.smul_y, V3.smul_z] at hx hy hz
    ext <;> simp <;> linarith

/-- C80: two equal end points raise `ZeroDivisionError`. -/
theorem C80_fromEndPoints_degenerate (p : V3 ℝ) (R : ℝ) : Cyl.fromEndPoints p p R = none := by
  unfold Cyl.fromEndPoints
  have : V3.unitVector (p - p) = none := by
    unfold V3.unitVector
    rw [if_pos]
    rw [V3.norm_eq_zero_iff]; ext <;> simp
  rw [this]; rfl

/-- What a user expects of `from_center_point_and_axis`: for every non-zero axis the cylinder has the given centre, radius
and length, along the given axis. -/
def C80_fromCenterPointAndAxis_full_statement : Prop :=
  ∀ (o a : V3 ℝ) (R L : ℝ), a ≠ ⟨0, 0, 0⟩ → 0 < R → 0 < L → ∃ c, Cyl.fromCenterPointAndAxis o a R L = some c ∧
    DirectOrthonormal c.frame.basis ∧ c.frame.origin = o ∧ c.radius = R ∧ c.length = L ∧
    ∃ k, 0 < k ∧ a = V3.smul k c.frame.basis.w

/-- C80, proved part: it holds for unit axes. -/
theorem C80_fromCenterPointAndAxis_partial (o a : V3 ℝ) (R L : ℝ) (ha : V3.dot a a = 1) :
    ∃ c, Cyl.fromCenterPointAndAxis o a R L = some c ∧ DirectOrthonormal c.frame.basis ∧ c.frame.origin = o ∧
      c.radius = R ∧ c.length = L ∧ c.frame.basis.w = a := by
  obtain ⟨f, hf, h1, h2, h3⟩ := C63_fromPointAndNormal o a ha
  refine ⟨⟨f, R, L⟩, ?_, h3, h1, rfl, rfl, h2⟩
  unfold Cyl.fromCenterPointAndAxis
  simp only [hf, Option.bind_eq_bind, Option.bind_some, Option.pure_def]

/-- C80 is false for other axes: with the axis `(0, 0, 2)`, the centre at the origin, radius 1 and length 2, the frame is
not orthonormal, the bounding box has height 4, and the side face is stretched to radius 2. -/
theorem C80_fromCenterPointAndAxis_counterexample : ¬ C80_fromCenterPointAndAxis_full_statement := by
  intro h
  obtain ⟨c, hc, ho, -, -, -, -⟩ := h ⟨0, 0, 0⟩ ⟨0, 0, 2⟩ 1 2 (by intro h; have := congrArg V3.z h; norm_num at this)
    (by norm_num) (by norm_num)
  unfold Cyl.fromCenterPointAndAxis at hc
  rcases hf : Frame3.fromPointAndNormal (⟨0, 0, 0⟩ : V3 ℝ) ⟨0, 0, 2⟩ with _ | f
  · rw [hf] at hc; cases hc
  · rw [hf] at hc
    simp only [Option.bind_eq_bind, Option.bind_some, Option.pure_def, Option.some.injEq] at hc
    subst hc
    have hw : f.basis.w = ⟨0, 0, 2⟩ := by
      unfold Frame3.fromPointAndNormal at hf
      simp only [Option.bind_eq_bind, Option.bind_eq_some_iff, Option.pure_def, Option.some.injEq] at hf
      obtain ⟨n, -, u, -, rfl⟩ := hf
      rfl
    have h3 := ho.2.2.1
    dsimp only at h3
    rw [hw] at h3
    norm_num [V3.dot] at h3

/-! ## Lateral faces -/

theorem within_of_eq {e : ℝ} {p a b : V3 ℝ} (h : Within e p a) (hab : a = b) : Within e p b := hab ▸ h

/-- C80: every point of the side face of a cylinder (`0 ≤ z ≤ length`) lies, up to the flush of coordinates below 1e-16, on
the boundary of the cylinder: at distance `radius` from the axis and between the two ends. -/
theorem C80_cylinder_side (c : Cyl) (ho : Orthonormal3 c.frame.basis) (θ z : ℝ) (hz0 : 0 ≤ z)
    (hz1 : z ≤ c.length) :
    ∃ (t : ℝ) (r : V3 ℝ), |t| ≤ c.length / 2 ∧ V3.dot r c.frame.basis.w = 0 ∧ V3.dot r r = c.radius ^ 2 ∧
      Within (1 / 10 ^ 16) (c.lateralSurface.to3d ⟨θ, z⟩) (c.frame.origin + V3.smul t c.frame.basis.w + r) := by
  obtain ⟨⟨o, u, v, w⟩, R, L⟩ := c
  obtain ⟨h1, h2, h3, h4, h5, h6⟩ := ho
  dsimp only [V3.dot] at *
  refine ⟨z - L / 2, V3.smul (R * cos θ) u + V3.smul (R * sin θ) v, ?_, ?_, ?_, ?_⟩
  · rw [abs_le]; constructor <;> linarith
  · simp only [V3.add_x, V3.add_y, V3.add_z, V3.smul_x, V3.smul_y, V3.smul_z]
    linear_combination R * cos θ * h5 + R * sin θ * h6
  · have := sin_sq_add_cos_sq θ
    simp only [V3.add_x, V3.add_y, V3.add_z, V3.smul_x, V3.smul_y, V3.smul_z]
    linear_combination R ^ 2 * cos θ ^ 2 * h1 + R ^ 2 * sin θ ^ 2 * h2 + 2 * R ^ 2 * cos θ * sin θ * h4 + R ^ 2 * this
  · have := localToGlobal_within (Cyl.lateralSurface ⟨⟨o, u, v, w⟩, R, L⟩).frame ⟨R * cos θ, R * sin θ, z⟩
    unfold Cylinder.to3d
    refine within_of_eq this ?_
    unfold pt Cyl.lateralSurface frameTranslation
    ext <;> simp <;> ring

/-- C80: every point at distance `radius` from the axis between the two ends is on the side face. -/
theorem C80_cylinder_side_onto (c : Cyl) (ho : Orthonormal3 c.frame.basis) (hR : 0 < c.radius) (t : ℝ) (r : V3 ℝ)
    (ht : |t| ≤ c.length / 2) (hr : V3.dot r c.frame.basis.w = 0) (hrr : V3.dot r r = c.radius ^ 2) :
    ∃ θ z, 0 ≤ z ∧ z ≤ c.length ∧
      Within (1 / 10 ^ 16) (c.lateralSurface.to3d ⟨θ, z⟩) (c.frame.origin + V3.smul t c.frame.basis.w + r) := by
  obtain ⟨⟨o, u, v, w⟩, R, L⟩ := c
  obtain ⟨q, hq, -⟩ := globalToLocal_flush ⟨⟨0, 0, 0⟩, ⟨u, v, w⟩⟩ (orthonormal_invertible ho) r
  obtain ⟨h1, h2, h3, h4, h5, h6⟩ := ho
  dsimp only [V3.dot] at *
  rw [abs_le] at ht
  unfold pt at hq
  have hx := congrArg V3.x hq
  have hy := congrArg V3.y hq
  have hz := congrArg V3.z hq
  simp only [V3.add_x, V3.add_y, V3.add_z, V3.smul_x, V3.smul_y, V3.smul_z, zero_add] at hx hy hz
  have q0 : q.z = 0 := by
    rw [hx, hy, hz] at hr
    linear_combination hr - q.x * h5 - q.y * h6 - q.z * h3
  rw [q0] at hx hy hz
  have qq : q.x ^ 2 + q.y ^ 2 = R ^ 2 := by
    rw [hx, hy, hz] at hrr
    linear_combination hrr - q.x ^ 2 * h1 - q.y ^ 2 * h2 - 2 * q.x * q.y * h4
  obtain ⟨θ, e1, e2⟩ : ∃ θ, q.x = R * cos θ ∧ q.y = R * sin θ := by
    refine ⟨Complex.arg ⟨q.x, q.y⟩, ?_, ?_⟩
    · have hn : ‖(⟨q.x, q.y⟩ : ℂ)‖ = R := by
        rw [Complex.norm_def, Complex.normSq_mk, ← pow_two, ← pow_two, qq, sqrt_sq hR.le]
      have hne : (⟨q.x, q.y⟩ : ℂ) ≠ 0 := by intro h; rw [h, norm_zero] at hn; exact hR.ne hn
      rw [Complex.cos_arg hne, hn]; field_simp
    · have hn : ‖(⟨q.x, q.y⟩ : ℂ)‖ = R := by
        rw [Complex.norm_def, Complex.normSq_mk, ← pow_two, ← pow_two, qq, sqrt_sq hR.le]
      rw [Complex.sin_arg, hn]; field_simp
  refine ⟨θ, t + L / 2, by linarith, by linarith, ?_⟩
  have := localToGlobal_within (Cyl.lateralSurface ⟨⟨o, u, v, w⟩, R, L⟩).frame ⟨R * cos θ, R * sin θ, t + L / 2⟩
  unfold Cylinder.to3d
  refine within_of_eq this ?_
  unfold pt Cyl.lateralSurface frameTranslation
  rw [← e1, ← e2]
  ext <;> simp <;> linarith

/-- C80: every point of the side face of a cone (`0 ≤ z ≤ length`) lies, up to 1e-16, on the boundary of the cone: its
distance to the axis is `radius` at the base and decreases linearly to zero at the apex. -/
theorem C80_cone_side (c : ConeSolid) (ho : Orthonormal3 c.frame.basis) (hL : 0 < c.length) (θ z : ℝ) (hz0 : 0 ≤ z)
    (hz1 : z ≤ c.length) :
    ∃ (t : ℝ) (r : V3 ℝ), |t| ≤ c.length / 2 ∧ V3.dot r c.frame.basis.w = 0 ∧
      V3.dot r r = (c.radius * ((c.length / 2 - t) / c.length)) ^ 2 ∧
      Within (1 / 10 ^ 16) (c.lateralSurface.to3d ⟨θ, z⟩) (c.frame.origin + V3.smul t c.frame.basis.w + r) := by
  obtain ⟨⟨o, u, v, w⟩, R, L⟩ := c
  obtain ⟨h1, h2, h3, h4, h5, h6⟩ := ho
  dsimp only [V3.dot] at *
  have ht : tan (arctan (R / L)) = R / L := tan_arctan _
  refine ⟨L / 2 - z, V3.smul (R / L * z * cos θ) u + V3.smul (R / L * z * sin θ) v, ?_, ?_, ?_, ?_⟩
  · rw [abs_le]; constructor <;> linarith
  · simp only [V3.add_x, V3.add_y, V3.add_z, V3.smul_x, V3.smul_y, V3.smul_z]
    linear_combination (R / L * z) * cos θ * h5 + (R / L * z) * sin θ * h6
  · have := sin_sq_add_cos_sq θ
    simp only [V3.add_x, V3.add_y, V3.add_z, V3.smul_x, V3.smul_y, V3.smul_z]
    rw [show R * ((L / 2 - (L / 2 - z)) / L) = R / L * z by ring]
    generalize R / L * z = ρ
    linear_combination ρ ^ 2 * cos θ ^ 2 * h1 + ρ ^ 2 * sin θ ^ 2 * h2 + 2 * ρ ^ 2 * cos θ * sin θ * h4 + ρ ^ 2 * this
  · have := localToGlobal_within (ConeSolid.lateralSurface ⟨⟨o, u, v, w⟩, R, L⟩).frame
      ⟨R / L * z * cos θ, R / L * z * sin θ, z⟩
    unfold Cone.to3d
    rw [show (ConeSolid.lateralSurface ⟨⟨o, u, v, w⟩, R, L⟩).semiAngle = arctan (R / L) from rfl, ht]
    dsimp only
    refine within_of_eq this ?_
    unfold pt ConeSolid.lateralSurface frameTranslation
    ext <;> simp <;> ring

/-! ## C81: membership -/

/-- The local frame used by the membership test: same origin, axis along the axis of the cylinder. -/
theorem local_frame (o w : V3 ℝ) (hw : V3.dot w w = 1) :
    ∃ f, Frame3.fromPointAndVector o w ⟨0, 0, 1⟩ = .ok f ∧ f.origin = o ∧ Orthonormal3 f.basis ∧ f.basis.w = w := by
  have hw0 : w ≠ ⟨0, 0, 0⟩ := by intro h; rw [h] at hw; norm_num [V3.dot] at hw
  obtain ⟨f, hf, h1, h2, ⟨k, hk, h3⟩, -⟩ := (C63_fromPointAndVector_partial o w ⟨0, 0, 1⟩).2 (by simp) hw0
  rw [if_neg (by intro h; simpa using congrArg V3.x h), if_neg (by intro h; simpa using congrArg V3.y h)] at h3
  refine ⟨f, hf, h1, h2, ?_⟩
  have hk1 : k = 1 := by
    have e : V3.dot w w = k ^ 2 * V3.dot f.basis.w f.basis.w := by
      rw [h3]; simp only [V3.dot, V3.smul_x, V3.smul_y, V3.smul_z]; ring
    rw [hw, h2.2.2.1, mul_one] at e
    nlinarith
  rw [h3, hk1]; ext <;> simp

/-- C81: `point_belongs` never fails on a cylinder with a unit axis; it accepts every point of the cylinder, and a point it
accepts is in the cylinder enlarged by 1e-15 (coordinates below 1e-16 are flushed to zero before the test). -/
theorem C81_pointBelongs (c : Cyl) (hw : V3.dot c.frame.basis.w c.frame.basis.w = 1) (hR : 0 ≤ c.radius) (p : V3 ℝ) :
    ∃ b, c.pointBelongs p = .ok b ∧
      (InCyl c.frame.origin c.frame.basis.w c.radius c.length p → b = true) ∧
      (b = true → InCyl c.frame.origin c.frame.basis.w (c.radius + 2 / 10 ^ 16) (c.length + 2 / 10 ^ 16) p) := by
  obtain ⟨f, hf, h1, ho, h2⟩ := local_frame c.frame.origin c.frame.basis.w hw
  obtain ⟨q, hq, hg⟩ := globalToLocal_flush f (orthonormal_invertible ho) p
  refine ⟨_, by unfold Cyl.pointBelongs; rw [hf]; simp only [bind, Except.bind]; rw [hg]; rfl, ?_, ?_⟩
  · rw [← h1, ← h2, hq, inCyl_coord f ho]
    rintro ⟨a, b⟩
    dsimp only
    have fx := flush_sq_le q.x
    have fy := flush_sq_le q.y
    have fz := flush_abs_le q.z
    have := abs_le.mp (fz.trans b)
    simp only [Bool.and_eq_true, decide_eq_true_eq]
    refine ⟨⟨?_, by linarith [this.1]⟩, this.2⟩
    rw [sqrt_le_left hR]; linarith
  · rw [← h1, ← h2, hq, inCyl_coord f ho]
    simp only [Bool.and_eq_true, decide_eq_true_eq]
    rintro ⟨⟨a, b⟩, d⟩
    have hl := hypot_lip (flush q.x) (flush q.y) q.x q.y
    have fx := flush_dist q.x
    have fy := flush_dist q.y
    have fz := flush_dist q.z
    rw [abs_le] at hl fz
    constructor
    · have : √(q.x ^ 2 + q.y ^ 2) ≤ c.radius + 2 / 10 ^ 16 := by
        have : (2 : ℝ) / 10 ^ 16 = 1 / 10 ^ 16 + 1 / 10 ^ 16 := by norm_num
        linarith [hl.1]
      have h0 : 0 ≤ q.x ^ 2 + q.y ^ 2 := by positivity
      calc q.x ^ 2 + q.y ^ 2 = √(q.x ^ 2 + q.y ^ 2) ^ 2 := (sq_sqrt h0).symm
        _ ≤ _ := pow_le_pow_left₀ (sqrt_nonneg _) this 2
    · rw [abs_le]
      have : ((2 : ℝ) / 10 ^ 16) / 2 = 1 / 10 ^ 16 := by norm_num
      constructor <;> linarith [fz.1, fz.2]

/-- C81: the points drawn inside the cylinder (whatever the random numbers in their ranges) are in the cylinder enlarged by
1e-16 in each coordinate: within 1e-16 of a point of the cylinder. -/
theorem C81_samplePoint (c : Cyl) (hw : V3.dot c.frame.basis.w c.frame.basis.w = 1) (r2 θ z : ℝ)
    (h0 : 0 ≤ r2) (h1 : r2 ≤ 1) (hz0 : -c.length / 2 ≤ z) (hz1 : z ≤ c.length / 2) :
    ∃ p p', c.samplePoint r2 θ z = .ok p ∧ Within (1 / 10 ^ 16) p p' ∧
      InCyl c.frame.origin c.frame.basis.w c.radius c.length p' := by
  obtain ⟨f, hf, e1, ho, e2⟩ := local_frame c.frame.origin c.frame.basis.w hw
  refine ⟨_, _, by unfold Cyl.samplePoint; rw [hf]; rfl, localToGlobal_within f _, ?_⟩
  rw [← e1, ← e2, inCyl_coord f ho]
  dsimp only
  refine ⟨?_, abs_le.mpr ⟨by linarith, hz1⟩⟩
  have hs := sq_sqrt h0
  have := sin_sq_add_cos_sq θ
  have e : (√r2 * c.radius * cos θ) ^ 2 + (√r2 * c.radius * sin θ) ^ 2 = r2 * c.radius ^ 2 := by
    linear_combination √r2 ^ 2 * c.radius ^ 2 * this + c.radius ^ 2 * hs
  rw [e]; nlinarith [sq_nonneg c.radius]

/-- C81: translating a cylinder translates its points. -/
theorem C81_translation (c : Cyl) (d p : V3 ℝ) :
    InCyl (c.translation d).frame.origin (c.translation d).frame.basis.w (c.translation d).radius (c.translation d).length
      (p + d) ↔ InCyl c.frame.origin c.frame.basis.w c.radius c.length p := by
  unfold InCyl Cyl.translation frameTranslation
  dsimp only
  constructor <;> rintro ⟨t, r, h1, h2, h3, h4⟩ <;> refine ⟨t, r, h1, h2, h3, ?_⟩
  · have hx := congrArg V3.x h4
    have hy := congrArg V3.y h4
    have hz := congrArg V3.z h4
    simp only [V3.add_x, V3.add_y, V3.add_z, V3.smul_x, V3.smul_y, V3.smul_z] at hx hy hz
    ext <;> simp <;> linarith
  · rw [h4]; ext <;> simp <;> ring

theorem rotation_affine (o c a r w : V3 ℝ) (t θ : ℝ) :
    V3.rotation (o + V3.smul t w + r) c a θ = V3.rotation o c a θ + V3.smul t (V3.rotation w ⟨0, 0, 0⟩ a θ) +
      V3.rotation r ⟨0, 0, 0⟩ a θ := by
  unfold V3.rotation V3.rotationCS
  ext <;> simp [V3.dot, V3.cross] <;> ring

/-- C81: rotating a cylinder about a unit axis rotates its points (up to the shift `d`, which is zero unless the centre of
rotation is within 1e-6 of the position without being equal to it). -/
theorem C81_rotation (c : Cyl) (center axis : V3 ℝ) (angle : ℝ) (ha : V3.dot axis axis = 1) :
    ∃ d : V3 ℝ, (center = c.frame.origin ∨ ¬ Arc.isClose3 center c.frame.origin (1 / 10 ^ 6) → d = ⟨0, 0, 0⟩) ∧
      ∀ p, InCyl c.frame.origin c.frame.basis.w c.radius c.length p →
        InCyl (c.rotation center axis angle).frame.origin (c.rotation center axis angle).frame.basis.w
          (c.rotation center axis angle).radius (c.rotation center axis angle).length
          (V3.rotation p center axis angle + d) := by
  obtain ⟨d, h1, h2, -⟩ := C79_rotation c.frame center axis angle ha
  refine ⟨d, h1, ?_⟩
  rintro p ⟨t, r, k1, k2, k3, rfl⟩
  refine ⟨t, V3.rotation r ⟨0, 0, 0⟩ axis angle, k1, ?_, ?_, ?_⟩
  · have hb : (c.rotation center axis angle).frame.basis.w = V3.rotation c.frame.basis.w ⟨0, 0, 0⟩ axis angle := by
      unfold Cyl.rotation frameRotation; split <;> rfl
    rw [hb, V3.rotation_dot _ _ _ _ ha, k2]
  · rw [V3.rotation_dot _ _ _ _ ha]; exact k3
  · have hb : (c.rotation center axis angle).frame.basis.w = V3.rotation c.frame.basis.w ⟨0, 0, 0⟩ axis angle := by
      unfold Cyl.rotation frameRotation; split <;> rfl
    rw [rotation_affine, hb, h2]
    unfold Cyl.rotation
    ext <;> simp <;> ring

/-! ## Interference volume -/

theorem mapM_ok_length {α β : Type*} {f : α → Except PyErr β} {l : List α} {m : List β} (h : l.mapM f = .ok m) :
    m.length = l.length := by
  induction l generalizing m with
  | nil => simp only [List.mapM_nil, pure, Except.pure, Except.ok.injEq] at h; subst h; rfl
  | cons a l ih =>
    rw [List.mapM_cons] at h
    rcases ha : f a with e | b
    · rw [ha] at h; cases h
    · rw [ha] at h
      rcases hl : l.mapM f with e | m'
      · rw [hl] at h; cases h
      · rw [hl] at h
        simp only [bind, Except.bind, pure, Except.pure, Except.ok.injEq] at h
        subst h
        simp [ih hl]

theorem mapM_ok_exists {α β : Type*} {f : α → Except PyErr β} {l : List α} (h : ∀ a ∈ l, ∃ b, f a = .ok b) :
    ∃ m, l.mapM f = .ok m := by
  induction l with
  | nil => exact ⟨[], rfl⟩
  | cons a l ih =>
    obtain ⟨b, hb⟩ := h a (by simp)
    obtain ⟨m, hm⟩ := ih fun a ha => h a (by simp [ha])
    exact ⟨b :: m, by rw [List.mapM_cons, hb, hm]; rfl⟩

/-- C81: the estimate of the interference volume of two cylinders, whatever the sampling (of `n > 0` points), is between zero
and the smaller of the two volumes. -/
theorem C81_interference (a b : Cyl) (ha : V3.dot a.frame.basis.w a.frame.basis.w = 1)
    (hb : V3.dot b.frame.basis.w b.frame.basis.w = 1) (hRa : 0 ≤ a.radius) (hRb : 0 ≤ b.radius) (hLa : 0 ≤ a.length)
    (hLb : 0 ≤ b.length) (pts : Cyl → List (V3 ℝ)) (n : ℕ) (hn : 0 < n) (hp : ∀ c, (pts c).length = n) :
    ∃ v, interferenceVolume a b pts n = .ok v ∧ 0 ≤ v ∧ v ≤ min a.volume b.volume := by
  have hv : ∀ c : Cyl, 0 ≤ c.length → 0 ≤ c.volume := by
    intro c h; unfold Cyl.volume; have := pi_pos; positivity
  have key : ∀ s o : Cyl, V3.dot o.frame.basis.w o.frame.basis.w = 1 → 0 ≤ o.radius → 0 ≤ s.length →
      ∃ fl, (pts s).mapM o.pointBelongs = .ok fl ∧ 0 ≤ ((fl.filter id).length : ℝ) / n * s.volume ∧
        ((fl.filter id).length : ℝ) / n * s.volume ≤ s.volume := by
    intro s o h1 h2 h3
    obtain ⟨fl, hfl⟩ := mapM_ok_exists (l := pts s) (f := o.pointBelongs) fun p _ => by
      obtain ⟨b, hb, -⟩ := C81_pointBelongs o h1 h2 p; exact ⟨b, hb⟩
    refine ⟨fl, hfl, ?_, ?_⟩
    · have := hv s h3; positivity
    · have hl := mapM_ok_length hfl
      have h4 : (fl.filter id).length ≤ n := by rw [← hp s, ← hl]; exact List.length_filter_le _ _
      have h5 : ((fl.filter id).length : ℝ) / n ≤ 1 := by
        rw [div_le_one (by exact_mod_cast hn)]; exact_mod_cast h4
      nlinarith [hv s h3]
  unfold interferenceVolume
  by_cases h : a.volume < b.volume
  · rw [if_pos h, if_pos h]
    obtain ⟨fl, h1, h2, h3⟩ := key a b hb hRb hLa
    dsimp only
    refine ⟨_, by rw [h1]; rfl, h2, ?_⟩
    rw [min_eq_left h.le]; exact h3
  · rw [if_neg h, if_neg h]
    obtain ⟨fl, h1, h2, h3⟩ := key b a ha hRa hLb
    dsimp only
    refine ⟨_, by rw [h1]; rfl, h2, ?_⟩
    rw [min_eq_right (not_lt.mp h)]; exact h3

end Volmdlr.Solid
