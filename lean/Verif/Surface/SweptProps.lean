import Verif.Surface.SweptModel
import Verif.Surface.Props
import Verif.Intersect.LineProps
import Verif.Segment.Props

/-!
# C156-C158: surfaces of revolution and of extrusion
-/

namespace Volmdlr.Surface

open Volmdlr.Angle Volmdlr.Intersect Real

/-! ## Rotations in a frame -/

theorem DirectOrthonormal.ortho {b : Basis3 ℝ} (h : DirectOrthonormal b) : Orthonormal3 b :=
  ⟨h.1, h.2.1, h.2.2.1, h.2.2.2.1, h.2.2.2.2.1, h.2.2.2.2.2.1⟩

theorem cross_unique (a b c : V3 ℝ) (ha : V3.dot a a = 1) (hb : V3.dot b b = 1) (hc : V3.dot c c = 1) (hab : V3.dot a b = 0)
    (habc : V3.dot (V3.cross a b) c = 1) : V3.cross a b = c := by
  have hn : V3.dot (V3.cross a b) (V3.cross a b) = 1 := by
    have : V3.dot (V3.cross a b) (V3.cross a b) = V3.dot a a * V3.dot b b - V3.dot a b ^ 2 := by simp only [V3.dot, V3.cross]; ring
    rw [this, ha, hb, hab]; norm_num
  have hz : V3.dot (V3.cross a b - c) (V3.cross a b - c) = 0 := by
    have : V3.dot (V3.cross a b - c) (V3.cross a b - c) = V3.dot (V3.cross a b) (V3.cross a b) - 2 * V3.dot (V3.cross a b) c + V3.dot c c := by
      simp only [V3.dot, V3.sub_x, V3.sub_y, V3.sub_z]; ring
    rw [this, hn, habc, hc]; norm_num
  symm
  rw [← V3.sub_eq_zero_iff, ← V3.norm_eq_zero_iff, ← pow_eq_zero_iff two_ne_zero, V3.norm_pow_two, hz]

/-- In a direct orthonormal basis `w × u = v` and `w × v = -u`. -/
theorem direct_cross {b : Basis3 ℝ} (h : DirectOrthonormal b) : V3.cross b.w b.u = b.v ∧ V3.cross b.w b.v = -b.u := by
  obtain ⟨h1, h2, h3, h4, h5, h6, h7⟩ := h
  have c : ∀ u v : V3 ℝ, V3.dot u v = V3.dot v u := by intro u v; simp only [V3.dot]; ring
  constructor
  · refine cross_unique _ _ _ h3 h1 h2 ((c _ _).trans h5) (Eq.trans ?_ h7)
    simp only [V3.dot, V3.cross]; ring
  · refine cross_unique _ _ _ h3 h2 (Eq.trans ?_ h1) ((c _ _).trans h6) (Eq.trans ?_ h7)
    · simp only [V3.dot, V3.neg_x, V3.neg_y, V3.neg_z]; ring
    · simp only [V3.dot, V3.cross, V3.neg_x, V3.neg_y, V3.neg_z]; ring

/-- The rotation about the third axis of a direct orthonormal frame, in coordinates. -/
theorem rotation_pt {f : Frame3 ℝ} (h : DirectOrthonormal f.basis) (q : V3 ℝ) (t : ℝ) :
    V3.rotation (pt f q) f.origin f.basis.w t = pt f ⟨q.x * cos t - q.y * sin t, q.x * sin t + q.y * cos t, q.z⟩ := by
  obtain ⟨hu, hv⟩ := direct_cross h
  obtain ⟨h1, h2, h3, h4, h5, h6, h7⟩ := h
  have ux := congrArg V3.x hu
  have uy := congrArg V3.y hu
  have uz := congrArg V3.z hu
  have vx := congrArg V3.x hv
  have vy := congrArg V3.y hv
  have vz := congrArg V3.z hv
  simp only [V3.cross, V3.neg_x, V3.neg_y, V3.neg_z] at ux uy uz vx vy vz
  simp only [V3.dot] at h3 h5 h6
  unfold V3.rotation V3.rotationCS pt V3.dot V3.cross
  generalize cos t = c
  generalize sin t = s
  have hd : (q.x * f.basis.u.x + q.y * f.basis.v.x + q.z * f.basis.w.x) * f.basis.w.x + (q.x * f.basis.u.y + q.y * f.basis.v.y + q.z * f.basis.w.y) * f.basis.w.y
      + (q.x * f.basis.u.z + q.y * f.basis.v.z + q.z * f.basis.w.z) * f.basis.w.z = q.z := by
    linear_combination q.x * h5 + q.y * h6 + q.z * h3
  ext <;> simp only [V3.sub_x, V3.sub_y, V3.sub_z, V3.smul_x, V3.smul_y, V3.smul_z, V3.add_x, V3.add_y, V3.add_z]
  · linear_combination (1 - c) * f.basis.w.x * hd + s * q.x * ux + s * q.y * vx
  · linear_combination (1 - c) * f.basis.w.y * hd + s * q.x * uy + s * q.y * vy
  · linear_combination (1 - c) * f.basis.w.z * hd + s * q.x * uz + s * q.y * vz

/-- Every point has coordinates in an orthonormal frame. -/
theorem exists_pt {f : Frame3 ℝ} (ho : Orthonormal3 f.basis) (p : V3 ℝ) : ∃ q, p = pt f q := by
  obtain ⟨q, r, h, -⟩ := globalToLocal_spec ho p p ⟨by simp, by simp, by simp⟩
  exact ⟨q, h⟩

theorem dist_pt {f : Frame3 ℝ} (ho : Orthonormal3 f.basis) (q r : V3 ℝ) : V3.pointDistance (pt f q) (pt f r) = V3.pointDistance q r := by
  obtain ⟨h1, h2, h3, h4, h5, h6⟩ := ho
  simp only [V3.dot] at h1 h2 h3 h4 h5 h6
  unfold V3.pointDistance V3.norm pt
  congr 1
  simp only [V3.sub_x, V3.sub_y, V3.sub_z, V3.add_x, V3.add_y, V3.add_z, V3.smul_x, V3.smul_y, V3.smul_z]
  linear_combination (q.x-r.x)^2 * h1 + (q.y-r.y)^2 * h2 + (q.z-r.z)^2 * h3 + 2 * (q.x-r.x) * (q.y-r.y) * h4 + 2 * (q.x-r.x) * (q.z-r.z) * h5 + 2 * (q.y-r.y) * (q.z-r.z) * h6

theorem dist_le_sum (q r : V3 ℝ) : V3.pointDistance q r ≤ |q.x - r.x| + |q.y - r.y| + |q.z - r.z| := by
  unfold V3.pointDistance V3.norm
  apply Real.sqrt_le_iff.mpr
  refine ⟨by positivity, ?_⟩
  simp only [V3.sub_x, V3.sub_y, V3.sub_z]
  have a := abs_nonneg (q.x - r.x)
  have b := abs_nonneg (q.y - r.y)
  have c := abs_nonneg (q.z - r.z)
  rw [← abs_mul_abs_self (q.x - r.x), ← abs_mul_abs_self (q.y - r.y), ← abs_mul_abs_self (q.z - r.z)]
  nlinarith [mul_nonneg a b, mul_nonneg a c, mul_nonneg b c]

theorem norm_one_of_dot {u : V3 ℝ} (h : V3.dot u u = 1) : V3.norm u = 1 := by
  unfold V3.norm
  unfold V3.dot at h
  rw [h, Real.sqrt_one]

/-- What `point2d_to_3d` computes is the rotation of the point of the generatrix. -/
theorem to3d_rotation (s : Revolution) (p : V2 ℝ) :
    s.to3d p = (s.edge.pointAt p.y).map fun c => V3.rotation c s.axisPoint s.axis p.x := by
  unfold Revolution.to3d
  congr 1
  funext c
  unfold V3.rotation V3.rotationCS
  ext <;> simp <;> ring

/-! ## C156: construction -/

/-- The surface has the shape the constructor gives it: a direct orthonormal frame at a point of the axis, the third vector along it. -/
structure Revolution.Valid (s : Revolution) : Prop where
  direct : DirectOrthonormal s.frame.basis
  origin : s.frame.origin = s.axisPoint
  axis : s.frame.basis.w = s.axis

theorem Revolution.Valid.norm {s : Revolution} (h : s.Valid) : V3.norm s.axis = 1 := by
  rw [← h.axis]; exact norm_one_of_dot h.direct.2.2.1

theorem new_spec {e : Generatrix} {o a : V3 ℝ} {s : Revolution} (h : Revolution.new e o a = some s) :
    ∃ w c u k, V3.unitVector a = some w ∧ referencePoint e o w = some c ∧ 0 < k ∧ V3.dot u u = 1 ∧ V3.dot u w = 0 ∧ V3.dot w w = 1 ∧
      c - o = V3.smul k u + V3.smul (V3.dot (c - o) w) w ∧ s = ⟨e, o, w, ⟨o, ⟨u, V3.cross w u, w⟩⟩⟩ := by
  unfold Revolution.new at h
  rw [Option.bind_eq_some_iff] at h
  obtain ⟨w, hw, h⟩ := h
  rw [Option.bind_eq_some_iff] at h
  obtain ⟨c, hc, h⟩ := h
  dsimp only at h
  rw [Option.bind_eq_some_iff] at h
  obtain ⟨pr, hpr, h⟩ := h
  rw [Option.map_eq_some_iff] at h
  obtain ⟨u, hu, h⟩ := h
  obtain ⟨-, -, hww⟩ := V3.unitVector_spec hw
  obtain ⟨hk, hue, huu⟩ := V3.unitVector_spec hu
  unfold vectorProjection at hpr
  rw [if_neg (by rw [hww]; norm_num), hww, div_one] at hpr
  have hpr := Option.some.inj hpr
  subst hpr
  refine ⟨w, c, u, _, hw, hc, hk, huu, ?_, hww, ?_, h.symm⟩
  · have e1 : V3.dot (c - o - V3.smul (V3.dot (c - o) w) w) w = 0 := by
      have : V3.dot (c - o - V3.smul (V3.dot (c - o) w) w) w = V3.dot (c - o) w - V3.dot (c - o) w * V3.dot w w := by
        simp only [V3.dot, V3.sub_x, V3.sub_y, V3.sub_z, V3.smul_x, V3.smul_y, V3.smul_z]; ring
      rw [this, hww]; ring
    rw [hue] at e1
    have : V3.dot (V3.smul (V3.norm (c - o - V3.smul (V3.dot (c - o) w) w)) u) w
        = V3.norm (c - o - V3.smul (V3.dot (c - o) w) w) * V3.dot u w := by
      simp only [V3.dot, V3.smul_x, V3.smul_y, V3.smul_z]; ring
    rw [this] at e1
    exact (mul_eq_zero.mp e1).resolve_left hk.ne'
  · rw [← hue]; ext <;> simp

/-- C156: `RevolutionSurface3D(edge, axis_point, axis)` keeps the edge and the point, its axis is the unit vector along the given axis,
and its frame is a direct orthonormal frame at the point, of third vector the axis, in whose half plane `y = 0, x > 0` a point of the
generatrix lies. -/
theorem C156_frame {e : Generatrix} {o a : V3 ℝ} {s : Revolution} (h : Revolution.new e o a = some s) :
    s.edge = e ∧ s.axisPoint = o ∧ s.frame.origin = o ∧ s.frame.basis.w = s.axis ∧ DirectOrthonormal s.frame.basis ∧
    (∃ k, 0 < k ∧ a = V3.smul k s.axis) ∧
    ∃ v c x z, (v = 0 ∨ v = e.secondAbscissa) ∧ e.pointAt v = some c ∧ 0 < x ∧ c = s.frame.origin + V3.smul x s.frame.basis.u + V3.smul z s.frame.basis.w := by
  obtain ⟨w, c, u, k, hw, hc, hk, huu, huw, hww, hce, rfl⟩ := new_spec h
  obtain ⟨hwp, hwe, -⟩ := V3.unitVector_spec hw
  refine ⟨rfl, rfl, rfl, rfl, ?_, ⟨_, hwp, hwe⟩, ?_⟩
  · simp only [DirectOrthonormal, V3.dot, V3.cross] at *
    refine ⟨huu, ?_, hww, ?_, huw, ?_, ?_⟩
    · linear_combination (w.x * w.x + w.y * w.y + w.z * w.z) * huu + hww - (u.x * w.x + u.y * w.y + u.z * w.z) * huw
    · ring
    · ring
    · linear_combination (w.x * w.x + w.y * w.y + w.z * w.z) * huu + hww - (u.x * w.x + u.y * w.y + u.z * w.z) * huw
  · have hx : ∃ v, (v = 0 ∨ v = e.secondAbscissa) ∧ e.pointAt v = some c := by
      unfold referencePoint at hc
      rw [Option.bind_eq_some_iff] at hc
      obtain ⟨p, hp, hc⟩ := hc
      split_ifs at hc
      · exact ⟨_, .inr rfl, hc⟩
      · exact ⟨0, .inl rfl, by rw [hp, hc]⟩
    obtain ⟨v, hv0, hv⟩ := hx
    refine ⟨v, c, k, V3.dot (c - o) w, hv0, hv, hk, ?_⟩
    generalize V3.dot (c - o) w = t at *
    have ex := congrArg V3.x hce
    have ey := congrArg V3.y hce
    have ez := congrArg V3.z hce
    simp only [V3.sub_x, V3.sub_y, V3.sub_z, V3.smul_x, V3.smul_y, V3.smul_z, V3.add_x, V3.add_y, V3.add_z] at ex ey ez
    ext <;> simp only [V3.smul_x, V3.smul_y, V3.smul_z, V3.add_x, V3.add_y, V3.add_z] <;> linarith

theorem new_valid {e : Generatrix} {o a : V3 ℝ} {s : Revolution} (h : Revolution.new e o a = some s) : s.Valid := by
  obtain ⟨-, h2, h3, h4, h5, -⟩ := C156_frame h
  exact ⟨h5, h3.trans h2.symm, h4⟩

/-- C156: the constructor succeeds when the axis is not null and both reference points of the generatrix (its start, and its middle or,
on a line, the point of abscissa 0.05) are off the axis. -/
theorem C156_total (e : Generatrix) (o a p q : V3 ℝ) (ha : a ≠ ⟨0, 0, 0⟩) (hp : e.pointAt 0 = some p) (hq : e.pointAt e.secondAbscissa = some q)
    (h1 : V3.cross a (p - o) ≠ ⟨0, 0, 0⟩) (h2 : V3.cross a (q - o) ≠ ⟨0, 0, 0⟩) : ∃ s, Revolution.new e o a = some s := by
  obtain ⟨w, hw⟩ := V3.unitVector_some ha
  obtain ⟨hN, hwe, hww⟩ := V3.unitVector_spec hw
  have hr : ∃ c, referencePoint e o w = some c ∧ V3.cross a (c - o) ≠ ⟨0, 0, 0⟩ := by
    unfold referencePoint
    rw [hp, Option.bind_some]
    split_ifs
    · exact ⟨q, hq, h2⟩
    · exact ⟨p, rfl, h1⟩
  obtain ⟨c, hc, hcr⟩ := hr
  have hne : c - o - V3.smul (V3.dot (c - o) w / V3.dot w w) w ≠ ⟨0, 0, 0⟩ := by
    intro h0
    apply hcr
    have ex := congrArg V3.x h0
    have ey := congrArg V3.y h0
    have ez := congrArg V3.z h0
    generalize V3.dot (c - o) w / V3.dot w w = t at *
    simp only [V3.sub_x, V3.sub_y, V3.sub_z, V3.smul_x, V3.smul_y, V3.smul_z] at ex ey ez
    rw [hwe]
    generalize V3.norm a = N
    ext <;> simp only [V3.cross, V3.sub_x, V3.sub_y, V3.sub_z, V3.smul_x, V3.smul_y, V3.smul_z]
    · linear_combination N * w.y * ez - N * w.z * ey
    · linear_combination N * w.z * ex - N * w.x * ez
    · linear_combination N * w.x * ey - N * w.y * ex
  obtain ⟨u, hu⟩ := V3.unitVector_some hne
  refine ⟨⟨e, o, w, ⟨o, ⟨u, V3.cross w u, w⟩⟩⟩, ?_⟩
  unfold Revolution.new
  rw [hw, Option.bind_some, hc, Option.bind_some]
  dsimp only
  unfold vectorProjection
  rw [if_neg (by rw [hww]; norm_num), Option.bind_some, hu, Option.map_some]

/-! ## C156: the set of points -/

/-- C156: `point2d_to_3d(0, v)` is the point of abscissa `v` of the generatrix; the parameter `u` turns it about the axis: two points of
one parallel differ by the rotation (`Vector3D.rotation`, see C01) of the difference of their parameters, and `2π` is a period. -/
theorem C156_rotates {s : Revolution} (hs : s.Valid) (u v : ℝ) (c : V3 ℝ) (hc : s.edge.pointAt v = some c) :
    s.to3d ⟨0, v⟩ = some c ∧ (∀ d, ∃ p, s.to3d ⟨u, v⟩ = some p ∧ s.to3d ⟨u + d, v⟩ = some (V3.rotation p s.axisPoint s.axis d)) ∧
    ∀ n : ℤ, s.to3d ⟨u + n * (2 * π), v⟩ = s.to3d ⟨u, v⟩ := by
  simp only [to3d_rotation, hc, Option.map_some]
  refine ⟨?_, ?_, ?_⟩
  · have := C01_rotation3d_full_turn c s.axisPoint s.axis 0
    simp only [Int.cast_zero, zero_mul] at this
    rw [this]
  · intro d
    exact ⟨_, rfl, by rw [C01_rotation3d_add _ _ _ _ _ hs.norm]⟩
  · intro n
    unfold V3.rotation
    rw [cos_add_int_mul_two_pi, sin_add_int_mul_two_pi]

/-- C156: the points of the surface are exactly the points at the same height along the axis and at the same distance of the axis point
(hence of the axis) as some point of the generatrix. -/
theorem C156_points {s : Revolution} (hs : s.Valid) (p : V3 ℝ) :
    (∃ u v, s.to3d ⟨u, v⟩ = some p) ↔
      ∃ v c, s.edge.pointAt v = some c ∧ V3.dot (p - s.axisPoint) s.axis = V3.dot (c - s.axisPoint) s.axis ∧
        V3.pointDistance p s.axisPoint = V3.pointDistance c s.axisPoint := by
  have ho := DirectOrthonormal.ortho hs.direct
  have hd : ∀ a b : V3 ℝ, V3.pointDistance a s.axisPoint = V3.pointDistance b s.axisPoint ↔ sqDist s.frame a = sqDist s.frame b := by
    intro a b
    unfold V3.pointDistance sqDist V3.norm
    rw [Real.sqrt_inj (by nlinarith [mul_self_nonneg (a - s.axisPoint).x, mul_self_nonneg (a - s.axisPoint).y, mul_self_nonneg (a - s.axisPoint).z])
      (by nlinarith [mul_self_nonneg (b - s.axisPoint).x, mul_self_nonneg (b - s.axisPoint).y, mul_self_nonneg (b - s.axisPoint).z]), hs.origin]
    unfold V3.sqNorm
    exact Iff.rfl
  have hh : ∀ a : V3 ℝ, V3.dot (a - s.axisPoint) s.axis = height s.frame a := by
    intro a; unfold height; rw [hs.origin, hs.axis]
  simp only [hd, hh, to3d_rotation, Option.map_eq_some_iff]
  rw [← hs.origin, ← hs.axis]
  constructor
  · rintro ⟨u, v, c, hc, rfl⟩
    obtain ⟨q, rfl⟩ := exists_pt ho c
    refine ⟨v, _, hc, ?_, ?_⟩
    · rw [rotation_pt hs.direct, height_pt ho, height_pt ho]
    · rw [rotation_pt hs.direct, sqDist_pt ho, sqDist_pt ho]
      linear_combination (q.x ^ 2 + q.y ^ 2) * sin_sq_add_cos_sq u
  · rintro ⟨v, c, hc, h1, h2⟩
    obtain ⟨q, rfl⟩ := exists_pt ho c
    obtain ⟨r, rfl⟩ := exists_pt ho p
    rw [height_pt ho, height_pt ho] at h1
    rw [sqDist_pt ho, sqDist_pt ho, h1] at h2
    have h2 : r.x ^ 2 + r.y ^ 2 = q.x ^ 2 + q.y ^ 2 := by linarith
    obtain ⟨a1, a2⟩ := polar r.x r.y
    obtain ⟨b1, b2⟩ := polar q.x q.y
    rw [h2] at a1 a2
    refine ⟨atan2 r.y r.x - atan2 q.y q.x, v, _, hc, ?_⟩
    rw [rotation_pt hs.direct]
    generalize atan2 r.y r.x = A at *
    generalize atan2 q.y q.x = B at *
    have hB := sin_sq_add_cos_sq B
    congr 1
    ext
    · dsimp only; rw [cos_sub, sin_sub, ← a1]
      generalize √(q.x ^ 2 + q.y ^ 2) = R at *
      rw [← b1, ← b2]
      linear_combination R * cos A * hB
    · dsimp only; rw [cos_sub, sin_sub, ← a2]
      generalize √(q.x ^ 2 + q.y ^ 2) = R at *
      rw [← b1, ← b2]
      linear_combination R * sin A * hB
    · exact h1.symm

/-! ## C156: the vectorised version -/

/-- C156: `parametric_points_to_3d` gives the point of `point2d_to_3d` for every abscissa between 0 and the length of the edge (for every
abscissa, on a line), and leaves that row of the array unchanged. -/
theorem C156_parametric (s : Revolution) (u v : ℝ) (p : V3 ℝ) (hp : s.to3d ⟨u, v⟩ = some p)
    (h : ∃ y, s.yPeriodicity = some y ∧ ∀ d ∈ y, 0 ≤ v ∧ v ≤ d) : s.paramTo3d ⟨u, v⟩ = some (⟨u, v⟩, p) := by
  obtain ⟨y, hy, hd⟩ := h
  have hw : wrapPeriod y v = v := by
    unfold wrapPeriod
    cases y with
    | none => rfl
    | some d =>
      obtain ⟨h1, h2⟩ := hd d rfl
      dsimp only
      rw [if_neg (not_lt.mpr h2), if_neg (not_lt.mpr h1), ite_self]
  unfold Revolution.paramTo3d
  rw [hy, Option.bind_some]
  dsimp only
  rw [hw]
  unfold Revolution.to3d at hp
  rw [Option.map_eq_some_iff] at hp ⊢
  obtain ⟨c, hc, rfl⟩ := hp
  refine ⟨c, hc, ?_⟩
  congr 1
  ext <;> simp [V3.cross] <;> ring

/-! ## C156: round trip -/

/-- The points of the generatrix of abscissa in `D` lie in a half plane bounded by the axis (specification): `d` is the unit vector of the half plane, perpendicular to
the axis. -/
def InHalfPlane (e : Generatrix) (D : Set ℝ) (o axis d : V3 ℝ) : Prop :=
  V3.dot d d = 1 ∧ V3.dot d axis = 0 ∧
    ∀ v ∈ D, ∀ c, e.pointAt v = some c → ∃ x z, 0 ≤ x ∧ c = o + V3.smul x d + V3.smul z axis

/-- `abscissa` finds back, up to `eps`, the points very close to the part of the edge of abscissas in `D` (specification). -/
def FindsBack (e : Generatrix) (D : Set ℝ) (eps : ℝ) : Prop :=
  ∀ v ∈ D, ∀ c q, e.pointAt v = some c → V3.pointDistance q c ≤ 1 / 10 ^ 11 →
    ∃ t c', e.abscissa q = some t ∧ e.pointAt t = some c' ∧ V3.pointDistance c' q ≤ eps

/-- C156: full statement of the round trip: on any surface of revolution whose generatrix finds back its points. -/
def C156_roundtrip_full_statement : Prop :=
  ∀ (e : Generatrix) (o a : V3 ℝ) (s : Revolution) (eps : ℝ) (D : Set ℝ), Revolution.new e o a = some s → FindsBack e D eps →
    ∀ u, ∀ v ∈ D, ∀ p, s.to3d ⟨u, v⟩ = some p → ∃ q p', s.to2d p = some q ∧ s.to3d q = some p' ∧ V3.pointDistance p' p ≤ eps + 1 / 10 ^ 6

/-- The first vector of the frame is the one of the half plane of the generatrix. -/
theorem frame_u {e : Generatrix} {o a d : V3 ℝ} {s : Revolution} {D : Set ℝ} (h : Revolution.new e o a = some s) (hD : 0 ∈ D ∧ e.secondAbscissa ∈ D)
    (hh : InHalfPlane e D o a d) : s.frame.basis.u = d := by
  obtain ⟨-, h2, h3, h4, h5, ⟨k, hk, hka⟩, v, c, x, z, hv0, hv, hx, hc⟩ := C156_frame h
  obtain ⟨hdd, hda, hall⟩ := hh
  obtain ⟨x', z', hx', hc'⟩ := hall v (by rcases hv0 with rfl | rfl; exacts [hD.1, hD.2]) c hv
  rw [h3, h4] at hc
  have hww := h5.2.2.1
  have huw := h5.2.2.2.2.1
  have huu := h5.1
  rw [h4] at hww huw
  have hdw : V3.dot d s.axis = 0 := by
    have : V3.dot d a = k * V3.dot d s.axis := by
      rw [hka]; simp only [V3.dot, V3.smul_x, V3.smul_y, V3.smul_z]; ring
    rw [hda] at this
    exact (mul_eq_zero.mp this.symm).resolve_left hk.ne'
  generalize s.frame.basis.u = u at *
  generalize s.axis = w at *
  subst hka
  have ex := congrArg V3.x (hc.symm.trans hc')
  have ey := congrArg V3.y (hc.symm.trans hc')
  have ez := congrArg V3.z (hc.symm.trans hc')
  simp only [V3.smul_x, V3.smul_y, V3.smul_z, V3.add_x, V3.add_y, V3.add_z] at ex ey ez
  simp only [V3.dot] at *
  have hz : z = k * z' := by
    linear_combination w.x * ex + w.y * ey + w.z * ez - x * huw + x' * hdw - (z - k * z') * hww
  have ex' : x * u.x = x' * d.x := by rw [hz] at ex; linarith
  have ey' : x * u.y = x' * d.y := by rw [hz] at ey; linarith
  have ez' : x * u.z = x' * d.z := by rw [hz] at ez; linarith
  have hsq : x ^ 2 = x' ^ 2 := by
    linear_combination (x * u.x + x' * d.x) * ex' + (x * u.y + x' * d.y) * ey' + (x * u.z + x' * d.z) * ez' - x ^ 2 * huu + x' ^ 2 * hdd
  have hxx : x = x' := by
    have := abs_eq_abs.mpr (sq_eq_sq_iff_eq_or_eq_neg.mp hsq)
    rwa [abs_of_pos hx, abs_of_nonneg hx'] at this
  subst hxx
  ext
  · exact mul_left_cancel₀ hx.ne' ex'
  · exact mul_left_cancel₀ hx.ne' ey'
  · exact mul_left_cancel₀ hx.ne' ez'

/-- C156: on a surface of revolution whose generatrix lies in a half plane bounded by the axis, `point3d_to_2d` sends each point of the
surface to parameters that `point2d_to_3d` sends back to it, up to the precision with which the edge finds back its own points. -/
theorem C156_roundtrip_partial {e : Generatrix} {o a d : V3 ℝ} {s : Revolution} {eps : ℝ} {D : Set ℝ} (h : Revolution.new e o a = some s)
    (hD : 0 ∈ D ∧ e.secondAbscissa ∈ D) (hh : InHalfPlane e D o a d) (hf : FindsBack e D eps) (u v : ℝ) (hv : v ∈ D) (p : V3 ℝ) (hp : s.to3d ⟨u, v⟩ = some p) :
    ∃ q p', s.to2d p = some q ∧ s.to3d q = some p' ∧ V3.pointDistance p' p ≤ eps := by
  have hs := new_valid h
  have hu := frame_u h hD hh
  obtain ⟨hedge, hpt, -, -, -, ⟨k, hk, hka⟩, -⟩ := C156_frame h
  have ho := DirectOrthonormal.ortho hs.direct
  rw [to3d_rotation, hedge, Option.map_eq_some_iff] at hp
  obtain ⟨c, hc, rfl⟩ := hp
  obtain ⟨x, z, hx, hcp⟩ := hh.2.2 v hv c hc
  have hcp : c = pt s.frame ⟨x, 0, k * z⟩ := by
    rw [hcp, hka, ← hu, ← hs.axis, ← hpt, ← hs.origin]
    ext <;> simp [pt] <;> ring
  have hrot : V3.rotation c s.axisPoint s.axis u = pt s.frame ⟨x * cos u, x * sin u, k * z⟩ := by
    rw [hcp, ← hs.axis, ← hs.origin, rotation_pt hs.direct]
    simp
  dsimp only at hc ⊢
  obtain ⟨P, hP⟩ : ∃ P, P = V3.rotation c s.axisPoint s.axis u := ⟨_, rfl⟩
  rw [← hP] at hrot ⊢
  obtain ⟨q, r, hq, hr, hwr⟩ := globalToLocal_spec ho P P ⟨by simp, by simp, by simp⟩
  have hqe : q = ⟨x * cos u, x * sin u, k * z⟩ := by
    have h0 : V3.pointDistance q ⟨x * cos u, x * sin u, k * z⟩ = 0 := by
      rw [← dist_pt ho, ← hq, ← hrot]
      unfold V3.pointDistance; rw [V3.norm_eq_zero_iff]; ext <;> simp
    unfold V3.pointDistance at h0
    rw [V3.norm_eq_zero_iff, V3.sub_eq_zero_iff] at h0
    exact h0.symm
  obtain ⟨t, ht⟩ : ∃ t, t = atan2 (snap (1 / 10 ^ 12) r.y) (snap (1 / 10 ^ 12) r.x) := ⟨_, rfl⟩
  have hn : V3.norm s.axis = 1 := hs.norm
  -- the point brought back is close to the generatrix
  have hclose : V3.pointDistance (V3.rotation P s.axisPoint s.axis (-t)) c ≤ 1 / 10 ^ 11 := by
    have e1 : V3.pointDistance (V3.rotation P s.axisPoint s.axis (-t)) c = V3.pointDistance P (V3.rotation c s.axisPoint s.axis t) := by
      rw [← C01_rotation3d_isometry (V3.rotation P s.axisPoint s.axis (-t)) c s.axisPoint s.axis t hn, C01_rotation3d_add _ _ _ _ _ hn]
      congr 1
      have := C01_rotation3d_full_turn P s.axisPoint s.axis 0
      rw [Int.cast_zero, zero_mul] at this
      rw [neg_add_cancel, this]
    have e2 : V3.rotation c s.axisPoint s.axis t = pt s.frame ⟨x * cos t, x * sin t, k * z⟩ := by
      rw [hcp, ← hs.axis, ← hs.origin, rotation_pt hs.direct]
      simp
    rw [e1, e2, hrot, dist_pt ho]
    refine (dist_le_sum _ _).trans ?_
    obtain ⟨w1, w2, -⟩ := hwr
    rw [hqe] at w1 w2
    have s1 := snap_dist (eps := 1 / 10 ^ 12) (by norm_num) r.x
    have s2 := snap_dist (eps := 1 / 10 ^ 12) (by norm_num) r.y
    have k1 : |snap (1 / 10 ^ 12) r.x - x * cos u| ≤ 1 / 10 ^ 12 + 4 / 10 ^ 16 := (abs_sub_le _ r.x _).trans (add_le_add s1 w1)
    have k2 : |snap (1 / 10 ^ 12) r.y - x * sin u| ≤ 1 / 10 ^ 12 + 4 / 10 ^ 16 := (abs_sub_le _ r.y _).trans (add_le_add s2 w2)
    obtain ⟨g1, g2⟩ := polar_stable (t := t) (n := 0) hx
      (by linear_combination x ^ 2 * sin_sq_add_cos_sq u : (x * cos u) ^ 2 + (x * sin u) ^ 2 = x ^ 2) k1 k2 (by rw [ht]; simp)
    rw [abs_sub_comm] at g1 g2
    dsimp only
    rw [sub_self, abs_zero]
    linarith
  obtain ⟨b, c', hb, hc', hd⟩ := hf v hv c _ hc hclose
  refine ⟨⟨t, b⟩, V3.rotation c' s.axisPoint s.axis t, ?_, ?_, ?_⟩
  · unfold Revolution.to2d
    rw [hr]
    change Option.map _ (s.edge.abscissa (V3.rotation P s.axisPoint s.axis (-atan2 (snap (1 / 10 ^ 12) r.y) (snap (1 / 10 ^ 12) r.x)))) = _
    rw [← ht, hedge, hb]
    simp only [Option.map_some, ← ht]
  · rw [to3d_rotation, hedge]
    dsimp only
    rw [hc', Option.map_some]
  · have := C01_rotation3d_isometry c' (V3.rotation P s.axisPoint s.axis (-t)) s.axisPoint s.axis t hn
    rw [C01_rotation3d_add _ _ _ _ _ hn, neg_add_cancel] at this
    have e0 := C01_rotation3d_full_turn P s.axisPoint s.axis 0
    rw [Int.cast_zero, zero_mul] at e0
    rw [e0] at this
    rw [this]
    exact hd

/-- A line finds back its points. -/
theorem line_findsBack (l : Line3) (h : l.point1 ≠ l.point2) : FindsBack (.line l) Set.univ (1 / 10 ^ 11) := by
  intro v _ c q hc hq
  obtain ⟨r, t, -, -, h3, -, h5, -, h7⟩ := C73_projection l h q
  refine ⟨t, r, h3, h5, ?_⟩
  obtain ⟨c2, hc2, -, hon, -⟩ := C73_abscissa_inverse l h v
  have hce : c = c2 := Option.some.inj (hc.symm.trans hc2)
  subst hce
  rw [V3.pointDistance_symm]
  exact (h7 c hon).trans hq

/-- A segment finds back its points, up to the tolerance 1e-6 of `abscissa` at its ends. -/
theorem segment_findsBack (e : Seg3) (h : e.start ≠ e.stop) : FindsBack (.segment e) (Set.Icc 0 e.length) (1 / 10 ^ 6) := by
  intro v hv c q hc hq
  obtain ⟨n, hn⟩ := V3.unitVector_some (u := e.stop - e.start) (by rw [Ne, V3.sub_eq_zero_iff]; exact h)
  obtain ⟨hN, hne, hnn⟩ := V3.unitVector_spec hn
  have hlen : e.length = V3.norm (e.stop - e.start) := rfl
  have hat : ∀ a, (Generatrix.segment e).pointAt a = some (e.start + V3.smul a n) := by
    intro a
    change e.pointAtAbscissa a = _
    unfold Seg3.pointAtAbscissa
    rw [hn]; rfl
  have habs : (Generatrix.segment e).abscissa q = (e.abscissa q (1 / 10 ^ 6)).toOption := rfl
  rw [habs]
  unfold Seg3.abscissa
  have hstop : e.stop = e.start + V3.smul e.length n := by
    rw [hlen, ← hne]; ext <;> simp
  dsimp only
  split_ifs with h1 h2 h3 h4
  · refine ⟨0, e.start, rfl, ?_, ?_⟩
    · rw [hat]; congr 1; ext <;> simp
    · rw [V3.pointDistance_symm]; exact h1.le
  · refine ⟨e.length, e.stop, rfl, ?_, ?_⟩
    · rw [hat, ← hstop]
    · rw [V3.pointDistance_symm]; exact h2.le
  · exact absurd h3 hN.ne'
  all_goals
    rw [hat] at hc
    have hc := Option.some.inj hc
    subst hc
    obtain ⟨L, hL⟩ : ∃ L, L = V3.norm (e.stop - e.start) := ⟨_, rfl⟩
    have hd : V3.dot (q - e.start) (e.stop - e.start) / V3.norm (e.stop - e.start) = V3.dot (q - e.start) n := by
      rw [div_eq_iff hN.ne']
      conv_lhs => rw [hne]
      simp only [V3.dot, V3.smul_x, V3.smul_y, V3.smul_z]; ring
    -- the abscissa of the point is near the one of the point of the segment
    have hnear : |V3.dot (q - e.start) n - v| ≤ 1 / 10 ^ 11 := by
      refine le_trans ?_ hq
      have e1 : V3.dot (q - e.start) n - v = V3.dot (q - (e.start + V3.smul v n)) n := by
        have : V3.dot (q - (e.start + V3.smul v n)) n = V3.dot (q - e.start) n - v * V3.dot n n := by
          simp only [V3.dot, V3.sub_x, V3.sub_y, V3.sub_z, V3.smul_x, V3.smul_y, V3.smul_z, V3.add_x, V3.add_y, V3.add_z]; ring
        rw [this, hnn]; ring
      rw [e1]
      unfold V3.pointDistance
      generalize q - (e.start + V3.smul v n) = m
      apply abs_le_of_sq_le_sq _ (V3.norm_nonneg _)
      rw [V3.norm_pow_two]
      simp only [V3.dot] at *
      nlinarith [mul_self_nonneg (m.x * n.y - m.y * n.x), mul_self_nonneg (m.y * n.z - m.z * n.y), mul_self_nonneg (m.z * n.x - m.x * n.z)]
    obtain ⟨n1, n2⟩ := abs_le.mp hnear
  · exfalso
    rw [hd, ← hlen] at h4
    obtain ⟨v1, v2⟩ := hv
    rcases h4 with h4 | h4 <;> linarith
  · refine ⟨_, _, rfl, hat _, ?_⟩
    rw [hd]
    have hle : V3.pointDistance (e.start + V3.smul (V3.dot (q - e.start) n) n) q ≤ V3.pointDistance q (e.start + V3.smul v n) := by
      unfold V3.pointDistance
      refine le_of_abs_le (abs_le_of_sq_le_sq ?_ (V3.norm_nonneg _))
      rw [V3.norm_pow_two, V3.norm_pow_two]
      have e1 : ∀ t, V3.dot (q - (e.start + V3.smul t n)) (q - (e.start + V3.smul t n))
          = V3.dot (q - e.start) (q - e.start) - 2 * t * V3.dot (q - e.start) n + t ^ 2 * V3.dot n n := by
        intro t
        simp only [V3.dot, V3.sub_x, V3.sub_y, V3.sub_z, V3.smul_x, V3.smul_y, V3.smul_z, V3.add_x, V3.add_y, V3.add_z]; ring
      have e2 : ∀ a b : V3 ℝ, V3.dot (a - b) (a - b) = V3.dot (b - a) (b - a) := by
        intro a b; simp only [V3.dot, V3.sub_x, V3.sub_y, V3.sub_z]; ring
      rw [e2, e1, e1, hnn]
      generalize V3.dot (q - e.start) n = w
      nlinarith [sq_nonneg (w - v)]
    refine (hle.trans hq).trans (by norm_num)

/-- C156: the round trip on a surface generated by a segment of a half plane bounded by the axis: the point comes back within 1e-6. -/
theorem C156_roundtrip_segment {e : Seg3} {o a d : V3 ℝ} {s : Revolution} (h : Revolution.new (.segment e) o a = some s) (he : e.start ≠ e.stop)
    (hd : V3.dot d d = 1) (hda : V3.dot d a = 0)
    (h1 : ∃ x z, 0 ≤ x ∧ e.start = o + V3.smul x d + V3.smul z a) (h2 : ∃ x z, 0 ≤ x ∧ e.stop = o + V3.smul x d + V3.smul z a)
    (u v : ℝ) (hv : 0 ≤ v ∧ v ≤ e.length) (p : V3 ℝ) (hp : s.to3d ⟨u, v⟩ = some p) :
    ∃ q p', s.to2d p = some q ∧ s.to3d q = some p' ∧ V3.pointDistance p' p ≤ 1 / 10 ^ 6 := by
  have hL : 0 < e.length := by
    refine lt_of_le_of_ne (V3.norm_nonneg _) fun h0 => he ?_
    have h0 : V3.norm (e.stop - e.start) = 0 := h0.symm
    rw [V3.norm_eq_zero_iff, V3.sub_eq_zero_iff] at h0
    exact h0
  refine C156_roundtrip_partial (D := Set.Icc 0 e.length) (d := d) h ⟨⟨le_rfl, hL.le⟩, ?_⟩ ⟨hd, hda, ?_⟩ (segment_findsBack e he) u v hv p hp
  · change 1 / 2 * e.length ∈ _
    exact ⟨by linarith, by linarith⟩
  · intro v hv c hc
    obtain ⟨x1, z1, hx1, e1⟩ := h1
    obtain ⟨x2, z2, hx2, e2⟩ := h2
    change e.pointAtAbscissa v = _ at hc
    unfold Seg3.pointAtAbscissa at hc
    obtain ⟨n, hn⟩ := V3.unitVector_some (u := e.stop - e.start) (by rw [Ne, V3.sub_eq_zero_iff]; exact he)
    obtain ⟨hN, hne, hnn⟩ := V3.unitVector_spec hn
    rw [hn] at hc
    have hc := (Option.some.inj hc).symm
    have hlen : V3.norm (e.stop - e.start) = e.length := rfl
    rw [hlen] at hne
    obtain ⟨v1, v2⟩ := hv
    refine ⟨x1 + v / e.length * (x2 - x1), z1 + v / e.length * (z2 - z1), ?_, ?_⟩
    · have t0 : 0 ≤ v / e.length := div_nonneg v1 hL.le
      have t1 : v / e.length ≤ 1 := (div_le_one hL).mpr v2
      nlinarith [mul_nonneg t0 hx2, mul_nonneg (sub_nonneg.mpr t1) hx1]
    · have hnx : V3.smul v n = V3.smul (v / e.length) (e.stop - e.start) := by
        rw [hne]
        ext <;> simp only [V3.smul_x, V3.smul_y, V3.smul_z] <;> field_simp
      rw [hc, hnx, e1, e2]
      ext <;> simp <;> ring

/-- C156: the round trip on a surface generated by a line parallel to the axis. -/
theorem C156_roundtrip_line {l : Line3} {o a d : V3 ℝ} {s : Revolution} (h : Revolution.new (.line l) o a = some s) (hl : l.point1 ≠ l.point2)
    (hpar : ∃ k, l.dir = V3.smul k a) (hd : V3.dot d d = 1) (hda : V3.dot d a = 0)
    (h1 : ∃ x z, 0 ≤ x ∧ l.point1 = o + V3.smul x d + V3.smul z a) (u v : ℝ) (p : V3 ℝ) (hp : s.to3d ⟨u, v⟩ = some p) :
    ∃ q p', s.to2d p = some q ∧ s.to3d q = some p' ∧ V3.pointDistance p' p ≤ 1 / 10 ^ 11 := by
  refine C156_roundtrip_partial (D := Set.univ) (d := d) h ⟨trivial, trivial⟩ ⟨hd, hda, ?_⟩ (line_findsBack l hl) u v trivial p hp
  intro v _ c hc
  obtain ⟨x, z, hx, e1⟩ := h1
  obtain ⟨k, hk⟩ := hpar
  obtain ⟨c', hc', -, ⟨t, t1, t2, t3⟩, -⟩ := C73_abscissa_inverse l hl v
  have hce : c = c' := Option.some.inj (hc.symm.trans hc')
  subst hce
  refine ⟨x, z + t * k, hx, ?_⟩
  have kx := congrArg V3.x hk
  have ky := congrArg V3.y hk
  have kz := congrArg V3.z hk
  simp only [Line3.dir, V3.sub_x, V3.sub_y, V3.sub_z, V3.smul_x, V3.smul_y, V3.smul_z] at kx ky kz
  have x1 := congrArg V3.x e1
  have y1 := congrArg V3.y e1
  have z1 := congrArg V3.z e1
  simp only [V3.smul_x, V3.smul_y, V3.smul_z, V3.add_x, V3.add_y, V3.add_z] at x1 y1 z1
  ext <;> simp only [V3.smul_x, V3.smul_y, V3.smul_z, V3.add_x, V3.add_y, V3.add_z]
  · rw [t1]; linear_combination x1 + t * kx
  · rw [t2]; linear_combination y1 + t * ky
  · rw [t3]; linear_combination z1 + t * kz

theorem norm_x : V3.norm (⟨1, 0, 0⟩ : V3 ℝ) = 1 := norm_one_of_dot (by norm_num [V3.dot])
theorem norm_z : V3.norm (⟨0, 0, 1⟩ : V3 ℝ) = 1 := norm_one_of_dot (by norm_num [V3.dot])
theorem unit_of_dot {u : V3 ℝ} (h : V3.dot u u = 1) : V3.unitVector u = some u := by
  unfold V3.unitVector
  rw [norm_one_of_dot h, if_neg one_ne_zero]
  simp

/-- A point at distance 1 of the origin in the plane `z = 0`: the surface turned about the z axis has the expected frame. -/
theorem new_z (e : Generatrix) (h : e.pointAt 0 = some ⟨1, 0, 0⟩) :
    Revolution.new e ⟨0, 0, 0⟩ ⟨0, 0, 1⟩ = some ⟨e, ⟨0, 0, 0⟩, ⟨0, 0, 1⟩, planeXY⟩ := by
  unfold Revolution.new
  rw [unit_of_dot (by norm_num [V3.dot]), Option.bind_some]
  have hr : referencePoint e ⟨0, 0, 0⟩ ⟨0, 0, 1⟩ = some ⟨1, 0, 0⟩ := by
    unfold referencePoint
    rw [h, Option.bind_some, if_neg]
    have e0 : (⟨1, 0, 0⟩ - ⟨0, 0, 0⟩ : V3 ℝ) = ⟨1, 0, 0⟩ := by ext <;> simp
    rintro (h1 | h1)
    · unfold Arc.isClose3 V3.pointDistance at h1
      rw [e0, norm_x, mathIsClose_zero (by norm_num)] at h1
      norm_num at h1
    · rw [e0] at h1
      unfold isColinear at h1
      rw [norm_x, norm_z, if_neg (by norm_num)] at h1
      norm_num [V3.dot, mathIsClose] at h1
  rw [hr, Option.bind_some]
  have e0 : (⟨1, 0, 0⟩ - ⟨0, 0, 0⟩ : V3 ℝ) = ⟨1, 0, 0⟩ := by ext <;> simp
  dsimp only
  rw [e0]
  have hp : vectorProjection (⟨1, 0, 0⟩ : V3 ℝ) ⟨0, 0, 1⟩ = some ⟨0, 0, 0⟩ := by
    norm_num [vectorProjection, V3.dot, V3.smul]
  rw [hp, Option.bind_some]
  have e1 : (⟨1, 0, 0⟩ - ⟨0, 0, 0⟩ : V3 ℝ) = ⟨1, 0, 0⟩ := e0
  rw [e1, unit_of_dot (by norm_num [V3.dot]), Option.map_some]
  norm_num [V3.cross, planeXY]

/-- C156: the round trip fails on the hyperboloid generated by a line that does not meet its axis: the line through (1,0,0) and (1,1,1)
turned about the z axis.  The point (1,1,1) of the line comes back as a point of height 1/2: `point3d_to_2d` takes for `u` the angle of
the point, not the angle by which the generatrix was turned to reach it. -/
theorem C156_roundtrip_counterexample : ¬ C156_roundtrip_full_statement := by
  intro h
  obtain ⟨l, hl⟩ : ∃ l : Line3, l = ⟨⟨1, 0, 0⟩, ⟨1, 1, 1⟩⟩ := ⟨_, rfl⟩
  have hne : l.point1 ≠ l.point2 := by rw [hl]; intro h; have := congrArg V3.y h; norm_num at this
  have hdir : l.dir = ⟨0, 1, 1⟩ := by rw [hl]; ext <;> norm_num [Line3.dir]
  have hN : V3.norm l.dir = √2 := by rw [hdir]; unfold V3.norm; norm_num
  have h2 : (0 : ℝ) < √2 := by positivity
  have h22 : √2 * √2 = 2 := mul_self_sqrt (by norm_num)
  have hat : ∀ t, (Generatrix.line l).pointAt t = some ⟨1, t / √2, t / √2⟩ := by
    intro t
    change l.pointAtAbscissa t = _
    unfold Line3.pointAtAbscissa V3.unitVector
    rw [hN, if_neg h2.ne', Option.map_some, hdir, hl]
    congr 1
    ext <;> simp <;> ring
  have hnew := new_z (.line l) (by rw [hat]; norm_num)
  have hp : (⟨.line l, ⟨0, 0, 0⟩, ⟨0, 0, 1⟩, planeXY⟩ : Revolution).to3d ⟨0, √2⟩ = some ⟨1, 1, 1⟩ := by
    rw [to3d_rotation]
    dsimp only
    rw [hat, Option.map_some]
    norm_num [V3.rotation, V3.rotationCS, V3.dot, V3.cross, V3.smul, h2.ne']
  obtain ⟨q, p', hq, hp', hd⟩ := h _ _ _ _ _ _ hnew (line_findsBack l hne) 0 (√2) trivial _ hp
  have hg : planeXY.globalToLocal (⟨1, 1, 1⟩ : V3 ℝ) = .ok ⟨1, 1, 1⟩ := by
    norm_num [Frame3.globalToLocal, Basis3.globalToLocal, M33.inverse, planeXY, Basis3.transfer, M33.det]
    norm_num [M33.mulVec, M33.cMulVec, flush]
  unfold Revolution.to2d at hq
  dsimp only at hq
  rw [hg] at hq
  change Option.map _ ((Generatrix.line l).abscissa _) = _ at hq
  have hs1 : snap (1 / 10 ^ 12) 1 = 1 := by norm_num [snap]
  dsimp only at hq
  rw [hs1] at hq
  obtain ⟨c1, c2⟩ := polar 1 1
  have h11 : √((1 : ℝ) ^ 2 + 1 ^ 2) = √2 := by norm_num
  rw [h11] at c1 c2
  have ha : (Generatrix.line l).abscissa (V3.rotation ⟨1, 1, 1⟩ ⟨0, 0, 0⟩ ⟨0, 0, 1⟩ (-atan2 1 1)) = some (1 / √2) := by
    change l.abscissa _ = _
    unfold Line3.abscissa
    rw [hN, if_neg h2.ne', hdir, hl]
    congr 1
    simp only [V3.rotation, V3.rotationCS, V3.dot, V3.cross, V3.sub_x, V3.sub_y, V3.sub_z, V3.smul_x, V3.smul_y, V3.smul_z, cos_neg, sin_neg]
    have : cos (atan2 1 1) = sin (atan2 1 1) := mul_left_cancel₀ h2.ne' (c1.trans c2.symm)
    rw [this]
    ring
  rw [ha, Option.map_some] at hq
  have hq := (Option.some.inj hq).symm
  rw [to3d_rotation, hq] at hp'
  dsimp only at hp'
  rw [hat, Option.map_some] at hp'
  have hp' := Option.some.inj hp'
  have hz : p'.z = 1 / 2 := by
    rw [← hp']
    simp only [V3.rotation, V3.rotationCS, V3.dot, V3.cross, V3.sub_x, V3.sub_y, V3.sub_z, V3.smul_x, V3.smul_y, V3.smul_z]
    have : 1 / √2 / √2 = 1 / 2 := by rw [div_div, h22]
    rw [this]
    ring
  have hzd : |p'.z - 1| ≤ V3.pointDistance p' ⟨1, 1, 1⟩ := by
    unfold V3.pointDistance V3.norm
    apply abs_le_sqrt
    simp only [V3.sub_x, V3.sub_y, V3.sub_z]
    nlinarith [mul_self_nonneg (p'.x - 1), mul_self_nonneg (p'.y - 1)]
  rw [hz] at hzd
  norm_num at hzd hd
  linarith

-- the hypotheses of C156 are met: a segment of the plane y = 0 on the side x > 0, slanted with respect to the axis
example : ∃ s, Revolution.new (.segment ⟨⟨1, 0, 0⟩, ⟨4, 0, 4⟩⟩) ⟨0, 0, 0⟩ ⟨0, 0, 1⟩ = some s ∧ s.Valid ∧
    ∀ u v : ℝ, 0 ≤ v ∧ v ≤ 5 → ∀ p, s.to3d ⟨u, v⟩ = some p →
      ∃ q p', s.to2d p = some q ∧ s.to3d q = some p' ∧ V3.pointDistance p' p ≤ 1 / 10 ^ 6 := by
  have hne : (⟨⟨1, 0, 0⟩, ⟨4, 0, 4⟩⟩ : Seg3).start ≠ (⟨⟨1, 0, 0⟩, ⟨4, 0, 4⟩⟩ : Seg3).stop := by
    intro h; have := congrArg V3.x h; norm_num at this
  have hL : (⟨⟨1, 0, 0⟩, ⟨4, 0, 4⟩⟩ : Seg3).length = 5 := by
    unfold Seg3.length V3.pointDistance V3.norm
    rw [Real.sqrt_eq_iff_mul_self_eq (by norm_num) (by norm_num)]
    norm_num
  have h := new_z (.segment ⟨⟨1, 0, 0⟩, ⟨4, 0, 4⟩⟩) (by
    change Seg3.pointAtAbscissa _ 0 = _
    unfold Seg3.pointAtAbscissa
    obtain ⟨n, hn⟩ := V3.unitVector_some (u := (⟨4, 0, 4⟩ - ⟨1, 0, 0⟩ : V3 ℝ)) (by intro h; have := congrArg V3.x h; norm_num at this)
    dsimp only
    rw [hn]
    change some _ = some _
    congr 1
    ext <;> simp)
  refine ⟨_, h, new_valid h, ?_⟩
  intro u v hv p hp
  exact C156_roundtrip_segment (d := ⟨1, 0, 0⟩) h hne (by norm_num [V3.dot]) (by norm_num [V3.dot])
    ⟨1, 0, by norm_num, by ext <;> norm_num⟩ ⟨4, 4, by norm_num, by ext <;> norm_num⟩ u v (by rw [hL]; exact hv) p hp

end Volmdlr.Surface
