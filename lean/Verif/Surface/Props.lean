import Verif.Surface.Model
import Verif.Frame.Props
import Verif.Intersect.LineProps

/-!
# Cylinders, cones, spheres and tori (C53)

Specification: the implicit equations `OnCylinder`, `OnCone`, `OnSphere`, `OnTorus`, written with the distance to the centre and the
height along the axis, without angles.
-/

namespace Volmdlr.Surface

open Volmdlr.Angle Volmdlr.Intersect Real

/-! ## Specification -/

/-- Squared distance of `p` to the origin of the frame. -/
def sqDist (f : Frame3 ℝ) (p : V3 ℝ) : ℝ := V3.sqNorm (p - f.origin)
/-- Height of `p` along the third vector of the frame. -/
def height (f : Frame3 ℝ) (p : V3 ℝ) : ℝ := V3.dot (p - f.origin) f.basis.w

/-- `p` is at distance `r` of the axis of the frame. -/
def OnCylinder (f : Frame3 ℝ) (r : ℝ) (p : V3 ℝ) : Prop := sqDist f p - height f p ^ 2 = r ^ 2
/-- `p` is on the double cone of apex the origin of the frame and of half angle `a`. -/
def OnCone (f : Frame3 ℝ) (a : ℝ) (p : V3 ℝ) : Prop := sqDist f p - height f p ^ 2 = (tan a * height f p) ^ 2
/-- `p` is at distance `r` of the origin of the frame. -/
def OnSphere (f : Frame3 ℝ) (r : ℝ) (p : V3 ℝ) : Prop := sqDist f p = r ^ 2
/-- `p` is at distance `r` of the circle of radius `R` around the axis of the frame (implicit equation of the torus). -/
def OnTorus (f : Frame3 ℝ) (R r : ℝ) (p : V3 ℝ) : Prop :=
  (sqDist f p + R ^ 2 - r ^ 2) ^ 2 = 4 * R ^ 2 * (sqDist f p - height f p ^ 2)

/-- Every coordinate of `p` and `q` differs by at most `e`. -/
def Within (e : ℝ) (p q : V3 ℝ) : Prop := |p.x - q.x| ≤ e ∧ |p.y - q.y| ≤ e ∧ |p.z - q.z| ≤ e

/-! ## Frames -/

/-- The point of given coordinates in a frame. -/
def pt (f : Frame3 ℝ) (q : V3 ℝ) : V3 ℝ := f.origin + V3.smul q.x f.basis.u + V3.smul q.y f.basis.v + V3.smul q.z f.basis.w

theorem isCoord_pt (f : Frame3 ℝ) (q : V3 ℝ) : IsCoord f q (pt f q) := rfl

theorem sqDist_pt {f : Frame3 ℝ} (ho : Orthonormal3 f.basis) (q : V3 ℝ) : sqDist f (pt f q) = q.x ^ 2 + q.y ^ 2 + q.z ^ 2 := by
  obtain ⟨h1, h2, h3, h4, h5, h6⟩ := ho
  simp only [V3.dot] at h1 h2 h3 h4 h5 h6
  simp only [sqDist, pt, V3.sqNorm, V3.sub_x, V3.sub_y, V3.sub_z, V3.add_x, V3.add_y, V3.add_z, V3.smul_x, V3.smul_y, V3.smul_z]
  linear_combination (q.x)^2 * h1 + (q.y)^2 * h2 + (q.z)^2 * h3 + 2 * q.x * q.y * h4 + 2 * q.x * q.z * h5 + 2 * q.y * q.z * h6

theorem height_pt {f : Frame3 ℝ} (ho : Orthonormal3 f.basis) (q : V3 ℝ) : height f (pt f q) = q.z := by
  obtain ⟨h1, h2, h3, h4, h5, h6⟩ := ho
  simp only [V3.dot] at h1 h2 h3 h4 h5 h6
  simp only [height, pt, V3.dot, V3.sub_x, V3.sub_y, V3.sub_z, V3.add_x, V3.add_y, V3.add_z, V3.smul_x, V3.smul_y, V3.smul_z]
  linear_combination q.z * h3 + q.x * h5 + q.y * h6

theorem orthonormal_invertible {f : Frame3 ℝ} (ho : Orthonormal3 f.basis) : f.Invertible := by
  obtain ⟨h1, h2, h3, h4, h5, h6⟩ := ho
  simp only [V3.dot] at h1 h2 h3 h4 h5 h6
  have hd : V3.dot f.basis.u (V3.cross f.basis.v f.basis.w) ^ 2 = 1 := by
    have key : ∀ a b c d e g h i j : ℝ, (a * (e * j - i * g) + d * (i * c - b * j) + h * (b * g - e * c)) ^ 2
        = (a*a+d*d+h*h) * ((b*b+e*e+i*i) * (c*c+g*g+j*j) - (b*c+e*g+i*j)^2) - (a*b+d*e+h*i) * ((a*b+d*e+h*i) * (c*c+g*g+j*j) - (b*c+e*g+i*j) * (a*c+d*g+h*j))
          + (a*c+d*g+h*j) * ((a*b+d*e+h*i) * (b*c+e*g+i*j) - (b*b+e*e+i*i) * (a*c+d*g+h*j)) := by intros; ring
    have := key f.basis.u.x f.basis.v.x f.basis.w.x f.basis.u.y f.basis.v.y f.basis.w.y f.basis.u.z f.basis.v.z f.basis.w.z
    rw [h1, h2, h3, h4, h5, h6] at this
    simp only [V3.dot, V3.cross]
    rw [this]; norm_num
  unfold Frame3.Invertible
  have : |V3.dot f.basis.u (V3.cross f.basis.v f.basis.w)| = 1 := by
    have h := sq_abs (V3.dot f.basis.u (V3.cross f.basis.v f.basis.w))
    rw [hd] at h
    nlinarith [abs_nonneg (V3.dot f.basis.u (V3.cross f.basis.v f.basis.w))]
  rw [this]; norm_num

theorem unit_le {u : V3 ℝ} (h : V3.dot u u = 1) : |u.x| ≤ 1 ∧ |u.y| ≤ 1 ∧ |u.z| ≤ 1 := by
  simp only [V3.dot] at h
  refine ⟨?_, ?_, ?_⟩ <;> rw [abs_le] <;> constructor <;> nlinarith [mul_self_nonneg u.x, mul_self_nonneg u.y, mul_self_nonneg u.z]

/-- `local_to_global_coordinates` gives the point of these coordinates, up to the flush to zero. -/
theorem localToGlobal_within (f : Frame3 ℝ) (q : V3 ℝ) : Within (1 / 10 ^ 16) (f.localToGlobal q) (pt f q) := by
  obtain ⟨fx, fy, fz⟩ := M33.mulVec_dist f.basis.transfer q
  have h : ∀ a b c d e o : ℝ, |e - (a + b + c)| ≤ d → |e + o - (o + a + b + c)| ≤ d := by
    intro a b c d e o h; rwa [show e + o - (o + a + b + c) = e - (a + b + c) by ring]
  refine ⟨?_, ?_, ?_⟩
  · simp only [Frame3.localToGlobal, Basis3.localToGlobal, pt, V3.add_x, V3.smul_x]
    apply h
    simpa [M33.cMulVec, Basis3.transfer, mul_comm] using fx
  · simp only [Frame3.localToGlobal, Basis3.localToGlobal, pt, V3.add_y, V3.smul_y]
    apply h
    simpa [M33.cMulVec, Basis3.transfer, mul_comm] using fy
  · simp only [Frame3.localToGlobal, Basis3.localToGlobal, pt, V3.add_z, V3.smul_z]
    apply h
    simpa [M33.cMulVec, Basis3.transfer, mul_comm] using fz

theorem Within.trans {a b : ℝ} {p q r : V3 ℝ} (h : Within a p q) (h' : Within b q r) : Within (a + b) p r := by
  obtain ⟨h1, h2, h3⟩ := h
  obtain ⟨k1, k2, k3⟩ := h'
  exact ⟨(abs_sub_le _ q.x _).trans (add_le_add h1 k1), (abs_sub_le _ q.y _).trans (add_le_add h2 k2),
    (abs_sub_le _ q.z _).trans (add_le_add h3 k3)⟩

theorem Within.mono {a b : ℝ} {p q : V3 ℝ} (h : Within a p q) (hab : a ≤ b) : Within b p q :=
  ⟨h.1.trans hab, h.2.1.trans hab, h.2.2.trans hab⟩

/-- Close coordinates give close points. -/
theorem pt_within {f : Frame3 ℝ} (ho : Orthonormal3 f.basis) {q q' : V3 ℝ} {a b c : ℝ} (hx : |q.x - q'.x| ≤ a) (hy : |q.y - q'.y| ≤ b)
    (hz : |q.z - q'.z| ≤ c) : Within (a + b + c) (pt f q) (pt f q') := by
  obtain ⟨h1, h2, h3, -⟩ := ho
  have key : ∀ u v w o : ℝ, |u| ≤ 1 → |v| ≤ 1 → |w| ≤ 1 →
      |o + q.x * u + q.y * v + q.z * w - (o + q'.x * u + q'.y * v + q'.z * w)| ≤ a + b + c := by
    intro u v w o hu hv hw
    rw [show o + q.x * u + q.y * v + q.z * w - (o + q'.x * u + q'.y * v + q'.z * w)
      = (q.x - q'.x) * u + (q.y - q'.y) * v + (q.z - q'.z) * w by ring]
    have e1 : |(q.x - q'.x) * u| ≤ a := by
      rw [abs_mul]; nlinarith [abs_nonneg (q.x - q'.x), abs_nonneg u]
    have e2 : |(q.y - q'.y) * v| ≤ b := by
      rw [abs_mul]; nlinarith [abs_nonneg (q.y - q'.y), abs_nonneg v]
    have e3 : |(q.z - q'.z) * w| ≤ c := by
      rw [abs_mul]; nlinarith [abs_nonneg (q.z - q'.z), abs_nonneg w]
    linarith [abs_add_le ((q.x - q'.x) * u + (q.y - q'.y) * v) ((q.z - q'.z) * w), abs_add_le ((q.x - q'.x) * u) ((q.y - q'.y) * v)]
  obtain ⟨u1, u2, u3⟩ := unit_le h1
  obtain ⟨v1, v2, v3⟩ := unit_le h2
  obtain ⟨w1, w2, w3⟩ := unit_le h3
  refine ⟨?_, ?_, ?_⟩
  · simpa [pt, mul_comm] using key _ _ _ f.origin.x u1 v1 w1
  · simpa [pt, mul_comm] using key _ _ _ f.origin.y u2 v2 w2
  · simpa [pt, mul_comm] using key _ _ _ f.origin.z u3 v3 w3

theorem dot_within {p q u : V3 ℝ} {e : ℝ} (h : Within e p q) (hu : V3.dot u u = 1) : |V3.dot (p - q) u| ≤ 3 * e := by
  obtain ⟨h1, h2, h3⟩ := h
  obtain ⟨u1, u2, u3⟩ := unit_le hu
  have key : ∀ a b : ℝ, |a| ≤ e → |b| ≤ 1 → |a * b| ≤ e := by
    intro a b ha hb
    rw [abs_mul]
    exact (mul_le_of_le_one_right (abs_nonneg _) hb).trans ha
  have k1 := key _ _ h1 u1
  have k2 := key _ _ h2 u2
  have k3 := key _ _ h3 u3
  simp only [V3.dot, V3.sub_x, V3.sub_y, V3.sub_z]
  linarith [abs_add_le ((p.x - q.x) * u.x + (p.y - q.y) * u.y) ((p.z - q.z) * u.z), abs_add_le ((p.x - q.x) * u.x) ((p.y - q.y) * u.y)]

/-- `global_to_local_coordinates` in an orthonormal frame, for a point known up to 1e-16. -/
theorem globalToLocal_spec {f : Frame3 ℝ} (ho : Orthonormal3 f.basis) (p p0 : V3 ℝ) (hw : Within (1 / 10 ^ 16) p p0) :
    ∃ q r, p0 = pt f q ∧ f.globalToLocal p = .ok r ∧ Within (4 / 10 ^ 16) r q := by
  obtain ⟨q, hq, -⟩ := C03_globalToLocal_coord f p0 (orthonormal_invertible ho)
  obtain ⟨q2, hq2, -, -, r, hr, hx, hy, hz⟩ := C03_globalToLocal_coord f p (orthonormal_invertible ho)
  refine ⟨q, r, hq, hr, ?_⟩
  have hsub : p - p0 = ⟨(q2.x - q.x) * f.basis.u.x + (q2.y - q.y) * f.basis.v.x + (q2.z - q.z) * f.basis.w.x,
      (q2.x - q.x) * f.basis.u.y + (q2.y - q.y) * f.basis.v.y + (q2.z - q.z) * f.basis.w.y,
      (q2.x - q.x) * f.basis.u.z + (q2.y - q.y) * f.basis.v.z + (q2.z - q.z) * f.basis.w.z⟩ := by
    rw [hq, hq2]
    ext <;> simp <;> ring
  obtain ⟨h1, h2, h3, h4, h5, h6⟩ := ho
  have d1 := dot_within hw h1
  have d2 := dot_within hw h2
  have d3 := dot_within hw h3
  simp only [V3.dot] at h1 h2 h3 h4 h5 h6
  have e1 : V3.dot (p - p0) f.basis.u = q2.x - q.x := by
    rw [hsub]; simp only [V3.dot]
    linear_combination (q2.x - q.x) * h1 + (q2.y - q.y) * h4 + (q2.z - q.z) * h5
  have e2 : V3.dot (p - p0) f.basis.v = q2.y - q.y := by
    rw [hsub]; simp only [V3.dot]
    linear_combination (q2.x - q.x) * h4 + (q2.y - q.y) * h2 + (q2.z - q.z) * h6
  have e3 : V3.dot (p - p0) f.basis.w = q2.z - q.z := by
    rw [hsub]; simp only [V3.dot]
    linear_combination (q2.x - q.x) * h5 + (q2.y - q.y) * h6 + (q2.z - q.z) * h3
  rw [e1] at d1; rw [e2] at d2; rw [e3] at d3
  refine ⟨(abs_sub_le _ q2.x _).trans ?_, (abs_sub_le _ q2.y _).trans ?_, (abs_sub_le _ q2.z _).trans ?_⟩ <;> linarith

/-! ## Angles -/

theorem snap_dist {eps : ℝ} (h : 0 ≤ eps) (x : ℝ) : |snap eps x - x| ≤ eps := by
  unfold snap
  split_ifs with hx
  · rw [zero_sub, abs_neg]; exact hx.le
  · simpa using h

theorem cos_lip (a b : ℝ) : |cos a - cos b| ≤ |a - b| := by
  rw [cos_sub_cos, abs_mul, abs_mul, abs_neg, abs_two]
  have h1 := abs_sin_le_one ((a + b) / 2)
  have h2 : |sin ((a - b) / 2)| ≤ |(a - b) / 2| := abs_sin_le_abs
  rw [abs_div, abs_two] at h2
  have := mul_le_mul h1 h2 (abs_nonneg _) (by norm_num)
  linarith

theorem sin_lip (a b : ℝ) : |sin a - sin b| ≤ |a - b| := by
  have := cos_lip (π / 2 - a) (π / 2 - b)
  rw [cos_pi_div_two_sub, cos_pi_div_two_sub, show π / 2 - a - (π / 2 - b) = -(a - b) by ring, abs_neg] at this
  exact this

/-- `atan2` is the polar angle. -/
theorem polar (x y : ℝ) : √(x ^ 2 + y ^ 2) * cos (atan2 y x) = x ∧ √(x ^ 2 + y ^ 2) * sin (atan2 y x) = y := by
  have h : ‖(⟨x, y⟩ : ℂ)‖ = √(x ^ 2 + y ^ 2) := by
    rw [Complex.norm_def, Complex.normSq_mk]; ring_nf
  have h1 := Complex.norm_mul_cos_arg ⟨x, y⟩
  have h2 := Complex.norm_mul_sin_arg ⟨x, y⟩
  rw [h] at h1 h2
  exact ⟨h1, h2⟩

theorem hypot_lip (x y x' y' : ℝ) : |√(x ^ 2 + y ^ 2) - √(x' ^ 2 + y' ^ 2)| ≤ |x - x'| + |y - y'| := by
  have hn : ∀ a b : ℝ, ‖(⟨a, b⟩ : ℂ)‖ = √(a ^ 2 + b ^ 2) := by
    intro a b; rw [Complex.norm_def, Complex.normSq_mk]; ring_nf
  have h := abs_norm_sub_norm_le (⟨x, y⟩ : ℂ) ⟨x', y'⟩
  rw [hn, hn] at h
  refine h.trans ?_
  have h' := Complex.norm_le_abs_re_add_abs_im ((⟨x, y⟩ : ℂ) - ⟨x', y'⟩)
  simpa using h'

/-- The polar angle of slightly wrong coordinates, slightly wrong itself, gives the right point back up to the errors. -/
theorem polar_stable {x y x' y' rho t e n : ℝ} (h0 : 0 ≤ rho) (hr : x ^ 2 + y ^ 2 = rho ^ 2) (hx : |x' - x| ≤ e) (hy : |y' - y| ≤ e)
    (ht : |t - atan2 y' x'| ≤ n) : |rho * cos t - x| ≤ rho * n + 3 * e ∧ |rho * sin t - y| ≤ rho * n + 3 * e := by
  obtain ⟨p1, p2⟩ := polar x' y'
  have hl := hypot_lip x' y' x y
  rw [hr, sqrt_sq h0] at hl
  obtain ⟨S, hS⟩ : ∃ S, S = √(x' ^ 2 + y' ^ 2) := ⟨_, rfl⟩
  rw [← hS] at p1 p2 hl
  have hl' : |S - rho| ≤ 2 * e := by linarith
  obtain ⟨T, hT⟩ : ∃ T, T = atan2 y' x' := ⟨_, rfl⟩
  rw [← hT] at p1 p2 ht
  have hc := (cos_lip t T).trans ht
  have hs := (sin_lip t T).trans ht
  have key : ∀ c C X x : ℝ, |c - C| ≤ n → |C| ≤ 1 → S * C = X → |X - x| ≤ e → |rho * c - x| ≤ rho * n + 3 * e := by
    intro c C X x h1 h2 h3 h4
    rw [show rho * c - x = rho * (c - C) + (-(S - rho)) * C + (X - x) by rw [← h3]; ring]
    have a1 : |rho * (c - C)| ≤ rho * n := by
      rw [abs_mul, abs_of_nonneg h0]; exact mul_le_mul_of_nonneg_left h1 h0
    have a2 : |(-(S - rho)) * C| ≤ 2 * e := by
      rw [abs_mul, abs_neg]; nlinarith [abs_nonneg (S - rho), abs_nonneg C]
    linarith [abs_add_le (rho * (c - C) + (-(S - rho)) * C) (X - x), abs_add_le (rho * (c - C)) ((-(S - rho)) * C)]
  exact ⟨key _ _ _ _ hc (abs_cos_le_one _) p1 hx, key _ _ _ _ hs (abs_sin_le_one _) p2 hy⟩

/-! ## The parametrisation stays on the surface -/

/-- C53 (cylinder): `point2d_to_3d` is within 1e-16 per coordinate of a point of the cylinder at the height asked for, and the vectorised
version gives that point. -/
theorem C53_cylinder_on_surface (s : Cylinder) (ho : Orthonormal3 s.frame.basis) (p : V2 ℝ) :
    OnCylinder s.frame s.radius (s.paramTo3d p) ∧ height s.frame (s.paramTo3d p) = p.y ∧
    Within (1 / 10 ^ 16) (s.to3d p) (s.paramTo3d p) := by
  have e : s.paramTo3d p = pt s.frame ⟨s.radius * cos p.x, s.radius * sin p.x, p.y⟩ := by
    ext <;> simp [Cylinder.paramTo3d, pt] <;> ring
  rw [e]
  refine ⟨?_, height_pt ho _, localToGlobal_within _ _⟩
  unfold OnCylinder
  rw [sqDist_pt ho, height_pt ho]
  linear_combination s.radius ^ 2 * (cos_sq_add_sin_sq p.x)

/-- C53 (cone). -/
theorem C53_cone_on_surface (s : Cone) (ho : Orthonormal3 s.frame.basis) (p : V2 ℝ) :
    OnCone s.frame s.semiAngle (s.paramTo3d p) ∧ height s.frame (s.paramTo3d p) = p.y ∧
    Within (1 / 10 ^ 16) (s.to3d p) (s.paramTo3d p) := by
  have e : s.paramTo3d p = pt s.frame ⟨tan s.semiAngle * p.y * cos p.x, tan s.semiAngle * p.y * sin p.x, p.y⟩ := by
    ext <;> simp [Cone.paramTo3d, pt] <;> ring
  rw [e]
  refine ⟨?_, height_pt ho _, localToGlobal_within _ _⟩
  unfold OnCone
  rw [sqDist_pt ho, height_pt ho]
  linear_combination (tan s.semiAngle * p.y) ^ 2 * (cos_sq_add_sin_sq p.x)

/-- C53 (sphere). -/
theorem C53_sphere_on_surface (s : Sphere) (ho : Orthonormal3 s.frame.basis) (p : V2 ℝ) :
    OnSphere s.frame s.radius (s.paramTo3d p) ∧ height s.frame (s.paramTo3d p) = s.radius * sin p.y ∧
    Within (1 / 10 ^ 16) (s.to3d p) (s.paramTo3d p) := by
  have e : s.paramTo3d p = pt s.frame ⟨s.radius * cos p.y * cos p.x, s.radius * cos p.y * sin p.x, s.radius * sin p.y⟩ := by
    ext <;> simp [Sphere.paramTo3d, pt] <;> ring
  rw [e]
  refine ⟨?_, height_pt ho _, localToGlobal_within _ _⟩
  unfold OnSphere
  rw [sqDist_pt ho]
  linear_combination (s.radius * cos p.y) ^ 2 * (cos_sq_add_sin_sq p.x) + s.radius ^ 2 * (cos_sq_add_sin_sq p.y)

/-- C53 (torus). -/
theorem C53_torus_on_surface (s : Torus) (ho : Orthonormal3 s.frame.basis) (p : V2 ℝ) :
    OnTorus s.frame s.majorRadius s.minorRadius (s.paramTo3d p) ∧ height s.frame (s.paramTo3d p) = s.minorRadius * sin p.y ∧
    Within (1 / 10 ^ 16) (s.to3d p) (s.paramTo3d p) := by
  have e : s.paramTo3d p = pt s.frame ⟨(s.majorRadius + s.minorRadius * cos p.y) * cos p.x,
      (s.majorRadius + s.minorRadius * cos p.y) * sin p.x, s.minorRadius * sin p.y⟩ := by
    ext <;> simp [Torus.paramTo3d, pt] <;> ring
  rw [e]
  refine ⟨?_, height_pt ho _, localToGlobal_within _ _⟩
  unfold OnTorus
  rw [sqDist_pt ho, height_pt ho]
  simp only
  have hx := cos_sq_add_sin_sq p.x
  have hy := cos_sq_add_sin_sq p.y
  generalize cos p.x = a at *
  generalize sin p.x = b at *
  generalize cos p.y = c at *
  generalize sin p.y = d at *
  generalize s.majorRadius = R at *
  generalize s.minorRadius = r at *
  have e1 : ((R + r * c) * a) ^ 2 + ((R + r * c) * b) ^ 2 = (R + r * c) ^ 2 := by linear_combination (R + r * c) ^ 2 * hx
  have e2 : (r * d) ^ 2 = r ^ 2 - (r * c) ^ 2 := by linear_combination r ^ 2 * hy
  rw [e1, e2]
  ring

/-! ## Periodicity -/

/-- C53: the declared periodicities of the angle around the axis are periods, exactly, and so is that of the tube of the torus. -/
theorem C53_periodic (c : Cylinder) (k : Cone) (s : Sphere) (t : Torus) (n m : ℤ) (p : V2 ℝ) :
    c.to3d ⟨p.x + n * xPeriodicity, p.y⟩ = c.to3d p ∧ k.to3d ⟨p.x + n * xPeriodicity, p.y⟩ = k.to3d p ∧
    s.to3d ⟨p.x + n * xPeriodicity, p.y⟩ = s.to3d p ∧ t.to3d ⟨p.x + n * xPeriodicity, p.y + m * Torus.yPeriodicity⟩ = t.to3d p := by
  simp only [Cylinder.to3d, Cone.to3d, Sphere.to3d, Torus.to3d, xPeriodicity, Torus.yPeriodicity, cos_add_int_mul_two_pi,
    sin_add_int_mul_two_pi, and_self]

/-- C53: what the declared periodicity in latitude of the sphere would mean. -/
def C53_sphere_period_full_statement : Prop := ∀ (s : Sphere) (p : V2 ℝ), s.to3d ⟨p.x, p.y + Sphere.yPeriodicity⟩ = s.to3d p

/-- C53: `SphericalSurface3D.y_periodicity` (`π`) is not a period: on the unit sphere `(0, 0)` is `(1, 0, 0)`, `(0, π)` is `(-1, 0, 0)`. -/
theorem C53_sphere_period_counterexample : ¬ C53_sphere_period_full_statement := by
  intro h
  have := congrArg V3.x (h ⟨planeXY, 1⟩ ⟨0, 0⟩)
  norm_num [Sphere.to3d, Sphere.yPeriodicity, Frame3.localToGlobal, Basis3.localToGlobal, M33.mulVec, M33.cMulVec, Basis3.transfer, planeXY, flush] at this

/-! ## Round trips -/

/-- C53 (cylinder): every point of the cylinder (given up to 1e-16 per coordinate, in particular exactly) is given back by
`point3d_to_2d` then `point2d_to_3d`, up to the thresholds of the code: `2e-9 r + 2e-11` per coordinate. -/
theorem C53_cylinder_roundtrip (s : Cylinder) (ho : Orthonormal3 s.frame.basis) (hr : 0 ≤ s.radius) (p p0 : V3 ℝ)
    (hp : OnCylinder s.frame s.radius p0) (hw : Within (1 / 10 ^ 16) p p0) :
    ∃ q, s.to2d p = .ok q ∧ Within (2 / 10 ^ 9 * s.radius + 2 / 10 ^ 11) (s.to3d q) p0 := by
  obtain ⟨q, r, rfl, hr', ⟨dx, dy, dz⟩⟩ := globalToLocal_spec ho p p0 hw
  refine ⟨_, by unfold Cylinder.to2d; rw [hr']; rfl, ?_⟩
  unfold OnCylinder at hp
  rw [sqDist_pt ho, height_pt ho] at hp
  obtain ⟨h1, h2⟩ := polar_stable (x := q.x) (y := q.y) (x' := snap (1 / 10 ^ 12) r.x) (y' := snap (1 / 10 ^ 12) r.y)
    (e := 1 / 10 ^ 12 + 4 / 10 ^ 16) (n := 1 / 10 ^ 9) hr (by linarith)
    ((abs_sub_le _ r.x _).trans (add_le_add (snap_dist (by norm_num) _) dx))
    ((abs_sub_le _ r.y _).trans (add_le_add (snap_dist (by norm_num) _) dy)) (snap_dist (by norm_num) _)
  refine ((localToGlobal_within _ _).trans (pt_within (q := ⟨_, _, _⟩) ho h1 h2 dz)).mono ?_
  norm_num; linarith

/-- C53 (cone): the part of the cone where the height and the radius have the same sign is given back. -/
theorem C53_cone_roundtrip_partial (s : Cone) (ho : Orthonormal3 s.frame.basis) (p p0 : V3 ℝ) (hp : OnCone s.frame s.semiAngle p0)
    (hw : Within (1 / 10 ^ 16) p p0) (hz : 0 ≤ tan s.semiAngle * height s.frame p0) :
    ∃ q, s.to2d p = .ok q ∧
      Within (2 / 10 ^ 9 * (tan s.semiAngle * height s.frame p0) + 8 / 10 ^ 16 * |tan s.semiAngle| + 2 / 10 ^ 11) (s.to3d q) p0 := by
  obtain ⟨q, r, rfl, hr', ⟨dx, dy, dz⟩⟩ := globalToLocal_spec ho p p0 hw
  refine ⟨_, by unfold Cone.to2d; rw [hr']; rfl, ?_⟩
  unfold OnCone at hp
  rw [sqDist_pt ho, height_pt ho] at hp
  rw [height_pt ho] at hz ⊢
  obtain ⟨h1, h2⟩ := polar_stable (x := q.x) (y := q.y) (x' := snap (1 / 10 ^ 12) r.x) (y' := snap (1 / 10 ^ 12) r.y)
    (e := 1 / 10 ^ 12 + 4 / 10 ^ 16) (n := 1 / 10 ^ 9) hz (by linarith)
    ((abs_sub_le _ r.x _).trans (add_le_add (snap_dist (by norm_num) _) dx))
    ((abs_sub_le _ r.y _).trans (add_le_add (snap_dist (by norm_num) _) dy)) (snap_dist (by norm_num) _)
  obtain ⟨t, ht⟩ : ∃ t, t = snap (1 / 10 ^ 9) (atan2 (snap (1 / 10 ^ 12) r.y) (snap (1 / 10 ^ 12) r.x)) := ⟨_, rfl⟩
  rw [← ht] at h1 h2 ⊢
  have key : ∀ c x b : ℝ, |c| ≤ 1 → |tan s.semiAngle * q.z * c - x| ≤ b → |tan s.semiAngle * r.z * c - x| ≤ b + |tan s.semiAngle| * (4 / 10 ^ 16) := by
    intro c x b hc h
    rw [show tan s.semiAngle * r.z * c - x = (tan s.semiAngle * q.z * c - x) + tan s.semiAngle * ((r.z - q.z) * c) by ring]
    refine (abs_add_le _ _).trans (add_le_add h ?_)
    rw [abs_mul, abs_mul]
    apply mul_le_mul_of_nonneg_left _ (abs_nonneg _)
    nlinarith [abs_nonneg (r.z - q.z), abs_nonneg c]
  refine ((localToGlobal_within _ _).trans (pt_within (q := ⟨_, _, _⟩) ho (key _ _ _ (abs_cos_le_one _) h1) (key _ _ _ (abs_sin_le_one _) h2) dz)).mono ?_
  norm_num; linarith

/-- C53 (cone): the full statement, on both sides of the apex. -/
def C53_cone_roundtrip_full_statement : Prop :=
  ∀ (s : Cone), Orthonormal3 s.frame.basis → 0 < s.semiAngle → s.semiAngle < π / 2 → ∀ p, OnCone s.frame s.semiAngle p →
    ∃ q, s.to2d p = .ok q ∧ Within (1 / 10 ^ 5 * (1 + |height s.frame p| + |tan s.semiAngle|)) (s.to3d q) p

/-- C53 (cone): below the apex `point2d_to_3d` takes a negative radius, `point3d_to_2d` does not: the point `(1, 0, -1)` of the cone of
half angle `π/4` comes back as `(-1, 0, -1)`. -/
theorem C53_cone_roundtrip_counterexample : ¬ C53_cone_roundtrip_full_statement := by
  intro h
  have ho : Orthonormal3 planeXY.basis := by norm_num [Orthonormal3, planeXY, V3.dot]
  obtain ⟨q, hq, hw, -⟩ := h ⟨planeXY, π / 4⟩ ho (by positivity) (by linarith [pi_pos]) ⟨1, 0, -1⟩
    (by norm_num [OnCone, sqDist, height, planeXY, V3.sqNorm, V3.dot, tan_pi_div_four])
  have hg : planeXY.globalToLocal (⟨1, 0, -1⟩ : V3 ℝ) = .ok ⟨1, 0, -1⟩ := by
    norm_num [Frame3.globalToLocal, Basis3.globalToLocal, M33.inverse, planeXY, Basis3.transfer, M33.det]
    norm_num [M33.mulVec, M33.cMulVec, flush]
  have h0 : atan2 0 1 = 0 := by
    unfold atan2
    exact Complex.arg_one
  have hq' : q = ⟨0, -1⟩ := by
    unfold Cone.to2d at hq
    rw [hg] at hq
    have := Except.ok.inj hq
    rw [← this]
    norm_num [snap, h0]
  subst hq'
  norm_num [Cone.to3d, Frame3.localToGlobal, Basis3.localToGlobal, M33.mulVec, M33.cMulVec, Basis3.transfer, planeXY, flush,
    tan_pi_div_four, height, V3.dot] at hw

theorem sqrt_holder {a b : ℝ} (ha : 0 ≤ a) (hb : 0 ≤ b) : |√a - √b| ≤ √|a - b| := by
  apply abs_le_sqrt
  have h1 := sq_sqrt ha
  have h2 := sq_sqrt hb
  have n1 := sqrt_nonneg a
  have n2 := sqrt_nonneg b
  generalize √a = x at *
  generalize √b = y at *
  subst h1; subst h2
  rcases le_total x y with h | h
  · rw [abs_of_nonpos (by nlinarith)]; nlinarith
  · rw [abs_of_nonneg (by nlinarith)]; nlinarith

/-- The horizontal distance to the centre of the tube from a slightly wrong height. -/
theorem tube_stable {r z z' : ℝ} (hr : 0 ≤ r) (hz : |z| ≤ r) (hz' : |z'| ≤ r) (h : |z' - z| ≤ 4 / 10 ^ 16) :
    |√(r ^ 2 - z' ^ 2) - √(r ^ 2 - z ^ 2)| ≤ 2 / 10 ^ 8 * (1 + r) := by
  have a1 : z ^ 2 ≤ r ^ 2 := sq_le_sq' (by linarith [abs_le.mp hz]) (abs_le.mp hz).2
  have a2 : z' ^ 2 ≤ r ^ 2 := sq_le_sq' (by linarith [abs_le.mp hz']) (abs_le.mp hz').2
  refine (sqrt_holder (by linarith) (by linarith)).trans ?_
  apply sqrt_le_iff.mpr
  refine ⟨by positivity, ?_⟩
  rw [show r ^ 2 - z' ^ 2 - (r ^ 2 - z ^ 2) = -((z' - z) * (z' + z)) by ring, abs_neg, abs_mul]
  have a3 : |z' + z| ≤ 2 * r := (abs_add_le _ _).trans (by linarith)
  have a4 := mul_le_mul h a3 (abs_nonneg _) (by norm_num)
  refine a4.trans ?_
  nlinarith [sq_nonneg r]

theorem clamp_spec {r a z : ℝ} (hr : 0 ≤ r) (hz : |z| ≤ r) {e : ℝ} (h : |a - z| ≤ e) :
    |min r (max (-r) a)| ≤ r ∧ |min r (max (-r) a) - z| ≤ e := by
  obtain ⟨z1, z2⟩ := abs_le.mp hz
  obtain ⟨e1, e2⟩ := abs_le.mp h
  rw [abs_le, abs_le]
  rcases le_total (-r) a with h1 | h1
  · rw [max_eq_right h1]
    rcases le_total r a with h2 | h2
    · rw [min_eq_left h2]; exact ⟨⟨by linarith, le_refl _⟩, by linarith, by linarith⟩
    · rw [min_eq_right h2]; exact ⟨⟨by linarith, by linarith⟩, by linarith, by linarith⟩
  · rw [max_eq_left h1, min_eq_right (by linarith)]; exact ⟨⟨by linarith, by linarith⟩, by linarith, by linarith⟩

theorem arcsin_tube {r z : ℝ} (hr : 0 < r) (hz : |z| ≤ r) :
    r * sin (arcsin (z / r)) = z ∧ r * cos (arcsin (z / r)) = √(r ^ 2 - z ^ 2) := by
  obtain ⟨z1, z2⟩ := abs_le.mp hz
  rw [sin_arcsin (by rw [le_div_iff₀ hr]; linarith) (by rw [div_le_iff₀ hr]; linarith), cos_arcsin]
  refine ⟨by field_simp, ?_⟩
  rw [show r ^ 2 - z ^ 2 = r ^ 2 * (1 - (z / r) ^ 2) by field_simp, sqrt_mul (sq_nonneg r), sqrt_sq hr.le]

/-- C53 (sphere): every point of the sphere, poles included, is given back, up to `1e-6 (1 + r)` per coordinate. -/
theorem C53_sphere_roundtrip (s : Sphere) (ho : Orthonormal3 s.frame.basis) (hr : 0 < s.radius) (p p0 : V3 ℝ)
    (hp : OnSphere s.frame s.radius p0) (hw : Within (1 / 10 ^ 16) p p0) :
    ∃ q, s.to2d p = .ok q ∧ Within (1 / 10 ^ 6 * (1 + s.radius)) (s.to3d q) p0 := by
  obtain ⟨q, g, rfl, hg, ⟨dx, dy, dz⟩⟩ := globalToLocal_spec ho p p0 hw
  refine ⟨_, by unfold Sphere.to2d; rw [hg]; simp only [bind, Except.bind]; rw [if_neg hr.ne']; rfl, ?_⟩
  unfold OnSphere at hp
  rw [sqDist_pt ho] at hp
  unfold Sphere.to3d
  generalize s.radius = r at *
  have hz : |q.z| ≤ r := abs_le_of_sq_le_sq (by nlinarith [sq_nonneg q.x, sq_nonneg q.y]) hr.le
  obtain ⟨c1, c2⟩ := clamp_spec hr.le hz dz
  obtain ⟨z', hz'⟩ : ∃ z', z' = min r (max (-r) g.z) := ⟨_, rfl⟩
  rw [← hz'] at c1 c2 ⊢
  have ht := tube_stable hr.le hz c1 c2
  obtain ⟨s1, s2⟩ := arcsin_tube hr c1
  rw [← s2] at ht
  have hsn := snap_dist (eps := 1 / 10 ^ 10) (by norm_num) (arcsin (z' / r))
  obtain ⟨phi, hphi⟩ : ∃ phi, phi = snap (1 / 10 ^ 10) (arcsin (z' / r)) := ⟨_, rfl⟩
  rw [← hphi] at hsn ⊢
  have hc := (cos_lip _ _).trans hsn
  have hs := (sin_lip _ _).trans hsn
  have hrho0 := sqrt_nonneg (r ^ 2 - q.z ^ 2)
  have hrho2 : √(r ^ 2 - q.z ^ 2) ^ 2 = q.x ^ 2 + q.y ^ 2 := by
    rw [sq_sqrt (by nlinarith [sq_nonneg q.x, sq_nonneg q.y])]; linarith
  have hrho3 : √(r ^ 2 - q.z ^ 2) ≤ r := by
    apply sqrt_le_iff.mpr; exact ⟨hr.le, by nlinarith [sq_nonneg q.z]⟩
  generalize √(r ^ 2 - q.z ^ 2) = rho at *
  obtain ⟨h1, h2⟩ := polar_stable (x := q.x) (y := q.y) (x' := snap (1 / 10 ^ 7) g.x) (y' := snap (1 / 10 ^ 7) g.y)
    (e := 1 / 10 ^ 7 + 4 / 10 ^ 16) (n := 1 / 10 ^ 10) hrho0 hrho2.symm
    ((abs_sub_le _ g.x _).trans (add_le_add (snap_dist (by norm_num) _) dx))
    ((abs_sub_le _ g.y _).trans (add_le_add (snap_dist (by norm_num) _) dy)) (snap_dist (by norm_num) _)
  obtain ⟨t, ht'⟩ : ∃ t, t = snap (1 / 10 ^ 10) (atan2 (snap (1 / 10 ^ 7) g.y) (snap (1 / 10 ^ 7) g.x)) := ⟨_, rfl⟩
  rw [← ht'] at h1 h2 ⊢
  have hE : |r * cos phi - rho| ≤ 2 / 10 ^ 8 * (1 + r) + r * (1 / 10 ^ 10) := by
    rw [show r * cos phi - rho = (r * cos (arcsin (z' / r)) - rho) + r * (cos phi - cos (arcsin (z' / r))) by ring]
    refine (abs_add_le _ _).trans (add_le_add ht ?_)
    rw [abs_mul, abs_of_pos hr]
    exact mul_le_mul_of_nonneg_left hc hr.le
  have hZ : |r * sin phi - q.z| ≤ r * (1 / 10 ^ 10) + 4 / 10 ^ 16 := by
    rw [show r * sin phi - q.z = r * (sin phi - sin (arcsin (z' / r))) + (r * sin (arcsin (z' / r)) - q.z) by ring, s1]
    refine (abs_add_le _ _).trans (add_le_add ?_ c2)
    rw [abs_mul, abs_of_pos hr]
    exact mul_le_mul_of_nonneg_left hs hr.le
  have key : ∀ c x b : ℝ, |c| ≤ 1 → |rho * c - x| ≤ b → |r * cos phi * c - x| ≤ b + (2 / 10 ^ 8 * (1 + r) + r * (1 / 10 ^ 10)) := by
    intro c x b hc h
    rw [show r * cos phi * c - x = (rho * c - x) + (r * cos phi - rho) * c by ring]
    refine (abs_add_le _ _).trans (add_le_add h ?_)
    rw [abs_mul]
    nlinarith [abs_nonneg (r * cos phi - rho), abs_nonneg c]
  refine ((localToGlobal_within _ _).trans (pt_within (q := ⟨_, _, _⟩) ho (key _ _ _ (abs_cos_le_one _) h1) (key _ _ _ (abs_sin_le_one _) h2) hZ)).mono ?_
  norm_num; linarith

/-! ## The torus -/

theorem atan2_scale {k : ℝ} (hk : 0 < k) (x y : ℝ) : atan2 (y / k) (x / k) = atan2 y x := by
  unfold atan2
  have : (⟨x / k, y / k⟩ : ℂ) = ((1 / k : ℝ) : ℂ) * ⟨x, y⟩ := by
    apply Complex.ext <;> simp <;> ring
  rw [this, Complex.arg_real_mul _ (by positivity)]

/-- The angle of `vectors3d_angle` is above a right angle exactly when the dot product is negative. -/
theorem angle_gt_iff {u v : V3 ℝ} {t : ℝ} (h : vectors3dAngle u v = some t) : t > 1 / 2 * π ↔ V3.dot u v < 0 := by
  unfold vectors3dAngle at h
  split_ifs at h with h0
  have h := Option.some.inj h
  subst h
  have hpos : 0 < V3.norm u * V3.norm v :=
    lt_of_le_of_ne (mul_nonneg (V3.norm_nonneg _) (V3.norm_nonneg _)) (Ne.symm h0)
  rw [gt_iff_lt, ← not_le, show 1 / 2 * π = π / 2 by ring, arccos_le_pi_div_two, not_le]
  constructor
  · intro h
    have : V3.dot u v / (V3.norm u * V3.norm v) < 0 := by
      by_contra hc
      push Not at hc
      have : 0 ≤ max (min (V3.dot u v / (V3.norm u * V3.norm v)) 1) (-1) := le_max_of_le_left (le_min hc (by norm_num))
      linarith
    by_contra hc
    push Not at hc
    linarith [div_nonneg hc hpos.le]
  · intro h
    apply max_lt _ (by norm_num)
    exact lt_of_le_of_lt (min_le_left _ _) (div_neg_of_neg_of_pos h hpos)

theorem torusPhi_spec {phi phi2 : ℝ} (h : |phi| ≤ π / 2) :
    sin (torusPhi phi phi2) = sin phi ∧ cos (torusPhi phi phi2) = (if phi2 > 1 / 2 * π then -cos phi else cos phi) ∧
    |torusPhi phi phi2| ≤ π := by
  obtain ⟨h1, h2⟩ := abs_le.mp h
  have hp := pi_pos
  unfold torusPhi
  by_cases h3 : phi2 > 1 / 2 * π
  · by_cases h4 : phi ≥ 0
    · rw [if_pos ⟨h4, h3⟩, if_pos h3]
      refine ⟨sin_pi_sub _, cos_pi_sub _, ?_⟩
      rw [abs_le]; constructor <;> linarith
    · rw [if_neg (fun h => h4 h.1), if_pos ⟨not_le.mp h4, h3⟩, if_pos h3]
      refine ⟨?_, ?_, ?_⟩
      · rw [show -π - phi = -(phi + π) by ring, sin_neg, sin_add_pi, neg_neg]
      · rw [show -π - phi = -(phi + π) by ring, cos_neg, cos_add_pi]
      · rw [abs_le]; constructor <;> linarith [not_le.mp h4]
  · rw [if_neg (fun h => h3 h.2), if_neg (fun h => h3 h.2), if_neg h3]
    exact ⟨rfl, rfl, h.trans (by linarith)⟩

/-- The correction for the self-intersecting torus: the radius is taken positive. -/
theorem torusTheta_spec {R r theta phi : ℝ} (hR : 0 ≤ R) (hr : 0 < r) (hphi : |phi| ≤ π) :
    (R + r * cos phi) * cos (torusTheta R r theta phi) = |R + r * cos phi| * cos theta ∧
    (R + r * cos phi) * sin (torusTheta R r theta phi) = |R + r * cos phi| * sin theta := by
  have hc : cos phi = cos |phi| := (cos_abs _).symm
  unfold torusTheta
  by_cases h1 : R < r
  · have hdiv : -1 ≤ -R / r := by rw [le_div_iff₀ hr]; linarith
    have hdiv2 : -R / r ≤ 1 := by rw [div_le_iff₀ hr]; linarith
    by_cases h2 : |phi| > arccos (-R / r)
    · have h3 : cos |phi| < cos (arccos (-R / r)) := cos_lt_cos_of_nonneg_of_le_pi (arccos_nonneg _) hphi h2
      rw [cos_arccos hdiv hdiv2, ← hc, lt_div_iff₀ hr] at h3
      rw [if_pos ⟨h1, h2⟩, abs_of_neg (by linarith)]
      split_ifs
      · rw [cos_sub_pi, sin_sub_pi]; constructor <;> ring
      · rw [cos_add_pi, sin_add_pi]; constructor <;> ring
    · have h3 : cos (arccos (-R / r)) ≤ cos |phi| := cos_le_cos_of_nonneg_of_le_pi (abs_nonneg _) (arccos_le_pi _) (not_lt.mp h2)
      rw [cos_arccos hdiv hdiv2, ← hc, div_le_iff₀ hr] at h3
      rw [if_neg (fun h => h2 h.2), abs_of_nonneg (by linarith)]
      exact ⟨rfl, rfl⟩
  · rw [if_neg (fun h => h1 h.1), abs_of_nonneg (by nlinarith [neg_one_le_cos phi])]
    exact ⟨rfl, rfl⟩

/-- Which side of the tube: the choice made with slightly wrong data gives the right distance to the axis up to the errors. -/
theorem side_stable {R r rho rho' c c' e D : ℝ} (h : r + 2 * e < 2 * R) (hc0 : 0 ≤ c) (hcr : c ≤ r) (hR : 0 < R)
    (hrho : rho = R + c ∨ rho = |R - c|) (hd : |rho' - rho| ≤ e) (hD : |c' - c| ≤ D) :
    |(|R + (if rho' < R then -c' else c')|) - rho| ≤ D + 2 * e := by
  obtain ⟨d1, d2⟩ := abs_le.mp hd
  have he : 0 ≤ e := (abs_nonneg _).trans hd
  have key : ∀ a b : ℝ, 0 ≤ b → abs (|a| - b) ≤ |a - b| := by
    intro a b hb
    have := abs_abs_sub_abs_le_abs_sub a b
    rwa [abs_of_nonneg hb] at this
  split_ifs with h1
  · rcases hrho with h2 | h2
    · refine (key _ _ (by rw [h2]; linarith)).trans ?_
      rw [h2, show R + -c' - (R + c) = -(c' - c) - 2 * c by ring]
      have := abs_sub (-(c' - c)) (2 * c)
      rw [abs_neg, abs_of_nonneg (show 0 ≤ 2 * c by linarith)] at this
      refine this.trans ?_
      linarith
    · rw [h2]
      refine (abs_abs_sub_abs_le_abs_sub _ _).trans ?_
      rw [show R + -c' - (R - c) = -(c' - c) by ring, abs_neg]
      linarith
  · push Not at h1
    rcases hrho with h2 | h2
    · refine (key _ _ (by rw [h2]; linarith)).trans ?_
      rw [h2, show R + c' - (R + c) = c' - c by ring]
      linarith
    · have hcR : c ≤ R := by
        by_contra hcon
        rw [abs_of_neg (by linarith)] at h2
        linarith
      rw [abs_of_nonneg (by linarith)] at h2
      refine (key _ _ (by rw [h2]; linarith)).trans ?_
      rw [h2, show R + c' - (R - c) = (c' - c) + 2 * c by ring]
      have := abs_add_le (c' - c) (2 * c)
      rw [abs_of_nonneg (show 0 ≤ 2 * c by linarith)] at this
      refine this.trans ?_
      linarith

theorem torus_height {z z' zc r : ℝ} (hr : 0 < r) (hz : |z| ≤ r) (hzc : |zc| ≤ r) (hd : |zc - z| ≤ 4 / 10 ^ 16) (h : z' = snap (1 / 10 ^ 6) zc) :
    |z'| ≤ r ∧ |z' - z| ≤ 1 / 10 ^ 6 + 4 / 10 ^ 16 ∧ |√(r ^ 2 - z' ^ 2) - √(r ^ 2 - z ^ 2)| ≤ 11 / 10 ^ 7 + 2 / 10 ^ 8 * (1 + r) := by
  have hdist : |z' - z| ≤ 1 / 10 ^ 6 + 4 / 10 ^ 16 := by
    rw [h]; exact (abs_sub_le _ zc _).trans (add_le_add (snap_dist (by norm_num) _) hd)
  unfold snap at h
  split_ifs at h with h1
  · subst h
    refine ⟨by simpa using hr.le, hdist, ?_⟩
    rw [zero_sub, abs_neg] at hdist
    have a1 : z ^ 2 ≤ r ^ 2 := sq_le_sq' (by linarith [abs_le.mp hz]) (abs_le.mp hz).2
    refine (sqrt_holder (by nlinarith) (by linarith)).trans ?_
    rw [show r ^ 2 - 0 ^ 2 - (r ^ 2 - z ^ 2) = z ^ 2 by ring, abs_of_nonneg (sq_nonneg z), sqrt_sq_eq_abs]
    norm_num at hdist ⊢
    linarith
  · subst h
    refine ⟨hzc, hdist, (tube_stable hr.le hz hzc hd).trans ?_⟩
    norm_num

set_option maxHeartbeats 1000000 in
/-- The local part of the round trip on the torus. -/
theorem torus_local {R r : ℝ} {q g : V3 ℝ} (hr : 1 / 10 ^ 5 < r) (hRr : r + 1 / 10 ^ 5 ≤ 2 * R) (hg : Within (4 / 10 ^ 16) g q)
    (ht : (q.x ^ 2 + q.y ^ 2 + q.z ^ 2 + R ^ 2 - r ^ 2) ^ 2 = 4 * R ^ 2 * (q.x ^ 2 + q.y ^ 2)) :
    ∃ a, Torus.localTo2d R r g = some a ∧ |(R + r * cos a.y) * cos a.x - q.x| ≤ 3 / 10 ^ 6 * (1 + R + r) ∧
      |(R + r * cos a.y) * sin a.x - q.y| ≤ 3 / 10 ^ 6 * (1 + R + r) ∧ |r * sin a.y - q.z| ≤ 3 / 10 ^ 6 * (1 + R + r) := by
  obtain ⟨dx, dy, dz⟩ := hg
  have hr0 : 0 < r := lt_trans (by norm_num) hr
  have hR0 : 0 < R := by linarith
  obtain ⟨rho, hrho⟩ : ∃ rho, rho = √(q.x ^ 2 + q.y ^ 2) := ⟨_, rfl⟩
  have hrho0 : 0 ≤ rho := by rw [hrho]; exact sqrt_nonneg _
  have hrho2 : q.x ^ 2 + q.y ^ 2 = rho ^ 2 := by rw [hrho, sq_sqrt (by positivity)]
  rw [hrho2] at ht
  have htube : (rho - R) ^ 2 + q.z ^ 2 = r ^ 2 ∨ (rho + R) ^ 2 + q.z ^ 2 = r ^ 2 := by
    have : ((rho - R) ^ 2 + q.z ^ 2 - r ^ 2) * ((rho + R) ^ 2 + q.z ^ 2 - r ^ 2) = 0 := by linear_combination ht
    rcases mul_eq_zero.mp this with h | h
    · left; linarith
    · right; linarith
  have hz2 : q.z ^ 2 ≤ r ^ 2 := by
    rcases htube with h | h
    · nlinarith [sq_nonneg (rho - R)]
    · nlinarith [sq_nonneg (rho + R)]
  have hz : |q.z| ≤ r := abs_le_of_sq_le_sq hz2 hr0.le
  obtain ⟨c, hc⟩ : ∃ c, c = √(r ^ 2 - q.z ^ 2) := ⟨_, rfl⟩
  have hc0 : 0 ≤ c := by rw [hc]; exact sqrt_nonneg _
  have hc2 : c ^ 2 = r ^ 2 - q.z ^ 2 := by rw [hc, sq_sqrt (by linarith)]
  have hcr : c ≤ r := abs_le_of_sq_le_sq (by nlinarith [sq_nonneg q.z]) hr0.le |> fun h => (abs_le.mp h).2
  have hside : rho = R + c ∨ rho = |R - c| := by
    rcases htube with h | h
    · have h' : (rho - R - c) * (rho - R + c) = 0 := by linear_combination h - hc2
      rcases mul_eq_zero.mp h' with h1 | h1
      · left; linarith
      · right
        rw [show R - c = rho by linarith, abs_of_nonneg hrho0]
    · have h' : (rho + R - c) * (rho + R + c) = 0 := by linear_combination h - hc2
      rcases mul_eq_zero.mp h' with h1 | h1
      · right
        rw [abs_sub_comm, show c - R = rho by linarith, abs_of_nonneg hrho0]
      · exfalso; linarith
  have hrhoB : rho ≤ R + r := by
    rcases hside with h | h
    · linarith
    · rw [h, abs_le]; constructor <;> linarith
  -- the data of the code
  obtain ⟨x', hx'⟩ : ∃ x', x' = snap (1 / 10 ^ 12) g.x := ⟨_, rfl⟩
  obtain ⟨y', hy'⟩ : ∃ y', y' = snap (1 / 10 ^ 12) g.y := ⟨_, rfl⟩
  obtain ⟨zc, hzc⟩ : ∃ zc, zc = min r (max (-r) g.z) := ⟨_, rfl⟩
  obtain ⟨z', hz'⟩ : ∃ z', z' = snap (1 / 10 ^ 6) zc := ⟨_, rfl⟩
  obtain ⟨cl1, cl2⟩ := clamp_spec hr0.le hz dz
  rw [← hzc] at cl1 cl2
  obtain ⟨th1, th2, th3⟩ := torus_height hr0 hz cl1 cl2 hz'
  rw [← hc] at th3
  have ex : |x' - q.x| ≤ 1 / 10 ^ 12 + 4 / 10 ^ 16 := by
    rw [hx']; exact (abs_sub_le _ g.x _).trans (add_le_add (snap_dist (by norm_num) _) dx)
  have ey : |y' - q.y| ≤ 1 / 10 ^ 12 + 4 / 10 ^ 16 := by
    rw [hy']; exact (abs_sub_le _ g.y _).trans (add_le_add (snap_dist (by norm_num) _) dy)
  obtain ⟨c', hc'⟩ : ∃ c', c' = √(r ^ 2 - z' ^ 2) := ⟨_, rfl⟩
  rw [← hc'] at th3
  have hc'0 : 0 ≤ c' := by rw [hc']; exact sqrt_nonneg _
  obtain ⟨theta, htheta⟩ : ∃ theta, theta = atan2 y' x' := ⟨_, rfl⟩
  obtain ⟨p1, p2⟩ := polar x' y'
  obtain ⟨rho', hrho'⟩ : ∃ rho', rho' = √(x' ^ 2 + y' ^ 2) := ⟨_, rfl⟩
  rw [← hrho', ← htheta] at p1 p2
  have hrd : |rho' - rho| ≤ 3 / 10 ^ 12 := by
    have := hypot_lip x' y' q.x q.y
    rw [← hrho, ← hrho'] at this
    norm_num at ex ey ⊢
    linarith
  obtain ⟨as1, as2⟩ := arcsin_tube hr0 th1
  rw [← hc'] at as2
  obtain ⟨phi0, hphi0⟩ : ∃ phi0, phi0 = arcsin (z' / r) := ⟨_, rfl⟩
  rw [← hphi0] at as1 as2
  obtain ⟨phi1, hphi1⟩ : ∃ phi1, phi1 = snap (1 / 10 ^ 9) phi0 := ⟨_, rfl⟩
  have hphi1B : |phi1| ≤ π / 2 := by
    rw [hphi1]; unfold snap
    split_ifs
    · simp; positivity
    · rw [hphi0, abs_le]; exact ⟨neg_pi_div_two_le_arcsin _, arcsin_le_pi_div_two _⟩
  have hs1 : |phi1 - phi0| ≤ 1 / 10 ^ 9 := by rw [hphi1]; exact snap_dist (by norm_num) _
  obtain ⟨tube, htu⟩ : ∃ tube : V3 ℝ, tube = ⟨|R| * cos theta, |R| * sin theta, 0⟩ := ⟨_, rfl⟩
  have hdot : V3.dot tube (⟨x', y', z'⟩ - tube) = R * (rho' - R) := by
    rw [htu, abs_of_pos hR0]
    simp only [V3.dot, V3.sub_x, V3.sub_y, V3.sub_z]
    rw [← p1, ← p2]
    linear_combination (R * rho' - R ^ 2) * cos_sq_add_sin_sq theta
  have hnz : ∃ phi2, vectors3dAngle tube (⟨x', y', z'⟩ - tube) = some phi2 := by
    unfold vectors3dAngle
    have htn : V3.norm tube ≠ 0 := by
      intro h0
      have h0 := (V3.norm_eq_zero_iff _).mp h0
      rw [htu] at h0
      have hx0 := congrArg V3.x h0
      have hy0 := congrArg V3.y h0
      simp only at hx0 hy0
      have := cos_sq_add_sin_sq theta
      rcases mul_eq_zero.mp hx0 with h | h
      · rw [abs_eq_zero] at h; linarith
      · rcases mul_eq_zero.mp hy0 with h' | h'
        · rw [abs_eq_zero] at h'; linarith
        · rw [h, h'] at this; norm_num at this
    have hdn : V3.norm (⟨x', y', z'⟩ - tube) ≠ 0 := by
      intro h0
      have h0 := (V3.norm_eq_zero_iff _).mp h0
      have hz0 : z' = 0 := by
        have := congrArg V3.z h0
        rw [htu] at this
        simpa using this
      have hd0 : R * (rho' - R) = 0 := by rw [← hdot, h0]; simp [V3.dot]
      have hrR : rho' = R := by
        rcases mul_eq_zero.mp hd0 with h | h <;> linarith
      rw [hz0, zero_sub, abs_neg] at th2
      rw [hrR] at hrd
      obtain ⟨a1, a2⟩ := abs_le.mp hrd
      obtain ⟨b1, b2⟩ := abs_le.mp th2
      have hzz : q.z ^ 2 ≤ (2 / 10 ^ 6) ^ 2 := sq_le_sq' (by norm_num at b1 ⊢; linarith) (by norm_num at b2 ⊢; linarith)
      have hr2 : (1 / 10 ^ 5 : ℝ) ^ 2 < r ^ 2 := by
        have := mul_pos (sub_pos.mpr hr) (by linarith : 0 < r + 1 / 10 ^ 5)
        nlinarith
      rcases htube with h | h
      · have : (rho - R) ^ 2 ≤ (3 / 10 ^ 12) ^ 2 := sq_le_sq' (by linarith) (by linarith)
        norm_num at this hzz hr2
        linarith
      · have h1 : (rho + R) ^ 2 ≤ r ^ 2 := by nlinarith [sq_nonneg q.z]
        have h2 := (abs_le.mp (abs_le_of_sq_le_sq h1 hr0.le)).2
        have : r + 1 / 10 ^ 5 ≤ r + 3 / 10 ^ 12 := by linarith
        norm_num at this
    rw [if_neg (mul_ne_zero htn hdn)]
    exact ⟨_, rfl⟩
  obtain ⟨phi2, hphi2⟩ := hnz
  have hgt := angle_gt_iff hphi2
  rw [hdot] at hgt
  have hgt' : phi2 > 1 / 2 * π ↔ rho' < R := by
    rw [hgt]
    constructor
    · intro h
      by_contra hcon
      push Not at hcon
      have := mul_nonneg hR0.le (sub_nonneg.mpr hcon)
      linarith
    · intro h
      exact mul_neg_of_pos_of_neg hR0 (by linarith)
  obtain ⟨tp1, tp2, tp3⟩ := torusPhi_spec (phi2 := phi2) hphi1B
  obtain ⟨phi3, hphi3⟩ : ∃ phi3, phi3 = torusPhi phi1 phi2 := ⟨_, rfl⟩
  rw [← hphi3] at tp1 tp2 tp3
  obtain ⟨phi4, hphi4⟩ : ∃ phi4, phi4 = snap (1 / 10 ^ 9) phi3 := ⟨_, rfl⟩
  have hs4 : |phi4 - phi3| ≤ 1 / 10 ^ 9 := by rw [hphi4]; exact snap_dist (by norm_num) _
  have hphi4B : |phi4| ≤ π := by
    rw [hphi4]; unfold snap
    split_ifs
    · simp; positivity
    · exact tp3
  obtain ⟨tt1, tt2⟩ := torusTheta_spec (theta := snap (1 / 10 ^ 9) theta) hR0.le hr0 hphi4B
  refine ⟨⟨torusTheta R r (snap (1 / 10 ^ 9) theta) phi4, phi4⟩, ?_, ?_⟩
  · unfold Torus.localTo2d
    simp only [← hx', ← hy', ← hzc, ← hz', ← hc', ← hphi0, ← hphi1, atan2_scale (show 0 < R + c' by linarith), ← htheta, ← htu, hphi2, ← hphi3,
      ← hphi4]
  simp only
  rw [tt1, tt2]
  have hcos : |r * cos phi4 - (if rho' < R then -c' else c')| ≤ r * (2 / 10 ^ 9) := by
    have e1 : (if rho' < R then -c' else c') = r * (if phi2 > 1 / 2 * π then -cos phi0 else cos phi0) := by
      by_cases h : rho' < R
      · rw [if_pos h, if_pos (hgt'.mpr h), ← as2]; ring
      · rw [if_neg h, if_neg (fun h' => h (hgt'.mp h')), ← as2]
    have e2 : |cos phi3 - (if phi2 > 1 / 2 * π then -cos phi0 else cos phi0)| ≤ 1 / 10 ^ 9 := by
      rw [tp2]
      by_cases h : phi2 > 1 / 2 * π
      · rw [if_pos h, if_pos h, show -cos phi1 - -cos phi0 = -(cos phi1 - cos phi0) by ring, abs_neg]
        exact (cos_lip _ _).trans hs1
      · rw [if_neg h, if_neg h]
        exact (cos_lip _ _).trans hs1
    have e3 := (cos_lip phi4 phi3).trans hs4
    rw [e1, ← mul_sub, abs_mul, abs_of_pos hr0]
    apply mul_le_mul_of_nonneg_left _ hr0.le
    have := abs_sub_le (cos phi4) (cos phi3) (if phi2 > 1 / 2 * π then -cos phi0 else cos phi0)
    norm_num at this e2 e3 ⊢
    linarith
  have hside' := side_stable (e := 3 / 10 ^ 12) (r := r) (by norm_num at hRr ⊢; linarith) hc0 hcr hR0 hside hrd th3
  obtain ⟨b, hb⟩ : ∃ b, b = (if rho' < R then -c' else c') := ⟨_, rfl⟩
  rw [← hb] at hside' hcos
  have hE : abs (|R + r * cos phi4| - rho) ≤ 13 / 10 ^ 7 + 3 / 10 ^ 8 * (1 + r) := by
    have := abs_abs_sub_abs_le_abs_sub (R + r * cos phi4) (R + b)
    rw [show R + r * cos phi4 - (R + b) = r * cos phi4 - b by ring] at this
    have h2 := abs_sub_le |R + r * cos phi4| |R + b| rho
    norm_num at this h2 hside' hcos ⊢
    linarith
  obtain ⟨h1, h2⟩ := polar_stable (n := 1 / 10 ^ 9) (t := snap (1 / 10 ^ 9) theta) hrho0 hrho2 ex ey
    (by rw [← htheta]; exact snap_dist (by norm_num) _)
  have key : ∀ c x : ℝ, |c| ≤ 1 → |rho * c - x| ≤ rho * (1 / 10 ^ 9) + 3 * (1 / 10 ^ 12 + 4 / 10 ^ 16) →
      |(|R + r * cos phi4|) * c - x| ≤ 3 / 10 ^ 6 * (1 + R + r) := by
    intro c x hc h
    rw [show |R + r * cos phi4| * c - x = (rho * c - x) + (|R + r * cos phi4| - rho) * c by ring]
    have hm : |(|R + r * cos phi4| - rho) * c| ≤ 13 / 10 ^ 7 + 3 / 10 ^ 8 * (1 + r) := by
      rw [abs_mul]
      exact (mul_le_of_le_one_right (abs_nonneg _) hc).trans hE
    refine (abs_add_le _ _).trans ((add_le_add h hm).trans ?_)
    norm_num at hrhoB ⊢
    linarith
  refine ⟨key _ _ (abs_cos_le_one _) h1, key _ _ (abs_sin_le_one _) h2, ?_⟩
  have e2 := (sin_lip phi1 phi0).trans hs1
  have e3 := (sin_lip phi4 phi3).trans hs4
  rw [tp1] at e3
  rw [show r * sin phi4 - q.z = r * (sin phi4 - sin phi1) + r * (sin phi1 - sin phi0) + (r * sin phi0 - q.z) by ring, as1]
  have f1 : |r * (sin phi4 - sin phi1)| ≤ r * (1 / 10 ^ 9) := by
    rw [abs_mul, abs_of_pos hr0]; exact mul_le_mul_of_nonneg_left e3 hr0.le
  have f2 : |r * (sin phi1 - sin phi0)| ≤ r * (1 / 10 ^ 9) := by
    rw [abs_mul, abs_of_pos hr0]; exact mul_le_mul_of_nonneg_left e2 hr0.le
  have g1 := abs_add_le (r * (sin phi4 - sin phi1) + r * (sin phi1 - sin phi0)) (z' - q.z)
  have g2 := abs_add_le (r * (sin phi4 - sin phi1)) (r * (sin phi1 - sin phi0))
  norm_num at f1 f2 g1 g2 th2 ⊢
  linarith

/-- C53 (torus): every point of the torus is given back by `point3d_to_2d` then `point2d_to_3d`, up to `1e-5 (1 + R + r)` per
coordinate, as soon as the minor radius is above 1e-5 and below twice the major radius (self-intersecting tori included). -/
theorem C53_torus_roundtrip_partial (s : Torus) (ho : Orthonormal3 s.frame.basis) (hr : 1 / 10 ^ 5 < s.minorRadius)
    (hR : s.minorRadius + 1 / 10 ^ 5 ≤ 2 * s.majorRadius) (p p0 : V3 ℝ) (hp : OnTorus s.frame s.majorRadius s.minorRadius p0)
    (hw : Within (1 / 10 ^ 16) p p0) :
    ∃ q, s.to2d p = .ok q ∧ Within (1 / 10 ^ 5 * (1 + s.majorRadius + s.minorRadius)) (s.to3d q) p0 := by
  obtain ⟨q, g, rfl, hg, hw⟩ := globalToLocal_spec ho p p0 hw
  unfold OnTorus at hp
  rw [sqDist_pt ho, height_pt ho] at hp
  obtain ⟨a, ha, h1, h2, h3⟩ := torus_local hr hR hw (by linear_combination hp)
  refine ⟨a, by unfold Torus.to2d; rw [hg]; simp only [bind, Except.bind]; rw [ha]; rfl, ?_⟩
  refine ((localToGlobal_within _ _).trans (pt_within (q := ⟨_, _, _⟩) ho h1 h2 h3)).mono ?_
  norm_num at hr hR ⊢
  linarith

/-- C53 (torus): the full statement, for every minor radius. -/
def C53_torus_roundtrip_full_statement : Prop :=
  ∀ (s : Torus), Orthonormal3 s.frame.basis → 1 / 10 ^ 5 < s.minorRadius → 1 / 10 ^ 5 < s.majorRadius → ∀ p, OnTorus s.frame s.majorRadius s.minorRadius p →
    ∃ q, s.to2d p = .ok q ∧ Within (1 / 10 ^ 5 * (1 + s.majorRadius + s.minorRadius)) (s.to3d q) p

/-- C53 (torus): with `R = 1`, `r = 3` the point `(2, 0, 0)` of the inner sheet comes back as `(4, 0, 0)`. -/
theorem C53_torus_roundtrip_counterexample : ¬ C53_torus_roundtrip_full_statement := by
  intro h
  have ho : Orthonormal3 planeXY.basis := by norm_num [Orthonormal3, planeXY, V3.dot]
  obtain ⟨q, hq, hw, -⟩ := h ⟨planeXY, 1, 3⟩ ho (by norm_num) (by norm_num) ⟨2, 0, 0⟩
    (by norm_num [OnTorus, sqDist, height, planeXY, V3.sqNorm, V3.dot])
  have hg : planeXY.globalToLocal (⟨2, 0, 0⟩ : V3 ℝ) = .ok ⟨2, 0, 0⟩ := by
    norm_num [Frame3.globalToLocal, Basis3.globalToLocal, M33.inverse, planeXY, Basis3.transfer, M33.det]
    norm_num [M33.mulVec, M33.cMulVec, flush]
  have h0 : atan2 0 (2 / 4) = 0 := by
    unfold atan2
    exact Complex.arg_ofReal_of_nonneg (x := 2 / 4) (by norm_num)
  have hang : vectors3dAngle ⟨1, 0, 0⟩ ⟨1, 0, 0⟩ = some 0 := by
    norm_num [vectors3dAngle, V3.norm, V3.dot, V3.sqNorm]
  have hl : Torus.localTo2d 1 3 ⟨2, 0, 0⟩ = some ⟨0, 0⟩ := by
    have e1 : min (3 : ℝ) (max (-3) 0) = 0 := by norm_num
    have e2 : snap (1 / 10 ^ 12) 2 = 2 := by norm_num [snap]
    have e3 : ∀ k, snap k 0 = 0 := by intro k; simp [snap]
    have e4 : ((⟨2, 0, 0⟩ : V3 ℝ) - ⟨1, 0, 0⟩) = ⟨1, 0, 0⟩ := by ext <;> simp <;> norm_num
    have e5 : (1 : ℝ) + √(3 ^ 2 - 0 ^ 2) = 4 := by
      rw [show ((3 : ℝ) ^ 2 - 0 ^ 2) = 3 ^ 2 by norm_num, sqrt_sq (by norm_num)]; norm_num
    have e6 : torusPhi 0 0 = 0 := by
      unfold torusPhi
      rw [if_neg (by rintro ⟨-, h⟩; linarith [pi_pos]), if_neg (by rintro ⟨-, h⟩; linarith [pi_pos])]
    have e7 : torusTheta 1 3 0 0 = 0 := by
      unfold torusTheta
      rw [if_neg]
      rintro ⟨-, h⟩
      rw [abs_zero] at h
      linarith [arccos_nonneg (-1 / 3)]
    unfold Torus.localTo2d
    simp only [e1, e2, e3, e5, zero_div, h0, cos_zero, sin_zero, abs_one, mul_one, mul_zero, e4, hang, arcsin_zero, e6, e7]
  have hq' : q = ⟨0, 0⟩ := by
    unfold Torus.to2d at hq
    rw [hg] at hq
    simp only [bind, Except.bind] at hq
    rw [hl] at hq
    exact (Except.ok.inj hq).symm
  subst hq'
  norm_num [Torus.to3d, Frame3.localToGlobal, Basis3.localToGlobal, M33.mulVec, M33.cMulVec, Basis3.transfer, planeXY, flush] at hw

/-! Non-vacuity: a tilted orthonormal frame, a point of each surface and surfaces of radius 2. -/
noncomputable def tilted : Frame3 ℝ := ⟨⟨1, 2, 3⟩, ⟨⟨3 / 5, 4 / 5, 0⟩, ⟨-4 / 5, 3 / 5, 0⟩, ⟨0, 0, 1⟩⟩⟩
example : Orthonormal3 tilted.basis := by norm_num [Orthonormal3, tilted, V3.dot]
example : OnCylinder tilted 2 ⟨3, 2, 7⟩ := by norm_num [OnCylinder, sqDist, height, tilted, V3.sqNorm, V3.dot]
example : OnSphere tilted 3 ⟨3, 4, 4⟩ := by norm_num [OnSphere, sqDist, tilted, V3.sqNorm]
example : OnCone tilted (π / 4) ⟨4, 6, 8⟩ ∧ 0 ≤ tan (π / 4) * height tilted ⟨4, 6, 8⟩ := by
  norm_num [OnCone, sqDist, height, tilted, V3.sqNorm, V3.dot, tan_pi_div_four]
example : OnTorus tilted 3 2 ⟨4, 2, 5⟩ := by norm_num [OnTorus, sqDist, height, tilted, V3.sqNorm, V3.dot]
example : OnTorus tilted 2 3 ⟨1, 2, 3 + √5⟩ := by
  have : √5 ^ 2 = (5 : ℝ) := sq_sqrt (by norm_num)
  norm_num [OnTorus, sqDist, height, tilted, V3.sqNorm, V3.dot]

end Volmdlr.Surface
