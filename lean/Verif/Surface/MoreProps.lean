import Verif.Surface.Props
import Verif.BBox.Props

/-!
# Surfaces: parameters, bounding boxes, planes, coincidence (C53, C63, C75)
-/

namespace Volmdlr.Surface

open Volmdlr.Angle Volmdlr.Intersect Real

/-! ## From the parameters and back -/

theorem Within.symm {e : ℝ} {p q : V3 ℝ} (h : Within e p q) : Within e q p :=
  ⟨by rw [abs_sub_comm]; exact h.1, by rw [abs_sub_comm]; exact h.2.1, by rw [abs_sub_comm]; exact h.2.2⟩

/-- C53 (cylinder): `point2d_to_3d` then `point3d_to_2d` gives parameters of the same point, up to the thresholds of the code, and the
same height. -/
theorem C53_cylinder_parameters (s : Cylinder) (ho : Orthonormal3 s.frame.basis) (hr : 0 ≤ s.radius) (a : V2 ℝ) :
    ∃ b, s.to2d (s.to3d a) = .ok b ∧ |b.y - a.y| ≤ 4 / 10 ^ 16 ∧ Within (2 / 10 ^ 9 * s.radius + 3 / 10 ^ 11) (s.to3d b) (s.to3d a) := by
  obtain ⟨h1, h2, h3⟩ := C53_cylinder_on_surface s ho a
  obtain ⟨b, hb, hw⟩ := C53_cylinder_roundtrip s ho hr _ _ h1 h3
  refine ⟨b, hb, ?_, (hw.trans h3.symm).mono (by norm_num; linarith)⟩
  obtain ⟨q, r, hq, hr', hw'⟩ := globalToLocal_spec ho _ _ h3
  unfold Cylinder.to2d at hb
  rw [hr'] at hb
  have hb := Except.ok.inj hb
  rw [← hb]
  have : q.z = a.y := by rw [← h2, hq, height_pt ho]
  rw [← this]
  exact hw'.2.2

/-- C53 (cone, above the apex). -/
theorem C53_cone_parameters_partial (s : Cone) (ho : Orthonormal3 s.frame.basis) (a : V2 ℝ) (ha : 0 ≤ tan s.semiAngle * a.y) :
    ∃ b, s.to2d (s.to3d a) = .ok b ∧ |b.y - a.y| ≤ 4 / 10 ^ 16 ∧
      Within (2 / 10 ^ 9 * (tan s.semiAngle * a.y) + 8 / 10 ^ 16 * |tan s.semiAngle| + 3 / 10 ^ 11) (s.to3d b) (s.to3d a) := by
  obtain ⟨h1, h2, h3⟩ := C53_cone_on_surface s ho a
  obtain ⟨b, hb, hw⟩ := C53_cone_roundtrip_partial s ho _ _ h1 h3 (by rw [h2]; exact ha)
  rw [h2] at hw
  refine ⟨b, hb, ?_, (hw.trans h3.symm).mono (by norm_num; linarith)⟩
  obtain ⟨q, r, hq, hr', hw'⟩ := globalToLocal_spec ho _ _ h3
  unfold Cone.to2d at hb
  rw [hr'] at hb
  have hb := Except.ok.inj hb
  rw [← hb]
  have : q.z = a.y := by rw [← h2, hq, height_pt ho]
  rw [← this]
  exact hw'.2.2

/-- C53 (sphere), for all angles. -/
theorem C53_sphere_parameters (s : Sphere) (ho : Orthonormal3 s.frame.basis) (hr : 0 < s.radius) (a : V2 ℝ) :
    ∃ b, s.to2d (s.to3d a) = .ok b ∧ |b.x| ≤ π ∧ |b.y| ≤ π / 2 ∧ Within (2 / 10 ^ 6 * (1 + s.radius)) (s.to3d b) (s.to3d a) := by
  obtain ⟨h1, h2, h3⟩ := C53_sphere_on_surface s ho a
  obtain ⟨b, hb, hw⟩ := C53_sphere_roundtrip s ho hr _ _ h1 h3
  refine ⟨b, hb, ?_, ?_, (hw.trans h3.symm).mono (by norm_num; linarith)⟩ <;>
  · obtain ⟨q, r, hq, hr', hw'⟩ := globalToLocal_spec ho _ _ h3
    unfold Sphere.to2d at hb
    rw [hr'] at hb
    simp only [bind, Except.bind] at hb
    rw [if_neg hr.ne'] at hb
    have hb := Except.ok.inj hb
    rw [← hb]
    have key : ∀ k x B : ℝ, 0 ≤ B → |x| ≤ B → |snap k x| ≤ B := by
      intro k x B hB hx
      unfold snap
      split_ifs
      · rwa [abs_zero]
      · exact hx
    refine key _ _ _ (by positivity) ?_
    first
    | exact Complex.abs_arg_le_pi _
    | exact abs_le.mpr ⟨neg_pi_div_two_le_arcsin _, arcsin_le_pi_div_two _⟩

/-- C53 (torus), for all angles. -/
theorem C53_torus_parameters_partial (s : Torus) (ho : Orthonormal3 s.frame.basis) (hr : 1 / 10 ^ 5 < s.minorRadius)
    (hR : s.minorRadius + 1 / 10 ^ 5 ≤ 2 * s.majorRadius) (a : V2 ℝ) :
    ∃ b, s.to2d (s.to3d a) = .ok b ∧ Within (2 / 10 ^ 5 * (1 + s.majorRadius + s.minorRadius)) (s.to3d b) (s.to3d a) := by
  obtain ⟨h1, h2, h3⟩ := C53_torus_on_surface s ho a
  obtain ⟨b, hb, hw⟩ := C53_torus_roundtrip_partial s ho hr hR _ _ h1 h3
  refine ⟨b, hb, (hw.trans h3.symm).mono (by norm_num at hr hR ⊢; linarith)⟩

/-! ## Bounding boxes -/

/-- C53: the bounding box of a sphere contains every point of the sphere. -/
theorem C53_sphere_box (s : Sphere) (hr : 0 ≤ s.radius) (p : V3 ℝ) (hp : OnSphere s.frame s.radius p) :
    ∃ b, s.boundingBox = .ok b ∧ b.Mem p := by
  obtain ⟨b, hb, -, hm, -⟩ := (C14_box_fromPoints [s.frame.origin + ⟨-s.radius, -s.radius, -s.radius⟩, s.frame.origin + ⟨s.radius, s.radius, s.radius⟩]).2 (by simp)
  refine ⟨b, hb, ?_⟩
  have m1 := hm _ (by simp : s.frame.origin + ⟨-s.radius, -s.radius, -s.radius⟩ ∈ _)
  have m2 := hm _ (by simp : s.frame.origin + ⟨s.radius, s.radius, s.radius⟩ ∈ _)
  simp only [OnSphere, sqDist, V3.sqNorm, V3.sub_x, V3.sub_y, V3.sub_z] at hp
  have key : ∀ a b c : ℝ, a * a + b * b + c * c = s.radius ^ 2 → |a| ≤ s.radius := fun a b c h =>
    abs_le_of_sq_le_sq (by nlinarith [mul_self_nonneg b, mul_self_nonneg c]) hr
  obtain ⟨x1, x2⟩ := abs_le.mp (key (p.x - s.frame.origin.x) (p.y - s.frame.origin.y) (p.z - s.frame.origin.z) (by linarith))
  obtain ⟨y1, y2⟩ := abs_le.mp (key (p.y - s.frame.origin.y) (p.x - s.frame.origin.x) (p.z - s.frame.origin.z) (by linarith))
  obtain ⟨z1, z2⟩ := abs_le.mp (key (p.z - s.frame.origin.z) (p.y - s.frame.origin.y) (p.x - s.frame.origin.x) (by linarith))
  simp only [Box3.Mem, V3.add_x, V3.add_y, V3.add_z] at m1 m2 ⊢
  refine ⟨?_, ?_, ?_, ?_, ?_, ?_⟩ <;> linarith [m1.1, m1.2.1, m1.2.2.1, m1.2.2.2.1, m1.2.2.2.2.1, m1.2.2.2.2.2, m2.1, m2.2.1, m2.2.2.1, m2.2.2.2.1, m2.2.2.2.2.1, m2.2.2.2.2.2]

theorem segment_le {a d x u M : ℝ} (hx : |x| ≤ d) (h1 : a + u * d ≤ M) (h2 : a - u * d ≤ M) : a + u * x ≤ M := by
  obtain ⟨x1, x2⟩ := abs_le.mp hx
  rcases le_total 0 u with h | h
  · nlinarith
  · nlinarith

theorem segment_ge {a d x u M : ℝ} (hx : |x| ≤ d) (h1 : M ≤ a + u * d) (h2 : M ≤ a - u * d) : M ≤ a + u * x := by
  obtain ⟨x1, x2⟩ := abs_le.mp hx
  rcases le_total 0 u with h | h
  · nlinarith
  · nlinarith

theorem box_key {o u v w d r x y z lo hi : ℝ} (bx : |x| ≤ d) (by' : |y| ≤ d) (bz : |z| ≤ r)
    (a1 : lo ≤ o + u * d + v * d + w * r) (a2 : lo ≤ o + u * d + v * d - w * r) (a3 : lo ≤ o + u * d - v * d + w * r)
    (a4 : lo ≤ o + u * d - v * d - w * r) (a5 : lo ≤ o - u * d + v * d + w * r) (a6 : lo ≤ o - u * d + v * d - w * r)
    (a7 : lo ≤ o - u * d - v * d + w * r) (a8 : lo ≤ o - u * d - v * d - w * r)
    (b1 : o + u * d + v * d + w * r ≤ hi) (b2 : o + u * d + v * d - w * r ≤ hi) (b3 : o + u * d - v * d + w * r ≤ hi)
    (b4 : o + u * d - v * d - w * r ≤ hi) (b5 : o - u * d + v * d + w * r ≤ hi) (b6 : o - u * d + v * d - w * r ≤ hi)
    (b7 : o - u * d - v * d + w * r ≤ hi) (b8 : o - u * d - v * d - w * r ≤ hi) :
    lo ≤ o + u * x + v * y + w * z ∧ o + u * x + v * y + w * z ≤ hi := by
  constructor
  · have l1 := segment_ge bz a1 a2
    have l2 := segment_ge bz a3 a4
    have l3 := segment_ge bz a5 a6
    have l4 := segment_ge bz a7 a8
    have k1 := segment_ge (a := o + u * d + w * z) (M := lo) (u := v) by' (by linarith) (by linarith)
    have k2 := segment_ge (a := o - u * d + w * z) (M := lo) (u := v) by' (by linarith) (by linarith)
    have := segment_ge (a := o + v * y + w * z) (M := lo) (u := u) bx (by linarith) (by linarith)
    linarith
  · have l1 := segment_le bz b1 b2
    have l2 := segment_le bz b3 b4
    have l3 := segment_le bz b5 b6
    have l4 := segment_le bz b7 b8
    have k1 := segment_le (a := o + u * d + w * z) (M := hi) (u := v) by' (by linarith) (by linarith)
    have k2 := segment_le (a := o - u * d + w * z) (M := hi) (u := v) by' (by linarith) (by linarith)
    have := segment_le (a := o + v * y + w * z) (M := hi) (u := u) bx (by linarith) (by linarith)
    linarith

/-- C53: the bounding box of a torus contains every point of the torus. -/
theorem C53_torus_box (s : Torus) (ho : Orthonormal3 s.frame.basis) (hR : 0 ≤ s.majorRadius) (hr : 0 ≤ s.minorRadius) (p : V3 ℝ)
    (hp : OnTorus s.frame s.majorRadius s.minorRadius p) : ∃ b, s.boundingBox = .ok b ∧ b.Mem p := by
  obtain ⟨q, hq, -⟩ := C03_globalToLocal_coord s.frame p (orthonormal_invertible ho)
  obtain rfl : p = pt s.frame q := hq
  unfold OnTorus at hp
  rw [sqDist_pt ho, height_pt ho] at hp
  unfold Torus.boundingBox
  simp only
  obtain ⟨b, hb, -, hm, -⟩ := (C14_box_fromPoints
    [s.frame.origin + V3.smul (s.majorRadius + s.minorRadius) s.frame.basis.u + V3.smul (s.majorRadius + s.minorRadius) s.frame.basis.v + V3.smul s.minorRadius s.frame.basis.w,
     s.frame.origin + V3.smul (s.majorRadius + s.minorRadius) s.frame.basis.u + V3.smul (s.majorRadius + s.minorRadius) s.frame.basis.v - V3.smul s.minorRadius s.frame.basis.w,
     s.frame.origin + V3.smul (s.majorRadius + s.minorRadius) s.frame.basis.u - V3.smul (s.majorRadius + s.minorRadius) s.frame.basis.v + V3.smul s.minorRadius s.frame.basis.w,
     s.frame.origin + V3.smul (s.majorRadius + s.minorRadius) s.frame.basis.u - V3.smul (s.majorRadius + s.minorRadius) s.frame.basis.v - V3.smul s.minorRadius s.frame.basis.w,
     s.frame.origin - V3.smul (s.majorRadius + s.minorRadius) s.frame.basis.u + V3.smul (s.majorRadius + s.minorRadius) s.frame.basis.v + V3.smul s.minorRadius s.frame.basis.w,
     s.frame.origin - V3.smul (s.majorRadius + s.minorRadius) s.frame.basis.u + V3.smul (s.majorRadius + s.minorRadius) s.frame.basis.v - V3.smul s.minorRadius s.frame.basis.w,
     s.frame.origin - V3.smul (s.majorRadius + s.minorRadius) s.frame.basis.u - V3.smul (s.majorRadius + s.minorRadius) s.frame.basis.v + V3.smul s.minorRadius s.frame.basis.w,
     s.frame.origin - V3.smul (s.majorRadius + s.minorRadius) s.frame.basis.u - V3.smul (s.majorRadius + s.minorRadius) s.frame.basis.v - V3.smul s.minorRadius s.frame.basis.w]).2 (by simp)
  refine ⟨b, hb, ?_⟩
  generalize s.majorRadius = R at *
  generalize s.minorRadius = r at *
  have hz : q.z ^ 2 ≤ r ^ 2 ∧ q.x ^ 2 + q.y ^ 2 ≤ (R + r) ^ 2 := by
    obtain ⟨rho, hrho⟩ : ∃ rho, rho = √(q.x ^ 2 + q.y ^ 2) := ⟨_, rfl⟩
    have hrho0 : 0 ≤ rho := by rw [hrho]; exact sqrt_nonneg _
    have hrho2 : q.x ^ 2 + q.y ^ 2 = rho ^ 2 := by rw [hrho, sq_sqrt (by positivity)]
    have : ((rho - R) ^ 2 + q.z ^ 2 - r ^ 2) * ((rho + R) ^ 2 + q.z ^ 2 - r ^ 2) = 0 := by
      rw [hrho2] at hp
      linear_combination hp
    rw [hrho2]
    rcases mul_eq_zero.mp this with h | h
    · have h1 : rho - R ≤ r := (abs_le.mp (abs_le_of_sq_le_sq (by nlinarith [sq_nonneg q.z]) hr)).2
      exact ⟨by nlinarith [sq_nonneg (rho - R)], by nlinarith⟩
    · have h1 : rho + R ≤ r := (abs_le.mp (abs_le_of_sq_le_sq (by nlinarith [sq_nonneg q.z]) hr)).2
      exact ⟨by nlinarith [sq_nonneg (rho + R)], by nlinarith⟩
  have bx : |q.x| ≤ R + r := abs_le_of_sq_le_sq (by nlinarith [sq_nonneg q.y]) (by linarith)
  have by' : |q.y| ≤ R + r := abs_le_of_sq_le_sq (by nlinarith [sq_nonneg q.x]) (by linarith)
  have bz : |q.z| ≤ r := abs_le_of_sq_le_sq hz.1 hr
  simp only [List.mem_cons, List.not_mem_nil, or_false, forall_eq_or_imp, forall_eq] at hm
  obtain ⟨m1, m2, m3, m4, m5, m6, m7, m8⟩ := hm
  simp only [Box3.Mem, V3.add_x, V3.add_y, V3.add_z, V3.sub_x, V3.sub_y, V3.sub_z, V3.smul_x, V3.smul_y, V3.smul_z] at m1 m2 m3 m4 m5 m6 m7 m8
  have X := box_key (o := s.frame.origin.x) bx by' bz m1.1 m2.1 m3.1 m4.1 m5.1 m6.1 m7.1 m8.1 m1.2.1 m2.2.1 m3.2.1 m4.2.1 m5.2.1 m6.2.1 m7.2.1 m8.2.1
  have Y := box_key (o := s.frame.origin.y) bx by' bz m1.2.2.1 m2.2.2.1 m3.2.2.1 m4.2.2.1 m5.2.2.1 m6.2.2.1 m7.2.2.1 m8.2.2.1
    m1.2.2.2.1 m2.2.2.2.1 m3.2.2.2.1 m4.2.2.2.1 m5.2.2.2.1 m6.2.2.2.1 m7.2.2.2.1 m8.2.2.2.1
  have Z := box_key (o := s.frame.origin.z) bx by' bz m1.2.2.2.2.1 m2.2.2.2.2.1 m3.2.2.2.2.1 m4.2.2.2.2.1 m5.2.2.2.2.1 m6.2.2.2.2.1 m7.2.2.2.2.1 m8.2.2.2.2.1
    m1.2.2.2.2.2 m2.2.2.2.2.2 m3.2.2.2.2.2 m4.2.2.2.2.2 m5.2.2.2.2.2 m6.2.2.2.2.2 m7.2.2.2.2.2 m8.2.2.2.2.2
  exact ⟨X.1, X.2, Y.1, Y.2, Z.1, Z.2⟩

/-! ## Planes -/

theorem planeFrom3Points_eq (p1 p2 p3 : V3 ℝ) : planeFrom3Points p1 p2 p3 = Frame3.from3Points p1 p2 p3 := by
  unfold planeFrom3Points Frame3.from3Points
  cases V3.unitVector (p2 - p1) with
  | none => rfl
  | some v1 =>
    cases V3.unitVector (p3 - p1) with
    | none => rfl
    | some v2 =>
      show Option.map (fun n => (⟨p1, ⟨v1, V3.cross n v1, n⟩⟩ : Frame3 ℝ)) (V3.unitVector (V3.cross v1 v2)) =
        Option.bind (V3.unitVector (V3.cross v1 v2)) fun n => some ⟨p1, ⟨v1, V3.cross n v1, n⟩⟩
      cases V3.unitVector (V3.cross v1 v2) <;> rfl

/-- C63: `Plane3D.from_3_points` gives a direct orthonormal frame at the first point whose plane contains the three points; it fails
exactly for aligned points. -/
theorem C63_plane_from3Points (p1 p2 p3 : V3 ℝ) :
    (V3.cross (p2 - p1) (p3 - p1) = ⟨0, 0, 0⟩ → planeFrom3Points p1 p2 p3 = none) ∧
    (V3.cross (p2 - p1) (p3 - p1) ≠ ⟨0, 0, 0⟩ → ∃ f, planeFrom3Points p1 p2 p3 = some f ∧ f.origin = p1 ∧ DirectOrthonormal f.basis ∧
      OnPlane f p1 ∧ OnPlane f p2 ∧ OnPlane f p3) := by
  obtain ⟨h1, h2⟩ := C63_from3Points p1 p2 p3
  rw [planeFrom3Points_eq]
  refine ⟨h1, fun h => ?_⟩
  obtain ⟨f, hf, ho, hd, ⟨k, -, hk⟩, h3, -⟩ := h2 h
  refine ⟨f, hf, ho, hd, ?_, ?_, ?_⟩
  · unfold OnPlane; rw [ho]; simp [V3.dot]
  · unfold OnPlane; rw [ho, hk]
    have := hd.2.2.2.2.1
    simp only [V3.dot, V3.smul_x, V3.smul_y, V3.smul_z] at this ⊢
    linear_combination k * this
  · unfold OnPlane; rw [ho]
    simp only [V3.dot] at h3 ⊢
    linarith

/-- C63: `Plane3D.from_plane_vectors` with two orthogonal unit vectors gives a direct orthonormal frame. -/
theorem C63_plane_fromPlaneVectors (o x y : V3 ℝ) (hx : V3.dot x x = 1) (hy : V3.dot y y = 1) (hxy : V3.dot x y = 0) :
    DirectOrthonormal (planeFromPlaneVectors o x y).basis := direct_of_uv hx hy hxy

/-- C63: what `Plane3D.from_normal` should give. -/
def C63_plane_fromNormal_full_statement : Prop :=
  ∀ o n : V3 ℝ, V3.dot n n = 1 → ∃ f, planeFromNormal o n = some f ∧ f.origin = o ∧ f.basis.w = n ∧ DirectOrthonormal f.basis

/-- C63: `Plane3D.from_normal` with a unit normal gives an orthonormal frame at the point with the normal asked for.  Missing: the frame
is never direct (see the counterexample). -/
theorem C63_plane_fromNormal_partial (o n : V3 ℝ) (hn : V3.dot n n = 1) :
    ∃ f, planeFromNormal o n = some f ∧ f.origin = o ∧ f.basis.w = n ∧ Orthonormal3 f.basis ∧
      V3.dot (V3.cross f.basis.u f.basis.v) f.basis.w = -1 := by
  obtain ⟨f, hf, ho, hw, hd⟩ := C63_fromPointAndNormal o n hn
  unfold Frame3.fromPointAndNormal at hf
  unfold planeFromNormal
  cases h1 : V3.deterministicNormalVector n with
  | none => rw [h1] at hf; cases hf
  | some m =>
    rw [h1] at hf
    cases h2 : V3.unitVector m with
    | none =>
      have : (V3.unitVector m).bind (fun u => some (⟨o, ⟨u, V3.cross n u, n⟩⟩ : Frame3 ℝ)) = some f := hf
      rw [h2] at this; cases this
    | some u =>
      have h3 : (V3.unitVector m).bind (fun u => some (⟨o, ⟨u, V3.cross n u, n⟩⟩ : Frame3 ℝ)) = some f := hf
      rw [h2] at h3
      have h3 := Option.some.inj h3
      subst h3
      refine ⟨⟨o, ⟨u, V3.cross u n, n⟩⟩, by simp [h2], rfl, rfl, ?_, ?_⟩
      · obtain ⟨d1, d2, d3, d4, d5, d6, -⟩ := hd
        simp only [Orthonormal3, V3.dot, V3.cross] at d1 d2 d3 d4 d5 d6 ⊢
        refine ⟨d1, ?_, d3, ?_, d5, ?_⟩ <;> linarith
      · have := hd.2.2.2.2.2.2
        simp only [V3.dot, V3.cross] at this ⊢
        linarith

/-- C63: the frame of `Plane3D.from_normal` is left-handed for every unit normal, for example `z`. -/
theorem C63_plane_fromNormal_counterexample : ¬ C63_plane_fromNormal_full_statement := by
  intro h
  have hn : V3.dot (⟨0, 0, 1⟩ : V3 ℝ) ⟨0, 0, 1⟩ = 1 := by norm_num [V3.dot]
  obtain ⟨f, hf, -, -, hd⟩ := h ⟨0, 0, 0⟩ ⟨0, 0, 1⟩ hn
  obtain ⟨g, hg, -, -, -, he⟩ := C63_plane_fromNormal_partial ⟨0, 0, 0⟩ ⟨0, 0, 1⟩ hn
  rw [hf] at hg
  cases hg
  have := hd.2.2.2.2.2.2
  rw [this] at he
  norm_num at he

theorem coplanar_aux {n v1 v2 d : V3 ℝ} (hn : n ≠ ⟨0, 0, 0⟩) (h1 : V3.dot n v1 = 0) (h2 : V3.dot n v2 = 0) (hd : V3.dot n d = 0) :
    V3.dot (V3.cross v1 v2) d = 0 := by
  have hnn : V3.dot n n ≠ 0 := by
    intro h
    apply hn
    simp only [V3.dot] at h
    ext <;> dsimp only <;> nlinarith [mul_self_nonneg n.x, mul_self_nonneg n.y, mul_self_nonneg n.z]
  have : V3.dot n n * V3.dot (V3.cross v1 v2) d = 0 := by
    simp only [V3.dot, V3.cross] at *
    grind
  exact (mul_eq_zero.mp this).resolve_left hnn

theorem mostPerpendicular_spec (o v1 : V3 ℝ) (h1 : V3.dot v1 v1 = 1) : ∀ (ps : List (V3 ℝ)) (best r : V3 ℝ), V3.dot best best = 1 →
    mostPerpendicular o v1 ps best = some r → V3.dot r r = 1 ∧ |V3.dot v1 r| ≤ |V3.dot v1 best| ∧
    (r = best ∨ ∃ p ∈ ps, ∃ k, 0 < k ∧ p - o = V3.smul k r) ∧ ∀ p ∈ ps, ∀ v, V3.unitVector (p - o) = some v → |V3.dot v1 r| ≤ |V3.dot v1 v| := by
  intro ps
  induction ps with
  | nil =>
    intro best r hb h
    cases h
    exact ⟨hb, le_refl _, .inl rfl, fun p hp => absurd hp List.not_mem_nil⟩
  | cons p ps ih =>
    intro best r hb h
    unfold mostPerpendicular at h
    cases hu : V3.unitVector (p - o) with
    | none => rw [hu] at h; cases h
    | some v2 =>
      rw [hu, Option.bind_some] at h
      obtain ⟨hk0, he, hv⟩ := V3.unitVector_spec hu
      split_ifs at h with hc
      · obtain ⟨a1, a2, a3, a4⟩ := ih _ _ hv h
        refine ⟨a1, by linarith, .inr ?_, ?_⟩
        · rcases a3 with rfl | ⟨p', hp', k, hk⟩
          · exact ⟨p, List.mem_cons_self, _, hk0, he⟩
          · exact ⟨p', List.mem_cons_of_mem _ hp', k, hk⟩
        · intro p' hp' v hv'
          rcases List.mem_cons.mp hp' with rfl | hp'
          · rw [hu] at hv'; cases hv'; exact a2
          · exact a4 _ hp' _ hv'
      · obtain ⟨a1, a2, a3, a4⟩ := ih _ _ hb h
        refine ⟨a1, a2, ?_, ?_⟩
        · rcases a3 with rfl | ⟨p', hp', k, hk⟩
          · exact .inl rfl
          · exact .inr ⟨p', List.mem_cons_of_mem _ hp', k, hk⟩
        · intro p' hp' v hv'
          rcases List.mem_cons.mp hp' with rfl | hp'
          · rw [hu] at hv'; cases hv'; exact a2.trans (not_lt.mp hc)
          · exact a4 _ hp' _ hv'

/-- All the points lie in one plane (specification). -/
def Coplanar (l : List (V3 ℝ)) : Prop := ∃ n o : V3 ℝ, n ≠ ⟨0, 0, 0⟩ ∧ ∀ p ∈ l, V3.dot n (p - o) = 0

theorem plane_contains {n o p1 p2 p3 : V3 ℝ} {f : Frame3 ℝ} (hn : n ≠ ⟨0, 0, 0⟩) (h : planeFrom3Points p1 p2 p3 = some f)
    (h1 : V3.dot n (p1 - o) = 0) (h2 : V3.dot n (p2 - p1) = 0) (h3 : V3.dot n (p3 - p1) = 0) (q : V3 ℝ) (hq : V3.dot n (q - o) = 0) : OnPlane f q := by
  unfold planeFrom3Points at h
  cases e1 : V3.unitVector (p2 - p1) with
  | none => rw [e1] at h; cases h
  | some v1 =>
    rw [e1, Option.bind_some] at h
    cases e2 : V3.unitVector (p3 - p1) with
    | none => rw [e2] at h; cases h
    | some v2 =>
      rw [e2, Option.bind_some] at h
      cases e3 : V3.unitVector (V3.cross v1 v2) with
      | none => rw [e3] at h; cases h
      | some w =>
        rw [e3] at h
        cases h
        obtain ⟨k1, s1, -⟩ := V3.unitVector_spec e1
        obtain ⟨k2, s2, -⟩ := V3.unitVector_spec e2
        obtain ⟨k3, s3, -⟩ := V3.unitVector_spec e3
        have hv1 : V3.dot n v1 = 0 := by
          have : V3.norm (p2 - p1) * V3.dot n v1 = 0 := by
            rw [← h2]; conv_rhs => rw [s1]
            simp only [V3.dot, V3.smul_x, V3.smul_y, V3.smul_z]; ring
          exact (mul_eq_zero.mp this).resolve_left k1.ne'
        have hv2 : V3.dot n v2 = 0 := by
          have : V3.norm (p3 - p1) * V3.dot n v2 = 0 := by
            rw [← h3]; conv_rhs => rw [s2]
            simp only [V3.dot, V3.smul_x, V3.smul_y, V3.smul_z]; ring
          exact (mul_eq_zero.mp this).resolve_left k2.ne'
        have hd : V3.dot n (q - p1) = 0 := by
          simp only [V3.dot, V3.sub_x, V3.sub_y, V3.sub_z] at *
          linarith
        have := coplanar_aux hn hv1 hv2 hd
        unfold OnPlane
        have hk : V3.norm (V3.cross v1 v2) * V3.dot w (q - p1) = 0 := by
          rw [← this]; conv_rhs => rw [s3]
          simp only [V3.dot, V3.smul_x, V3.smul_y, V3.smul_z]; ring
        exact (mul_eq_zero.mp hk).resolve_left k3.ne'

/-- C63: whenever the points lie in one plane and `Plane3D.from_points` answers, the plane it returns contains all of them. -/
theorem C63_plane_fromPoints (l : List (V3 ℝ)) (f : Frame3 ℝ) (h : planeFromPoints l = .ok f) (hc : Coplanar l) : ∀ p ∈ l, OnPlane f p := by
  obtain ⟨n, o, hn, hl⟩ := hc
  intro p hp
  have key : ∀ (a b : V3 ℝ), a ∈ l → b ∈ l → V3.dot n (a - b) = 0 := by
    intro a b ha hb
    have h1 := hl a ha
    have h2 := hl b hb
    simp only [V3.dot, V3.sub_x, V3.sub_y, V3.sub_z] at *
    linarith
  unfold planeFromPoints at h
  split at h
  · rename_i p1 p2 p3
    cases h3 : planeFrom3Points p1 p2 p3 with
    | none => rw [h3] at h; cases h
    | some g =>
      rw [h3] at h
      cases h
      exact plane_contains hn h3 (hl _ (by simp)) (key _ _ (by simp) (by simp)) (key _ _ (by simp) (by simp)) p (hl p hp)
  · rename_i p0 p1 p2 p3 ps
    have hsub : ∀ q ∈ dropFirstCopies p0 (p1 :: p2 :: p3 :: ps), q ∈ p0 :: p1 :: p2 :: p3 :: ps := fun q hq =>
      List.mem_cons_of_mem _ (List.mem_of_mem_filter hq)
    generalize dropFirstCopies p0 (p1 :: p2 :: p3 :: ps) = L at h hsub
    split at h
    · rename_i q1 q2 qs
      split at h
      · rename_i v1 v2 e1 e2
        obtain ⟨k1, s1, u1⟩ := V3.unitVector_spec e1
        obtain ⟨k2, s2, u2⟩ := V3.unitVector_spec e2
        cases h4 : mostPerpendicular p0 v1 qs v2 with
        | none => rw [h4] at h; cases h
        | some v =>
          rw [h4] at h
          simp only at h
          obtain ⟨uv, -, hv, -⟩ := mostPerpendicular_spec p0 v1 u1 qs v2 v u2 h4
          cases h3 : planeFrom3Points p0 (v1 + p0) (v + p0) with
          | none => rw [h3] at h; cases h
          | some g =>
            rw [h3] at h
            cases h
            have hnv1 : V3.dot n v1 = 0 := by
              have hh := key q1 p0 (hsub _ (by simp)) (by simp)
              rw [s1] at hh
              have : V3.norm (q1 - p0) * V3.dot n v1 = 0 := by
                rw [← hh]; simp only [V3.dot, V3.smul_x, V3.smul_y, V3.smul_z]; ring
              exact (mul_eq_zero.mp this).resolve_left k1.ne'
            have hnv : V3.dot n v = 0 := by
              obtain ⟨q, k, hq, hk0, hk⟩ : ∃ q k, q ∈ q1 :: q2 :: qs ∧ 0 < k ∧ q - p0 = V3.smul k v := by
                rcases hv with rfl | ⟨q, hq, k, hk⟩
                · exact ⟨q2, _, by simp, k2, s2⟩
                · exact ⟨q, k, by simp [hq], hk⟩
              have hh := key q p0 (hsub _ hq) (by simp)
              rw [hk] at hh
              have : k * V3.dot n v = 0 := by
                rw [← hh]; simp only [V3.dot, V3.smul_x, V3.smul_y, V3.smul_z]; ring
              exact (mul_eq_zero.mp this).resolve_left hk0.ne'
            refine plane_contains (o := o) hn h3 (hl _ (by simp)) ?_ ?_ p (hl p hp)
            · simpa [V3.dot] using hnv1
            · simpa [V3.dot] using hnv
      · cases h
    · cases h
  · cases h

example : Coplanar [⟨0, 0, 1⟩, ⟨1, 0, 1⟩, ⟨1, 1, 1⟩, ⟨0, 1, 1⟩] :=
  ⟨⟨0, 0, 1⟩, ⟨0, 0, 1⟩, by intro h; have := congrArg V3.z h; norm_num at this, by simp [V3.dot]⟩

/-! ## C75: membership and coincidence of surfaces -/

theorem mathIsClose_self (a tol : ℝ) (h : 0 ≤ tol) : mathIsClose a a tol := by
  unfold mathIsClose
  rw [sub_self, abs_zero]
  exact le_max_of_le_right h

/-- C75: `Plane3D.point_belongs` (unit normal) accepts exactly the points at distance at most `tol` of the plane. -/
theorem C75_plane_point_belongs (f : Frame3 ℝ) (p : V3 ℝ) (tol : ℝ) (ht : 0 ≤ tol) :
    planePointBelongs f p tol = true ↔ |V3.dot f.basis.w (p - f.origin)| ≤ tol := by
  classical
  unfold planePointBelongs
  rw [decide_eq_true_iff, mathIsClose_zero ht]

theorem near_parallel {a b d : V3 ℝ} {c : ℝ} (ha : V3.dot a a = 1) (hb : V3.dot b b = 1) (hc0 : 0 ≤ c) (hc : 1 - c ≤ |V3.dot a b|) (hd : V3.dot a d = 0) :
    V3.dot b d ^ 2 ≤ 2 * c * V3.dot d d := by
  have hlag : V3.dot b d ^ 2 ≤ (1 - V3.dot a b ^ 2) * V3.dot d d := by
    -- b = (a·b) a + b', with b' orthogonal to a
    obtain ⟨k, hk⟩ : ∃ k, k = V3.dot a b := ⟨_, rfl⟩
    have h1 : V3.dot b d = V3.dot (b - V3.smul k a) d := by
      simp only [V3.dot, V3.sub_x, V3.sub_y, V3.sub_z, V3.smul_x, V3.smul_y, V3.smul_z] at hd ⊢
      linear_combination k * hd
    have h2 : V3.dot (b - V3.smul k a) (b - V3.smul k a) = 1 - k ^ 2 := by
      simp only [V3.dot, V3.sub_x, V3.sub_y, V3.sub_z, V3.smul_x, V3.smul_y, V3.smul_z] at hk ha hb ⊢
      linear_combination hb + k ^ 2 * ha + 2 * k * hk
    rw [← hk, ← h2, h1]
    generalize b - V3.smul k a = e
    simp only [V3.dot]
    nlinarith [sq_nonneg (e.x * d.y - e.y * d.x), sq_nonneg (e.x * d.z - e.z * d.x), sq_nonneg (e.y * d.z - e.z * d.y)]
  have hdd : 0 ≤ V3.dot d d := by
    simp only [V3.dot]; nlinarith [mul_self_nonneg d.x, mul_self_nonneg d.y, mul_self_nonneg d.z]
  refine hlag.trans (mul_le_mul_of_nonneg_right ?_ hdd)
  have := abs_nonneg (V3.dot a b)
  rw [← sq_abs]
  rcases le_total c 1 with h | h
  · nlinarith
  · nlinarith

theorem norm_one {u : V3 ℝ} (h : V3.dot u u = 1) : V3.norm u = 1 := by
  have := V3.norm_sq u
  rw [h] at this
  nlinarith [V3.norm_nonneg u]

/-- C75: two planes reported coincident are close: a point of the first is at distance at most `tol + √(2 tol) · (its distance to the
origin of the first)` of the second. -/
theorem C75_plane_coincident_sound (a b : Frame3 ℝ) (ha : V3.dot a.basis.w a.basis.w = 1) (hb : V3.dot b.basis.w b.basis.w = 1) (tol : ℝ)
    (ht : 1 / 10 ^ 6 ≤ tol) (ht1 : tol ≤ 1) (h : planeIsCoincident a b tol = true) (p : V3 ℝ) (hp : OnPlane a p) :
    |V3.dot b.basis.w (p - b.origin)| ≤ tol + √(2 * tol) * V3.norm (p - a.origin) := by
  classical
  have ht0 : 0 ≤ tol := le_trans (by norm_num) ht
  unfold planeIsCoincident at h
  rw [Bool.and_eq_true, C75_plane_point_belongs _ _ _ ht0] at h
  obtain ⟨h1, h2⟩ := h
  unfold planeIsParallel isColinear at h1
  rw [norm_one ha, norm_one hb, if_neg (by norm_num), decide_eq_true_iff, div_one, div_one] at h1
  have h3 := mathIsClose_one ht ht1 h1
  have h4 := near_parallel ha hb ht0 (by linarith [(abs_le.mp h3).1]) hp
  have h5 : |V3.dot b.basis.w (p - a.origin)| ≤ √(2 * tol) * V3.norm (p - a.origin) := by
    apply abs_le_of_sq_le_sq _ (mul_nonneg (sqrt_nonneg _) (V3.norm_nonneg _))
    rw [mul_pow, sq_sqrt (by linarith), pow_two (V3.norm _), V3.norm_sq]
    exact h4
  have e : V3.dot b.basis.w (p - b.origin) = V3.dot b.basis.w (a.origin - b.origin) + V3.dot b.basis.w (p - a.origin) := by
    simp only [V3.dot, V3.sub_x, V3.sub_y, V3.sub_z]; ring
  rw [e]
  exact (abs_add_le _ _).trans (add_le_add h2 h5)

/-- C75: two frames of the same plane are reported coincident. -/
theorem C75_plane_coincident_complete (a b : Frame3 ℝ) (ha : V3.dot a.basis.w a.basis.w = 1) (hb : V3.dot b.basis.w b.basis.w = 1) (tol : ℝ)
    (ht : 0 ≤ tol) (hsame : ∀ p, OnPlane a p ↔ OnPlane b p) : planeIsCoincident a b tol = true := by
  classical
  unfold planeIsCoincident
  rw [Bool.and_eq_true, C75_plane_point_belongs _ _ _ ht]
  constructor
  · unfold planeIsParallel isColinear
    rw [norm_one ha, norm_one hb, if_neg (by norm_num), decide_eq_true_iff, div_one, div_one]
    have : |V3.dot a.basis.w b.basis.w| = 1 := by
      have hd := (hsame (a.origin + (b.basis.w - V3.smul (V3.dot a.basis.w b.basis.w) a.basis.w))).mp (by
        unfold OnPlane
        simp only [V3.dot, V3.sub_x, V3.sub_y, V3.sub_z, V3.add_x, V3.add_y, V3.add_z, V3.smul_x, V3.smul_y, V3.smul_z] at ha ⊢
        linear_combination (-(a.basis.w.x * b.basis.w.x + a.basis.w.y * b.basis.w.y + a.basis.w.z * b.basis.w.z)) * ha)
      have h0 := (hsame a.origin).mp (by unfold OnPlane; simp [V3.dot])
      have : V3.dot a.basis.w b.basis.w ^ 2 = 1 := by
        unfold OnPlane at hd h0
        simp only [V3.dot, V3.sub_x, V3.sub_y, V3.sub_z, V3.add_x, V3.add_y, V3.add_z, V3.smul_x, V3.smul_y, V3.smul_z] at hd h0 hb ⊢
        linear_combination hb + h0 - hd
      rw [← sq_abs] at this
      nlinarith [abs_nonneg (V3.dot a.basis.w b.basis.w)]
    rw [this]
    exact mathIsClose_self _ _ ht
  · have := (hsame a.origin).mp (by unfold OnPlane; simp [V3.dot])
    unfold OnPlane at this
    rw [this, abs_zero]; exact ht

/-- C75: `CylindricalSurface3D.point_belongs` accepts every point of the cylinder. -/
theorem C75_cylinder_point_belongs_complete (s : Cylinder) (ho : Orthonormal3 s.frame.basis) (p : V3 ℝ) (hp : OnCylinder s.frame s.radius p) :
    s.pointBelongs p = .ok true := by
  classical
  obtain ⟨q, g, rfl, hg, ⟨dx, dy, dz⟩⟩ := globalToLocal_spec ho p p ⟨by simp, by simp, by simp⟩
  unfold Cylinder.pointBelongs
  rw [hg]
  simp only [bind, Except.bind, pure, Except.pure]
  congr 1
  rw [decide_eq_true_iff]
  unfold OnCylinder at hp
  rw [sqDist_pt ho, height_pt ho] at hp
  have key : ∀ a b : ℝ, |a - b| ≤ 4 / 10 ^ 16 → |a ^ 2 - b ^ 2| ≤ 1 / 10 ^ 15 * |b| + 1 / 10 ^ 30 := by
    intro a b h
    have e : a ^ 2 - b ^ 2 = (a - b) * (a - b) + 2 * (a - b) * b := by ring
    rw [e]
    refine (abs_add_le _ _).trans ?_
    rw [abs_mul, abs_mul, abs_mul, abs_two]
    have := mul_le_mul h h (abs_nonneg _) (by norm_num)
    have h2 := mul_le_mul_of_nonneg_right h (abs_nonneg b)
    norm_num at this h2 ⊢
    linarith [abs_nonneg b]
  have hx : |q.x| ≤ |s.radius| := sq_le_sq.mp (by nlinarith [sq_nonneg q.y])
  have hy : |q.y| ≤ |s.radius| := sq_le_sq.mp (by nlinarith [sq_nonneg q.x])
  have k1 := key _ _ dx
  have k2 := key _ _ dy
  unfold mathIsClose
  have hsum : |g.x ^ 2 + g.y ^ 2 - s.radius ^ 2| ≤ 2 / 10 ^ 15 * |s.radius| + 2 / 10 ^ 30 := by
    rw [show g.x ^ 2 + g.y ^ 2 - s.radius ^ 2 = (g.x ^ 2 - q.x ^ 2) + (g.y ^ 2 - q.y ^ 2) by rw [← hp]; ring]
    refine (abs_add_le _ _).trans ?_
    norm_num at k1 k2 ⊢
    linarith
  refine hsum.trans ?_
  rcases le_total |s.radius| 1 with h | h
  · apply le_max_of_le_right
    norm_num; linarith
  · apply le_max_of_le_left
    have h2 : |s.radius| ≤ |s.radius ^ 2| := by rw [abs_pow]; nlinarith
    have h3 := le_max_right |g.x ^ 2 + g.y ^ 2| |s.radius ^ 2|
    generalize max |g.x ^ 2 + g.y ^ 2| |s.radius ^ 2| = M at h3 ⊢
    norm_num
    linarith

/-- C75: a point accepted by `CylindricalSurface3D.point_belongs` has a squared distance to the axis equal to the squared radius, up to
`3e-5 + 3e-9 r²`. -/
theorem C75_cylinder_point_belongs_sound (s : Cylinder) (ho : Orthonormal3 s.frame.basis) (p : V3 ℝ) (h : s.pointBelongs p = .ok true) :
    |sqDist s.frame p - height s.frame p ^ 2 - s.radius ^ 2| ≤ 3 / 10 ^ 5 + 3 / 10 ^ 9 * s.radius ^ 2 := by
  classical
  obtain ⟨q, g, rfl, hg, ⟨dx, dy, dz⟩⟩ := globalToLocal_spec ho p p ⟨by simp, by simp, by simp⟩
  unfold Cylinder.pointBelongs at h
  rw [hg] at h
  simp only [bind, Except.bind, pure, Except.pure] at h
  have h := Except.ok.inj h
  rw [decide_eq_true_iff] at h
  rw [sqDist_pt ho, height_pt ho]
  have key : ∀ a b : ℝ, |a - b| ≤ 4 / 10 ^ 16 → |b ^ 2 - a ^ 2| ≤ 1 / 10 ^ 10 * a ^ 2 + 1 / 10 ^ 10 := by
    intro a b h
    have e : b ^ 2 - a ^ 2 = (a - b) * (a - b) - 2 * (a - b) * a := by ring
    rw [e]
    refine (abs_sub _ _).trans ?_
    rw [abs_mul, abs_mul, abs_mul, abs_two]
    have := mul_le_mul h h (abs_nonneg _) (by norm_num)
    have h2 := mul_le_mul_of_nonneg_right h (abs_nonneg a)
    have h3 : |a| ≤ a ^ 2 + 1 := by rw [← sq_abs]; nlinarith [sq_nonneg (|a| - 1)]
    norm_num at this h2 ⊢
    linarith [abs_nonneg a, sq_nonneg a]
  have k1 := key _ _ dx
  have k2 := key _ _ dy
  obtain ⟨S, hS⟩ : ∃ S, S = g.x ^ 2 + g.y ^ 2 := ⟨_, rfl⟩
  have hS0 : 0 ≤ S := by rw [hS]; positivity
  unfold mathIsClose at h
  rw [← hS, abs_of_nonneg hS0, abs_of_nonneg (sq_nonneg s.radius)] at h
  have h1 : |S - s.radius ^ 2| ≤ 1 / 10 ^ 5 + 1 / 10 ^ 9 * (S + s.radius ^ 2) := by
    refine h.trans (max_le ?_ ?_)
    · have : max S (s.radius ^ 2) ≤ S + s.radius ^ 2 := max_le (by linarith [sq_nonneg s.radius]) (by linarith)
      generalize max S (s.radius ^ 2) = M at this ⊢
      norm_num
      linarith
    · norm_num; linarith [sq_nonneg s.radius]
  obtain ⟨b1, b2⟩ := abs_le.mp h1
  have hSle : S ≤ 2 * s.radius ^ 2 + 1 := by
    norm_num at b2 ⊢; linarith [sq_nonneg s.radius]
  rw [show q.x ^ 2 + q.y ^ 2 + q.z ^ 2 - q.z ^ 2 - s.radius ^ 2 = (q.x ^ 2 - g.x ^ 2) + (q.y ^ 2 - g.y ^ 2) + (S - s.radius ^ 2) by rw [hS]; ring]
  have t1 := abs_add_le ((q.x ^ 2 - g.x ^ 2) + (q.y ^ 2 - g.y ^ 2)) (S - s.radius ^ 2)
  have t2 := abs_add_le (q.x ^ 2 - g.x ^ 2) (q.y ^ 2 - g.y ^ 2)
  norm_num at t1 t2 k1 k2 h1 ⊢
  linarith [sq_nonneg s.radius]

/-- C75 (torus): the full statement: two tori reported coincident share their points, up to a small distance. -/
def C75_torus_coincident_full_statement : Prop :=
  ∀ s t : Torus, Orthonormal3 s.frame.basis → Orthonormal3 t.frame.basis → s.isCoincident t = true → ∀ p, OnTorus s.frame s.majorRadius s.minorRadius p →
    ∃ q, OnTorus t.frame t.majorRadius t.minorRadius q ∧ Within (1 / 100 * (1 + s.majorRadius + s.minorRadius)) q p

/-- C75 (torus): `is_coincident` ignores the centres: two equal tori ten radii apart are reported coincident. -/
theorem C75_torus_coincident_counterexample : ¬ C75_torus_coincident_full_statement := by
  classical
  intro h
  have ho : Orthonormal3 planeXY.basis := by norm_num [Orthonormal3, planeXY, V3.dot]
  obtain ⟨q, hq, hw⟩ := h ⟨planeXY, 2, 1⟩ ⟨⟨⟨30, 0, 0⟩, planeXY.basis⟩, 2, 1⟩ ho ho (by
    unfold Torus.isCoincident
    rw [decide_eq_true_iff]
    refine ⟨?_, mathIsClose_self _ _ (by norm_num), mathIsClose_self _ _ (by norm_num)⟩
    have : |V3.dot planeXY.basis.w planeXY.basis.w| = 1 := by norm_num [planeXY, V3.dot]
    rw [this]; exact mathIsClose_self _ _ (by norm_num)) ⟨3, 0, 0⟩ (by norm_num [OnTorus, sqDist, height, planeXY, V3.sqNorm, V3.dot])
  obtain ⟨b, hb, hm⟩ := C53_torus_box ⟨⟨⟨30, 0, 0⟩, planeXY.basis⟩, 2, 1⟩ ho (by norm_num) (by norm_num) q hq
  have hbx : b.xmin = 27 := by
    have := Except.ok.inj hb
    rw [← this]
    norm_num [listMin, planeXY]
  have h1 := hm.1
  rw [hbx] at h1
  have h2 := (abs_le.mp hw.1).2
  norm_num at h2
  linarith

/-- C75: a surface is always reported coincident with itself (unit axis). -/
theorem C75_reflexive (t : Torus) (k : Cone) (c : Cylinder) (tol : ℝ) (ht : 0 ≤ tol) (h1 : V3.dot t.frame.basis.w t.frame.basis.w = 1)
    (h2 : V3.dot k.frame.basis.w k.frame.basis.w = 1) (h3 : V3.dot c.frame.basis.w c.frame.basis.w = 1) :
    t.isCoincident t tol = true ∧ k.isCoincident k tol = true ∧ c.isCoincident c tol = some true := by
  classical
  refine ⟨?_, ?_, ?_⟩
  · unfold Torus.isCoincident
    rw [decide_eq_true_iff, h1, abs_one]
    exact ⟨mathIsClose_self _ _ ht, mathIsClose_self _ _ ht, mathIsClose_self _ _ ht⟩
  · unfold Cone.isCoincident
    rw [decide_eq_true_iff, h2]
    refine ⟨mathIsClose_self _ _ ht, ?_, mathIsClose_self _ _ ht⟩
    unfold Arc.isClose3
    have : V3.pointDistance k.frame.origin k.frame.origin = 0 := by
      unfold V3.pointDistance
      rw [V3.norm_eq_zero_iff]
      ext <;> simp
    rw [this]; exact mathIsClose_self _ _ (by norm_num)
  · unfold Cylinder.isCoincident
    have hd : (⟨c.frame.origin, c.frame.origin + c.frame.basis.w⟩ : Line3).dir = c.frame.basis.w := by
      ext <;> simp [Line3.dir]
    simp only [Line3.pointDistance, hd, norm_one h3, one_ne_zero, if_false, Option.map_some, div_one]
    have : V3.norm (V3.cross (c.frame.origin - c.frame.origin) c.frame.basis.w) = 0 := by
      rw [V3.norm_eq_zero_iff]; ext <;> simp [V3.cross]
    rw [this, h3, abs_one]
    congr 1
    rw [decide_eq_true_iff]
    exact ⟨mathIsClose_self _ _ ht, mathIsClose_self _ _ ht, trivial⟩

/-- C75: two cylinders reported coincident have the same radius and close axes: the point of the first axis at abscissa `k` is at distance
at most `tol + |k| √(2 tol)` of the second axis, whatever the point of the second axis chosen as its origin. -/
theorem C75_cylinder_coincident_sound (s t : Cylinder) (hs : V3.dot s.frame.basis.w s.frame.basis.w = 1) (ht : V3.dot t.frame.basis.w t.frame.basis.w = 1)
    (tol : ℝ) (ht6 : 1 / 10 ^ 6 ≤ tol) (ht1 : tol ≤ 1) (h : s.isCoincident t tol = some true) :
    s.radius = t.radius ∧ ∀ k : ℝ, ∃ m : ℝ,
      V3.norm (s.frame.origin + V3.smul k s.frame.basis.w - (t.frame.origin + V3.smul m t.frame.basis.w)) ≤ tol + |k| * √(2 * tol) := by
  classical
  have ht0 : 0 ≤ tol := le_trans (by norm_num) ht6
  unfold Cylinder.isCoincident at h
  have hd : (⟨t.frame.origin, t.frame.origin + t.frame.basis.w⟩ : Line3).dir = t.frame.basis.w := by
    ext <;> simp [Line3.dir]
  simp only [Line3.pointDistance, hd, norm_one ht, one_ne_zero, if_false, Option.map_some, div_one] at h
  have h := Option.some.inj h
  rw [decide_eq_true_iff, mathIsClose_zero ht0, abs_of_nonneg (V3.norm_nonneg _)] at h
  obtain ⟨h1, h2, h3⟩ := h
  have h1 := mathIsClose_one ht6 ht1 h1
  refine ⟨h3, fun k => ?_⟩
  -- the projection on the second axis
  obtain ⟨d, hd'⟩ : ∃ d, d = s.frame.origin - t.frame.origin := ⟨_, rfl⟩
  obtain ⟨a, ha⟩ : ∃ a, a = s.frame.basis.w := ⟨_, rfl⟩
  obtain ⟨b, hb⟩ : ∃ b, b = t.frame.basis.w := ⟨_, rfl⟩
  rw [← hd', ← hb] at h2
  rw [← ha] at hs
  rw [← hb] at ht
  rw [← ha, ← hb] at h1
  refine ⟨V3.dot d b + k * V3.dot a b, ?_⟩
  rw [← ha, ← hb]
  have e : s.frame.origin + V3.smul k a - (t.frame.origin + V3.smul (V3.dot d b + k * V3.dot a b) b)
      = (d - V3.smul (V3.dot d b) b) + V3.smul k (a - V3.smul (V3.dot a b) b) := by
    rw [hd']; ext <;> simp <;> ring
  rw [e]
  have n1 : V3.norm (d - V3.smul (V3.dot d b) b) ≤ tol := by
    have : V3.norm (d - V3.smul (V3.dot d b) b) = V3.norm (V3.cross d b) := by
      unfold V3.norm
      congr 1
      simp only [V3.dot, V3.cross, V3.sub_x, V3.sub_y, V3.sub_z, V3.smul_x, V3.smul_y, V3.smul_z] at ht ⊢
      linear_combination ((d.x * b.x + d.y * b.y + d.z * b.z) ^ 2 - (d.x * d.x + d.y * d.y + d.z * d.z)) * ht
    rw [this]; exact h2
  have n2 : V3.norm (V3.smul k (a - V3.smul (V3.dot a b) b)) ≤ |k| * √(2 * tol) := by
    have hsq : V3.norm (V3.smul k (a - V3.smul (V3.dot a b) b)) ^ 2 = k ^ 2 * (1 - V3.dot a b ^ 2) := by
      rw [pow_two, V3.norm_sq]
      simp only [V3.dot, V3.sub_x, V3.sub_y, V3.sub_z, V3.smul_x, V3.smul_y, V3.smul_z] at hs ht ⊢
      linear_combination k ^ 2 * hs + k ^ 2 * (a.x * b.x + a.y * b.y + a.z * b.z) ^ 2 * ht
    have hle : 1 - V3.dot a b ^ 2 ≤ 2 * tol := by
      have := abs_nonneg (V3.dot a b)
      rw [← sq_abs]
      nlinarith [(abs_le.mp h1).1]
    refine (abs_le.mp (abs_le_of_sq_le_sq ?_ (mul_nonneg (abs_nonneg _) (sqrt_nonneg _)))).2
    rw [hsq, mul_pow, sq_sqrt (by linarith), sq_abs]
    exact mul_le_mul_of_nonneg_left hle (sq_nonneg k)
  generalize d - V3.smul (V3.dot d b) b = X at *
  generalize V3.smul k (a - V3.smul (V3.dot a b) b) = Y at *
  have tri : V3.norm (X + Y) ≤ V3.norm X + V3.norm Y := by
    refine (abs_le.mp (abs_le_of_sq_le_sq ?_ (add_nonneg (V3.norm_nonneg _) (V3.norm_nonneg _)))).2
    have hX := V3.norm_sq X
    have hY := V3.norm_sq Y
    have hXY := V3.norm_sq (X + Y)
    have hc : V3.dot X Y ≤ V3.norm X * V3.norm Y := by
      refine (abs_le.mp (abs_le_of_sq_le_sq ?_ (mul_nonneg (V3.norm_nonneg _) (V3.norm_nonneg _)))).2
      rw [mul_pow, pow_two (V3.norm X), pow_two (V3.norm Y), hX, hY]
      simp only [V3.dot]
      nlinarith [sq_nonneg (X.x * Y.y - X.y * Y.x), sq_nonneg (X.x * Y.z - X.z * Y.x), sq_nonneg (X.y * Y.z - X.z * Y.y)]
    simp only [V3.dot, V3.add_x, V3.add_y, V3.add_z] at hX hY hXY hc
    nlinarith
  linarith

example : (⟨planeXY, 2⟩ : Cylinder).isCoincident ⟨planeXY, 2⟩ = some true :=
  (C75_reflexive ⟨planeXY, 1, 1⟩ ⟨planeXY, 1⟩ ⟨planeXY, 2⟩ (1 / 10 ^ 6) (by norm_num) (by norm_num [planeXY, V3.dot]) (by norm_num [planeXY, V3.dot])
    (by norm_num [planeXY, V3.dot])).2.2

end Volmdlr.Surface
