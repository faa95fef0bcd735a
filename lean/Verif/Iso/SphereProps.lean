import Verif.Iso.TorusProps

/-!
# Segments of the parametric domain of a sphere (C176)
-/

namespace Volmdlr.Iso

open Real Volmdlr.Angle Volmdlr.Arc Volmdlr.Surface

/-- The full claim: the image of a vertical or horizontal segment of the parametric domain of a sphere, of less than a turn and which is not reduced to a
point, follows the meridian or the parallel. -/
def C176_full_statement : Prop :=
  ∀ (s : Sphere) (belongs : Arc3 → V3 ℝ → Bool) (name : SegName) (a b : V2 ℝ), DirectOrthonormal s.frame.basis → 1 / 10 ^ 6 < s.radius →
    name ≠ .construction → (a.x = b.x ∧ 1 / 100 < |a.y - b.y| ∧ |a.y - b.y| ≤ π ∨ a.y = b.y ∧ |a.y| < 1 ∧ 1 / 100 < |a.x - b.x| ∧ |a.x - b.x| ≤ π) →
    ∃ im, sphereSegment s belongs name a b = .ok im ∧ im.Follows fun t => s.paramTo3d (along a b t)

lemma unit_scaled {p : V3 ℝ} (hp : V3.dot p p = 1) {r : ℝ} (hr : 0 < r) (o : V3 ℝ) :
    V3.unitVector (o + V3.smul r p - o) = some p ∧ V3.pointDistance (o + V3.smul r p) o = r := by
  have e : o + V3.smul r p - o = V3.smul r p := by ext <;> simp
  have hn : V3.norm (V3.smul r p) = r := by
    refine (sq_eq_sq₀ (sqrt_nonneg _) hr.le).1 ?_
    change V3.norm _ ^ 2 = _
    rw [V3.norm_pow_two]
    simp only [V3.dot, V3.smul_x, V3.smul_y, V3.smul_z] at *
    linear_combination r ^ 2 * hp
  constructor
  · unfold V3.unitVector
    rw [e, hn, if_neg hr.ne']
    congr 1
    ext <;> simp <;> field_simp
  · unfold V3.pointDistance
    rw [e, hn]

/-- The half of a great circle from a point to the opposite one, by a point at a right angle. -/
lemma half_turn (s : Sphere) (hr : 1 / 10 ^ 6 < s.radius) (belongs : Arc3 → V3 ℝ → Bool) (hbel : Accepts belongs) (name : SegName)
    (hn : name ≠ .construction) (a b : V2 ℝ) (hab : V2.pointDistance a b ≠ 2 * π) (p q : V3 ℝ) (hp : V3.dot p p = 1) (hq : V3.dot q q = 1)
    (hpq : V3.dot p q = 0) (h1 : s.paramTo3d a = s.frame.origin + V3.smul s.radius p) (h2 : s.paramTo3d b = s.frame.origin - V3.smul s.radius p)
    (h3 : s.paramTo3d ⟨1 / 2 * (a.x + b.x), 1 / 2 * (a.y + b.y)⟩ = s.frame.origin + V3.smul s.radius q) :
    ∃ arc, sphereSegment s belongs name a b = .ok (.arc arc) ∧ arc.length = s.radius * π ∧
      (Image.arc arc).Follows fun t => s.frame.origin + V3.smul (s.radius * cos (t * π)) p + V3.smul (s.radius * sin (t * π)) q := by
  have hpos : 0 < s.radius := lt_trans (by norm_num) hr
  have hpi := pi_pos
  have hfar : ¬isClose3 (s.frame.origin + V3.smul s.radius p) (s.frame.origin - V3.smul s.radius p) (1 / 10 ^ 6) := by
    refine not_close_of_lt ?_
    have : V3.pointDistance (s.frame.origin + V3.smul s.radius p) (s.frame.origin - V3.smul s.radius p) = 2 * s.radius := by
      refine (sq_eq_sq₀ (sqrt_nonneg _) (by linarith)).1 ?_
      change V3.norm _ ^ 2 = _
      rw [V3.norm_pow_two]
      simp only [V3.dot, V3.add_x, V3.add_y, V3.add_z, V3.sub_x, V3.sub_y, V3.sub_z, V3.smul_x, V3.smul_y, V3.smul_z] at *
      linear_combination 4 * s.radius ^ 2 * hp
    rw [this]; linarith
  have hfar' : ¬isClose3 (s.frame.origin - V3.smul s.radius p) (s.frame.origin + V3.smul s.radius p) (1 / 10 ^ 6) := by
    intro h
    apply hfar
    unfold isClose3 at *
    convert h using 1
    unfold V3.pointDistance V3.norm
    simp only [V3.sub_x, V3.sub_y, V3.sub_z, V3.add_x, V3.add_y, V3.add_z]
    congr 1
    ring
  have hg : Circle3.Good ⟨⟨s.frame.origin, ⟨p, q, V3.cross p q⟩⟩, s.radius⟩ := ⟨direct_of_uv hp hq hpq, hpos⟩
  have hbig : 1 / 10 ^ 16 ≤ s.radius := by norm_num at hr ⊢; linarith
  have c0 : Circle3.Clear ⟨⟨s.frame.origin, ⟨p, q, V3.cross p q⟩⟩, s.radius⟩ 0 :=
    ⟨⟨le_rfl, by positivity⟩, by rw [cos_zero, mul_one]; right; rw [abs_of_pos hpos]; exact hbig, by rw [sin_zero, mul_zero]; left; rfl⟩
  have c1 : Circle3.Clear ⟨⟨s.frame.origin, ⟨p, q, V3.cross p q⟩⟩, s.radius⟩ π :=
    ⟨⟨hpi.le, by linarith⟩, by rw [cos_pi, mul_neg, mul_one]; right; rw [abs_neg, abs_of_pos hpos]; exact hbig, by rw [sin_pi, mul_zero]; left; rfl⟩
  have hmk := make3_clear hg c0 c1
  have e0 : Circle3.at ⟨⟨s.frame.origin, ⟨p, q, V3.cross p q⟩⟩, s.radius⟩ 0 = s.frame.origin + V3.smul s.radius p := by
    unfold Circle3.at; ext <;> simp
  have e1 : Circle3.at ⟨⟨s.frame.origin, ⟨p, q, V3.cross p q⟩⟩, s.radius⟩ π = s.frame.origin - V3.smul s.radius p := by
    unfold Circle3.at; ext <;> simp <;> ring
  have ee : endAfter 0 π = π := by unfold endAfter; rw [if_neg (not_le.2 hpi)]
  rw [ee] at hmk
  set arc : Arc3 := ⟨⟨⟨s.frame.origin, ⟨p, q, V3.cross p q⟩⟩, s.radius⟩, Circle3.at ⟨⟨s.frame.origin, ⟨p, q, V3.cross p q⟩⟩, s.radius⟩ 0,
    Circle3.at ⟨⟨s.frame.origin, ⟨p, q, V3.cross p q⟩⟩, s.radius⟩ π, 0, π⟩ with harc
  have hl : arc.length = s.radius * π := by
    unfold Arc3.length Arc3.angle; rw [harc]; dsimp only; rw [sub_zero, abs_of_pos hpi]
  have hfol : (Image.arc arc).Follows fun t => s.frame.origin + V3.smul (s.radius * cos (t * π)) p + V3.smul (s.radius * sin (t * π)) q := by
    intro t t0 t1
    rw [(C97_point_at_abscissa hg 0 arc rfl rfl _).1 (by
      change _ ≤ arc.length + _
      have : t * arc.length ≤ arc.length := by rw [hl]; nlinarith [mul_pos hpos hpi]
      norm_num
      linarith), hl]
    have : t * (s.radius * π) / s.radius = t * π := by field_simp
    unfold Circle3.at
    rw [zero_add, this]
  unfold sphereSegment sphereCircle
  rw [if_neg hn]
  dsimp only
  rw [h1, h2, h3, if_neg (by rintro ⟨-, -, h⟩; exact hfar' h), (unit_scaled hp hpos _).1, (unit_scaled hq hpos _).1, (unit_scaled hp hpos _).2]
  dsimp only
  rw [if_neg (by tauto), ← e0, ← e1, hmk]
  dsimp only
  have hmid : belongs arc (s.frame.origin + V3.smul s.radius q) = true := by
    refine hbel arc (1 / 2) _ (by norm_num) (by norm_num) ((hfol _ (by norm_num) (by norm_num)).trans ?_)
    dsimp only
    have : (1 : ℝ) / 2 * π = π / 2 := by ring
    rw [this, cos_pi_div_two, sin_pi_div_two]
    congr 1
    ext <;> simp
  rw [if_pos hmid]
  exact ⟨arc, rfl, hl, hfol⟩

lemma quarter_more (f : Frame3 ℝ) (x σ : ℝ) (hσ : σ = 1 ∨ σ = -1) (t : ℝ) :
    outward f (x + t * (σ * π)) = V3.smul (cos (t * π)) (outward f x) + V3.smul (sin (t * π)) (outward f (x + σ * (π / 2))) := by
  unfold outward
  rcases hσ with rfl | rfl
  · have e : x + t * (1 * π) = x + t * π := by ring
    rw [e, one_mul, cos_add, sin_add, cos_add_pi_div_two, sin_add_pi_div_two]
    ext <;> simp <;> ring
  · have e : x + t * (-1 * π) = x - t * π := by ring
    have e2 : x + -1 * (π / 2) = x - π / 2 := by ring
    rw [e, e2, cos_sub, sin_sub, cos_sub_pi_div_two, sin_sub_pi_div_two]
    ext <;> simp <;> ring

lemma outward_perp {f : Frame3 ℝ} (hf : DirectOrthonormal f.basis) (x σ : ℝ) (hσ : σ = 1 ∨ σ = -1) :
    V3.dot (outward f x) (outward f (x + σ * (π / 2))) = 0 := by
  obtain ⟨uu, vv, -, uv, -⟩ := hf
  unfold outward
  rcases hσ with rfl | rfl
  · rw [one_mul, cos_add_pi_div_two, sin_add_pi_div_two]
    simp only [V3.dot, V3.add_x, V3.add_y, V3.add_z, V3.smul_x, V3.smul_y, V3.smul_z] at *
    linear_combination cos x * sin x * (vv - uu) + (cos x ^ 2 - sin x ^ 2) * uv
  · have e2 : x + -1 * (π / 2) = x - π / 2 := by ring
    rw [e2, cos_sub_pi_div_two, sin_sub_pi_div_two]
    simp only [V3.dot, V3.add_x, V3.add_y, V3.add_z, V3.smul_x, V3.smul_y, V3.smul_z] at *
    linear_combination cos x * sin x * (uu - vv) + (sin x ^ 2 - cos x ^ 2) * uv

lemma sphere_meridian (s : Sphere) (p : V2 ℝ) : s.paramTo3d p = s.frame.origin + V3.smul s.radius (outward (meridianFrame s.frame p.x) p.y) := by
  unfold Sphere.paramTo3d meridianFrame outward
  ext <;> simp <;> ring

lemma sphere_equator (s : Sphere) (x : ℝ) : s.paramTo3d ⟨x, 0⟩ = s.frame.origin + V3.smul s.radius (outward s.frame x) := by
  unfold Sphere.paramTo3d outward
  ext <;> simp

lemma sign_of_abs {d : ℝ} (h : |d| = π) : ∃ σ : ℝ, (σ = 1 ∨ σ = -1) ∧ d = σ * π := by
  rcases abs_cases d with ⟨h1, -⟩ | ⟨h1, -⟩
  · exact ⟨1, Or.inl rfl, by linarith⟩
  · exact ⟨-1, Or.inr rfl, by linarith⟩

/-- C176: half turns.  The image of a vertical segment of length `π`, or of a horizontal one at the equator, is the half of great circle, which follows the
segment, of length `π r`.  Missing: the other segments (`C176_counterexample`). -/
theorem C176_half_turn_partial (s : Sphere) (hs : DirectOrthonormal s.frame.basis) (hr : 1 / 10 ^ 6 < s.radius) (belongs : Arc3 → V3 ℝ → Bool)
    (hbel : Accepts belongs) (name : SegName) (hn : name ≠ .construction) (a b : V2 ℝ)
    (h : a.x = b.x ∧ |b.y - a.y| = π ∨ a.y = 0 ∧ b.y = 0 ∧ |b.x - a.x| = π) :
    ∃ arc, sphereSegment s belongs name a b = .ok (.arc arc) ∧ arc.length = s.radius * π ∧
      (Image.arc arc).Follows fun t => s.paramTo3d (along a b t) := by
  have hpi := pi_pos
  obtain ⟨ax, ay⟩ := a
  obtain ⟨bx, by'⟩ := b
  dsimp only at h
  rcases h with ⟨rfl, h⟩ | ⟨rfl, rfl, h⟩
  · obtain ⟨σ, hσ, he⟩ := sign_of_abs h
    obtain rfl : by' = ay + σ * π := by linarith
    have hf := meridian_direct hs ax
    have hσ2 : σ ^ 2 = 1 := by rcases hσ with rfl | rfl <;> norm_num
    obtain ⟨arc, g1, g2, g3⟩ := half_turn s hr belongs hbel name hn ⟨ax, ay⟩ ⟨ax, ay + σ * π⟩ (by
      have : V2.pointDistance ⟨ax, ay⟩ ⟨ax, ay + σ * π⟩ = π := by
        refine (sq_eq_sq₀ (sqrt_nonneg _) hpi.le).1 ?_
        rw [sq_sqrt (add_nonneg (mul_self_nonneg _) (mul_self_nonneg _))]
        simp only [V2.sub_x, V2.sub_y]
        linear_combination π ^ 2 * hσ2
      rw [this]; linarith) (outward (meridianFrame s.frame ax) ay) (outward (meridianFrame s.frame ax) (ay + σ * (π / 2)))
      (outward_spec hf ay).1 (outward_spec hf _).1 (outward_perp hf ay σ hσ) (sphere_meridian s _) (by
        rw [sphere_meridian]
        dsimp only
        have := quarter_more (meridianFrame s.frame ax) ay σ hσ 1
        rw [one_mul, one_mul, cos_pi, sin_pi] at this
        rw [this]
        ext <;> simp <;> ring) (by
        rw [sphere_meridian]
        dsimp only
        have e1 : 1 / 2 * (ax + ax) = ax := by ring
        have e2 : 1 / 2 * (ay + (ay + σ * π)) = ay + σ * (π / 2) := by ring
        rw [e1, e2])
    refine ⟨arc, g1, g2, fun t t0 t1 => (g3 t t0 t1).trans ?_⟩
    dsimp only
    rw [sphere_meridian]
    unfold along
    dsimp only
    rw [sub_self, mul_zero, add_zero, add_sub_cancel_left, quarter_more _ _ _ hσ]
    congr 1
    ext <;> simp <;> ring
  · obtain ⟨σ, hσ, he⟩ := sign_of_abs h
    obtain rfl : bx = ax + σ * π := by linarith
    have hσ2 : σ ^ 2 = 1 := by rcases hσ with rfl | rfl <;> norm_num
    obtain ⟨arc, g1, g2, g3⟩ := half_turn s hr belongs hbel name hn ⟨ax, 0⟩ ⟨ax + σ * π, 0⟩ (by
      have : V2.pointDistance ⟨ax, 0⟩ ⟨ax + σ * π, 0⟩ = π := by
        refine (sq_eq_sq₀ (sqrt_nonneg _) hpi.le).1 ?_
        rw [sq_sqrt (add_nonneg (mul_self_nonneg _) (mul_self_nonneg _))]
        simp only [V2.sub_x, V2.sub_y]
        linear_combination π ^ 2 * hσ2
      rw [this]; linarith) (outward s.frame ax) (outward s.frame (ax + σ * (π / 2)))
      (outward_spec hs ax).1 (outward_spec hs _).1 (outward_perp hs ax σ hσ) (sphere_equator s _) (by
        rw [sphere_equator]
        have := quarter_more s.frame ax σ hσ 1
        rw [one_mul, one_mul, cos_pi, sin_pi] at this
        rw [this]
        ext <;> simp <;> ring) (by
        dsimp only
        have e1 : 1 / 2 * ((0 : ℝ) + 0) = 0 := by ring
        have e2 : 1 / 2 * (ax + (ax + σ * π)) = ax + σ * (π / 2) := by ring
        rw [e1, e2, sphere_equator])
    refine ⟨arc, g1, g2, fun t t0 t1 => (g3 t t0 t1).trans ?_⟩
    dsimp only
    unfold along
    dsimp only
    rw [sub_self, mul_zero, add_zero, add_sub_cancel_left, sphere_equator, quarter_more _ _ _ hσ]
    congr 1
    ext <;> simp <;> ring

/-- The unit sphere. -/
noncomputable def unitSphere : Sphere := ⟨exTorus.frame, 1⟩

-- the meridian of the unit sphere from the south pole to the north pole meets the hypotheses
example : DirectOrthonormal unitSphere.frame.basis ∧ 1 / 10 ^ 6 < unitSphere.radius ∧ Accepts (fun _ _ => true) ∧ |π / 2 - -(π / 2)| = π := by
  have hp := pi_pos
  refine ⟨exTorus_direct, by norm_num [unitSphere], fun _ _ _ _ _ _ => rfl, ?_⟩
  have e : π / 2 - -(π / 2) = π := by ring
  rw [e, abs_of_pos hp]

/-- The circle of the conversion of the sixth of a meridian, and its reverse: its frame is not orthonormal. -/
noncomputable def skewCircle (σ : ℝ) : Circle3 :=
  ⟨⟨⟨0, 0, 0⟩, ⟨⟨1, 0, 0⟩, ⟨σ * (√3 / 2), 0, σ * (1 / 2)⟩, ⟨0, -σ / 2, 0⟩⟩⟩, 1⟩

lemma skew_angle (σ : ℝ) (hσ : σ = 1 ∨ σ = -1) (x y : ℝ) (hx : NotTiny x) (hy : NotTiny y) :
    (skewCircle σ).pointAngle ⟨x + y * (σ * (√3 / 2)), 0, y * (σ * (1 / 2))⟩ = .ok (sinCosAngle x y) := by
  have h0 : σ ≠ 0 := by rcases hσ with rfl | rfl <;> norm_num
  have h2 : σ * σ = 1 := by rcases hσ with rfl | rfl <;> norm_num
  obtain ⟨q, hq, hl⟩ := Solid.globalToLocal_flush (skewCircle σ).frame (by
    unfold skewCircle Frame3.Invertible
    simp only [V3.dot, V3.cross]
    have : 1 * (0 * 0 - σ * (1 / 2) * (-σ / 2)) + 0 * (σ * (1 / 2) * 0 - σ * (√3 / 2) * 0) + 0 * (σ * (√3 / 2) * (-σ / 2) - 0 * 0) = 1 / 4 := by
      linear_combination h2 / 4
    rw [this]
    norm_num) ⟨x + y * (σ * (√3 / 2)), 0, y * (σ * (1 / 2))⟩
  have q1 := congrArg V3.x hq
  have q3 := congrArg V3.z hq
  simp [pt, skewCircle] at q1 q3
  have e2 : q.y = y := by
    refine mul_left_cancel₀ h0 ?_
    linarith
  have e1 : q.x = x := by rw [e2] at q1; linarith
  unfold Circle3.pointAngle
  rw [hl]
  have hr : (skewCircle σ).radius = 1 := rfl
  change (if (skewCircle σ).radius = 0 then _ else _) = _
  rw [if_neg (by rw [hr]; norm_num), hr]
  change Except.ok (sinCosAngle (flush q.x / 1) (flush q.y / 1)) = _
  rw [e1, e2, flush_of_notTiny hx, flush_of_notTiny hy, div_one, div_one]

lemma skew_make (σ : ℝ) (hσ : σ = 1 ∨ σ = -1) :
    Arc3.make (skewCircle σ) ⟨1, 0, 0⟩ ⟨1 / 2, 0, √3 / 2⟩ = .ok ⟨skewCircle σ, ⟨1, 0, 0⟩, ⟨1 / 2, 0, √3 / 2⟩, 0, π⟩ := by
  have hp := pi_gt_three
  have h3 : √3 * √3 = 3 := mul_self_sqrt (by norm_num)
  have h31 : 1 ≤ √3 := one_le_sqrt.2 (by norm_num)
  have h2 : σ * σ = 1 := by rcases hσ with rfl | rfl <;> norm_num
  have a1 : (skewCircle σ).pointAngle ⟨1, 0, 0⟩ = .ok 0 := by
    have := skew_angle σ hσ 1 0 (by right; norm_num) (by left; rfl)
    simp only [zero_mul, add_zero] at this
    rw [this]
    have := C54_sin_cos_angle_eq 0 le_rfl (by positivity)
    rw [cos_zero, sin_zero] at this
    rw [this]
  have a2 : (skewCircle σ).pointAngle ⟨1 / 2, 0, √3 / 2⟩ = .ok π := by
    have := skew_angle σ hσ (-1) (σ * √3) (by right; norm_num) (by
      right
      rcases hσ with rfl | rfl
      · rw [one_mul, abs_of_pos (by linarith)]; norm_num; linarith
      · rw [neg_one_mul, abs_neg, abs_of_pos (by linarith)]; norm_num; linarith)
    have e1 : -1 + σ * √3 * (σ * (√3 / 2)) = 1 / 2 := by
      have : σ * √3 * (σ * (√3 / 2)) = (σ * σ) * (√3 * √3) / 2 := by ring
      rw [this, h2, h3]; norm_num
    have e2 : σ * √3 * (σ * (1 / 2)) = √3 / 2 := by
      have : σ * √3 * (σ * (1 / 2)) = (σ * σ) * √3 / 2 := by ring
      rw [this, h2, one_mul]
    rw [e1, e2] at this
    rw [this]
    unfold sinCosAngle
    dsimp only
    have hraw : sinCosAngleRaw (max (-1) (min (-1) 1)) (max (-1) (min (σ * √3) 1)) = π := by
      have c1 : max (-1 : ℝ) (min (-1) 1) = -1 := by norm_num
      rw [c1]
      unfold sinCosAngleRaw
      rw [if_neg (by norm_num), arccos_neg_one]
      split_ifs
      · rfl
      · ring
    rw [hraw, if_neg]
    unfold mathIsClose
    rw [abs_of_neg (by linarith), abs_of_pos (by linarith), abs_of_pos (by linarith), max_eq_right (by linarith : π ≤ 2 * π), not_le, max_lt_iff]
    constructor <;> norm_num <;> linarith
  unfold Arc3.make
  rw [a1, a2]
  change Except.ok _ = _
  unfold endAfter
  rw [if_neg (by linarith)]

lemma skew_not_follows (σ : ℝ) (f : ℝ → V3 ℝ) (hf : f 1 = ⟨1 / 2, 0, √3 / 2⟩) :
    ¬(Image.arc ⟨skewCircle σ, ⟨1, 0, 0⟩, ⟨1 / 2, 0, √3 / 2⟩, 0, π⟩).Follows f := by
  intro h
  have h1 := h 1 zero_le_one le_rfl
  unfold Arc3.pointAtAbscissa Arc3.length Arc3.angle at h1
  dsimp only at h1
  have hr : (skewCircle σ).radius = 1 := rfl
  rw [hf, hr, sub_zero, abs_of_pos pi_pos, one_mul, one_mul, div_one, if_neg (by norm_num)] at h1
  have hx := congrArg V3.x (Except.ok.inj h1)
  unfold V3.rotation V3.rotationCS skewCircle at hx
  simp [V3.dot, V3.cross] at hx
  norm_num at hx

/-- C176: the sixth of a meridian of the unit sphere which starts at the equator gives an arc of angle `π` in a frame which is not orthonormal, and does
not follow the meridian: whatever the test of belonging answers. -/
theorem C176_sixth_counterexample (belongs : Arc3 → V3 ℝ → Bool) :
    ∃ arc, sphereSegment unitSphere belongs .none ⟨0, 0⟩ ⟨0, π / 3⟩ = .ok (.arc arc) ∧ arc.length = π ∧
      V3.dot arc.circle.frame.basis.u arc.circle.frame.basis.v ≠ 0 ∧
      ¬(Image.arc arc).Follows fun t => unitSphere.paramTo3d (along ⟨0, 0⟩ ⟨0, π / 3⟩ t) := by
  have hp := pi_gt_three
  have h3 : √3 * √3 = 3 := mul_self_sqrt (by norm_num)
  have h30 : 0 < √3 := sqrt_pos.2 (by norm_num)
  have p1 : unitSphere.paramTo3d ⟨0, 0⟩ = ⟨1, 0, 0⟩ := by
    unfold Sphere.paramTo3d unitSphere exTorus; ext <;> simp
  have p2 : unitSphere.paramTo3d ⟨0, π / 3⟩ = ⟨1 / 2, 0, √3 / 2⟩ := by
    unfold Sphere.paramTo3d unitSphere exTorus
    dsimp only
    rw [cos_pi_div_three, sin_pi_div_three]
    ext <;> simp
  have p3 : unitSphere.paramTo3d ⟨1 / 2 * (0 + 0), 1 / 2 * (0 + π / 3)⟩ = ⟨√3 / 2, 0, 1 / 2⟩ := by
    have e : 1 / 2 * (0 + π / 3) = π / 6 := by ring
    rw [e]
    unfold Sphere.paramTo3d unitSphere exTorus
    dsimp only
    rw [cos_pi_div_six, sin_pi_div_six]
    ext <;> simp
  have d1 : V3.pointDistance (⟨1, 0, 0⟩ : V3 ℝ) ⟨1 / 2, 0, √3 / 2⟩ = 1 := by
    refine (sq_eq_sq₀ (sqrt_nonneg _) zero_le_one).1 ?_
    change V3.norm _ ^ 2 = _
    rw [V3.norm_pow_two]
    simp only [V3.dot, V3.sub_x, V3.sub_y, V3.sub_z]
    linear_combination h3 / 4
  have d2 : V3.pointDistance (⟨1 / 2, 0, √3 / 2⟩ : V3 ℝ) ⟨1, 0, 0⟩ = 1 := by
    refine (sq_eq_sq₀ (sqrt_nonneg _) zero_le_one).1 ?_
    change V3.norm _ ^ 2 = _
    rw [V3.norm_pow_two]
    simp only [V3.dot, V3.sub_x, V3.sub_y, V3.sub_z]
    linear_combination h3 / 4
  have dd : V2.pointDistance (⟨0, 0⟩ : V2 ℝ) ⟨0, π / 3⟩ ≠ 2 * π := by
    have : V2.pointDistance (⟨0, 0⟩ : V2 ℝ) ⟨0, π / 3⟩ = π / 3 := by
      refine (sq_eq_sq₀ (sqrt_nonneg _) (by linarith)).1 ?_
      rw [sq_sqrt (add_nonneg (mul_self_nonneg _) (mul_self_nonneg _))]
      simp only [V2.sub_x, V2.sub_y]
      ring
    rw [this]; linarith
  have ho : unitSphere.frame.origin = ⟨0, 0, 0⟩ := rfl
  have u1 := unit_scaled (p := ⟨1, 0, 0⟩) (by norm_num [V3.dot]) one_pos ⟨0, 0, 0⟩
  have u2 := unit_scaled (p := ⟨√3 / 2, 0, 1 / 2⟩) (by simp only [V3.dot]; linear_combination h3 / 4) one_pos ⟨0, 0, 0⟩
  have v1 : (⟨0, 0, 0⟩ : V3 ℝ) + V3.smul 1 ⟨1, 0, 0⟩ = ⟨1, 0, 0⟩ := by ext <;> simp
  have v2 : (⟨0, 0, 0⟩ : V3 ℝ) + V3.smul 1 ⟨√3 / 2, 0, 1 / 2⟩ = ⟨√3 / 2, 0, 1 / 2⟩ := by ext <;> simp
  rw [v1] at u1
  rw [v2] at u2
  have hc : sphereCircle unitSphere ⟨0, 0⟩ ⟨0, π / 3⟩ = some (skewCircle 1) := by
    unfold sphereCircle
    dsimp only
    rw [p1, p3, ho, u1.1, u2.1, u1.2]
    unfold skewCircle
    have w1 : (⟨1 * (√3 / 2), 0, 1 * (1 / 2)⟩ : V3 ℝ) = ⟨√3 / 2, 0, 1 / 2⟩ := by ext <;> simp
    have w2 : V3.cross (⟨1, 0, 0⟩ : V3 ℝ) ⟨√3 / 2, 0, 1 / 2⟩ = ⟨0, -1 / 2, 0⟩ := by ext <;> simp [V3.cross]; ring
    dsimp only
    rw [w1, w2]
  have hrev : reverseCircle (skewCircle 1) = skewCircle (-1) := by
    unfold reverseCircle skewCircle
    congr 3
    · ext <;> simp
    · ext <;> simp [V3.cross]
  have hlast : (fun t => unitSphere.paramTo3d (along ⟨0, 0⟩ ⟨0, π / 3⟩ t)) 1 = ⟨1 / 2, 0, √3 / 2⟩ := by
    dsimp only
    rw [← p2]
    unfold along
    congr 2 <;> dsimp only <;> ring
  have hlen : ∀ σ : ℝ, Arc3.length ⟨skewCircle σ, ⟨1, 0, 0⟩, ⟨1 / 2, 0, √3 / 2⟩, 0, π⟩ = π := by
    intro σ
    unfold Arc3.length Arc3.angle
    have hr : (skewCircle σ).radius = 1 := rfl
    dsimp only
    rw [hr, sub_zero, abs_of_pos pi_pos, one_mul]
  have hdot : ∀ σ : ℝ, V3.dot (skewCircle σ).frame.basis.u (skewCircle σ).frame.basis.v = σ * (√3 / 2) := by
    intro σ; unfold skewCircle; simp [V3.dot]
  unfold sphereSegment
  rw [if_neg (by decide)]
  dsimp only
  rw [p1, p2, p3, if_neg (by rintro ⟨-, -, h⟩; exact not_close_of_lt (by rw [d2]; norm_num) h), hc]
  dsimp only
  rw [if_neg (by rintro (h | h); exacts [not_close_of_lt (by rw [d1]; norm_num) h, dd h]), skew_make 1 (Or.inl rfl)]
  dsimp only
  split_ifs
  · exact ⟨_, rfl, hlen 1, by dsimp only; rw [hdot]; positivity, skew_not_follows 1 _ hlast⟩
  · rw [hrev, skew_make (-1) (Or.inr rfl)]
    exact ⟨_, rfl, hlen (-1), by dsimp only; rw [hdot]; exact mul_ne_zero (by norm_num) (by positivity), skew_not_follows (-1) _ hlast⟩

/-- C176: the claim fails for the sixth of a meridian. -/
theorem C176_counterexample : ¬C176_full_statement := by
  intro h
  have hp := pi_gt_three
  have e : |0 - π / 3| = π / 3 := by rw [zero_sub, abs_neg, abs_of_pos (by linarith)]
  obtain ⟨im, h1, h2⟩ := h unitSphere (fun _ _ => true) .none ⟨0, 0⟩ ⟨0, π / 3⟩ exTorus_direct (by norm_num [unitSphere]) (by decide)
    (Or.inl ⟨rfl, by dsimp only; rw [e]; linarith, by dsimp only; rw [e]; linarith⟩)
  obtain ⟨arc, h3, -, -, h4⟩ := C176_sixth_counterexample fun _ _ => true
  rw [h3] at h1
  obtain rfl := Except.ok.inj h1
  exact h4 h2

end Volmdlr.Iso
