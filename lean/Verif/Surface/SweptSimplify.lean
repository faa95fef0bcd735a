import Verif.Surface.SweptMore

/-!
# C158: `RevolutionSurface3D.simplify`
-/

namespace Volmdlr.Surface

open Volmdlr.Angle Volmdlr.Intersect Real

/-- The points of a line are the points of some abscissa. -/
theorem line_points (l : Line3) (h : l.point1 ≠ l.point2) (n : V3 ℝ) (hn : V3.unitVector l.dir = some n) (x : V3 ℝ) (hx : OnLine3 l.point1 l.point2 x) :
    (∀ v, ∃ t, l.pointAtAbscissa v = some (x + V3.smul t n)) ∧ ∀ t, ∃ v, l.pointAtAbscissa v = some (x + V3.smul t n) := by
  obtain ⟨hN, hne, -⟩ := V3.unitVector_spec hn
  obtain ⟨r, r1, r2, r3⟩ := hx
  have e1 := congrArg V3.x hne
  have e2 := congrArg V3.y hne
  have e3 := congrArg V3.z hne
  simp only [Line3.dir, V3.sub_x, V3.sub_y, V3.sub_z, V3.smul_x, V3.smul_y, V3.smul_z] at e1 e2 e3
  have hat : ∀ v, l.pointAtAbscissa v = some (l.point1 + V3.smul v n) := by
    intro v; unfold Line3.pointAtAbscissa; rw [hn, Option.map_some]
  have key : ∀ t, l.point1 + V3.smul (t + r * V3.norm (l.point2 - l.point1)) n = x + V3.smul t n := by
    intro t
    ext <;> simp only [V3.smul_x, V3.smul_y, V3.smul_z, V3.add_x, V3.add_y, V3.add_z]
    · rw [r1]; linear_combination -r * e1
    · rw [r2]; linear_combination -r * e2
    · rw [r3]; linear_combination -r * e3
  constructor
  · intro v
    refine ⟨v - r * V3.norm (l.point2 - l.point1), ?_⟩
    rw [hat, ← key]; congr 3; ring
  · intro t
    exact ⟨_, by rw [hat, key]⟩

/-- The points of a surface of revolution, with heights and distances measured from any point `x` of the axis. -/
theorem points_from {s : Revolution} (hs : s.Valid) {x : V3 ℝ} {m : ℝ} (hx : x = s.axisPoint + V3.smul m s.axis) (p : V3 ℝ) :
    (∃ u v, s.to3d ⟨u, v⟩ = some p) ↔
      ∃ v c, s.edge.pointAt v = some c ∧ V3.dot (p - x) s.axis = V3.dot (c - x) s.axis ∧ V3.sqNorm (p - x) = V3.sqNorm (c - x) := by
  rw [C156_points hs]
  have hww : V3.dot s.axis s.axis = 1 := by rw [← hs.axis]; exact hs.direct.2.2.1
  have h1 : ∀ q, V3.dot (q - x) s.axis = V3.dot (q - s.axisPoint) s.axis - m := by
    intro q
    have : V3.dot (q - x) s.axis = V3.dot (q - s.axisPoint) s.axis - m * V3.dot s.axis s.axis := by
      rw [hx]; simp only [V3.dot, V3.sub_x, V3.sub_y, V3.sub_z, V3.add_x, V3.add_y, V3.add_z, V3.smul_x, V3.smul_y, V3.smul_z]; ring
    rw [this, hww]; ring
  have h2 : ∀ q, V3.sqNorm (q - x) = V3.sqNorm (q - s.axisPoint) - 2 * m * V3.dot (q - s.axisPoint) s.axis + m ^ 2 := by
    intro q
    have : V3.sqNorm (q - x) = V3.sqNorm (q - s.axisPoint) - 2 * m * V3.dot (q - s.axisPoint) s.axis + m ^ 2 * V3.dot s.axis s.axis := by
      rw [hx]; simp only [V3.sqNorm, V3.dot, V3.sub_x, V3.sub_y, V3.sub_z, V3.add_x, V3.add_y, V3.add_z, V3.smul_x, V3.smul_y, V3.smul_z]; ring
    rw [this, hww]; ring
  have h3 : ∀ q r : V3 ℝ, V3.pointDistance q s.axisPoint = V3.pointDistance r s.axisPoint ↔ V3.sqNorm (q - s.axisPoint) = V3.sqNorm (r - s.axisPoint) := by
    intro q r
    unfold V3.pointDistance V3.norm V3.sqNorm
    rw [Real.sqrt_inj (by nlinarith [mul_self_nonneg (q - s.axisPoint).x, mul_self_nonneg (q - s.axisPoint).y, mul_self_nonneg (q - s.axisPoint).z])
      (by nlinarith [mul_self_nonneg (r - s.axisPoint).x, mul_self_nonneg (r - s.axisPoint).y, mul_self_nonneg (r - s.axisPoint).z])]
  simp only [h1, h2, h3]
  constructor
  · rintro ⟨v, c, hc, e1, e2⟩
    exact ⟨v, c, hc, by rw [e1], by rw [e1, e2]⟩
  · rintro ⟨v, c, hc, e1, e2⟩
    have e1 : V3.dot (p - s.axisPoint) s.axis = V3.dot (c - s.axisPoint) s.axis := by linarith
    exact ⟨v, c, hc, e1, by rw [e1] at e2; linarith⟩

theorem axis_dir (s : Revolution) : (⟨s.axisPoint, s.axisPoint + s.axis⟩ : Line3).dir = s.axis := by
  ext <;> simp [Line3.dir]

/-- Non colinear directions have a cross product. -/
theorem cross_ne_of_not_colinear {u v : V3 ℝ} (hu : V3.norm u ≠ 0) (hv : V3.norm v ≠ 0) (h : isColinear u v = false) : V3.cross u v ≠ ⟨0, 0, 0⟩ := by
  intro h0
  unfold isColinear at h
  rw [if_neg (by tauto), decide_eq_false_iff_not] at h
  apply h
  have e1 : V3.dot u v ^ 2 = (V3.norm u * V3.norm v) ^ 2 := by
    have : V3.dot (V3.cross u v) (V3.cross u v) = 0 := by rw [h0]; simp [V3.dot]
    rw [mul_pow, V3.norm_pow_two, V3.norm_pow_two]
    simp only [V3.dot, V3.cross] at this ⊢
    linear_combination -this
  have e2 : |V3.dot u v| = V3.norm u * V3.norm v := by
    have := abs_eq_abs.mpr (sq_eq_sq_iff_eq_or_eq_neg.mp e1)
    rwa [abs_of_nonneg (mul_nonneg (V3.norm_nonneg _) (V3.norm_nonneg _))] at this
  rw [e2, div_div, div_self (mul_ne_zero hu hv)]
  norm_num [mathIsClose]

/-! ## Cones -/

/-- What `simplify` makes of a generatrix carried by a line that crosses the axis obliquely. -/
theorem simplifyLine_cone {s : Revolution} (hs : s.Valid) {g : Line3} (hg : g.point1 ≠ g.point2) {x : V3 ℝ} {m : ℝ} (hxm : x = s.axisPoint + V3.smul m s.axis)
    (hx : OnLine3 g.point1 g.point2 x) (hc : isColinear s.axis g.dir = false) (hd : 1 / 10 ^ 6 < |V3.dot s.axis g.dir|) :
    ∃ k n, s.simplifyLine g = some (.cone k) ∧ V3.unitVector g.dir = some n ∧ V3.dot n s.axis ≠ 0 ∧ k.frame.origin = x ∧ Orthonormal3 k.frame.basis ∧ 0 ≤ k.semiAngle ∧
      k.semiAngle < π / 2 ∧ ∀ p, OnCone k.frame k.semiAngle p ↔ ∃ t, V3.dot (p - x) s.axis = V3.dot (V3.smul t n) s.axis ∧ V3.sqNorm (p - x) = V3.sqNorm (V3.smul t n) := by
  have hw1 : V3.norm s.axis = 1 := hs.norm
  have hww : V3.dot s.axis s.axis = 1 := by rw [← V3.norm_pow_two, hw1]; norm_num
  have hN := Line3.dir_pos hg
  obtain ⟨n, hn⟩ := V3.unitVector_some (u := g.dir) (by rw [Ne, ← V3.norm_eq_zero_iff]; exact hN.ne')
  obtain ⟨-, hne, hnn⟩ := V3.unitVector_spec hn
  have hint : (⟨s.axisPoint, s.axisPoint + s.axis⟩ : Line3).intersection g = some (some x) := by
    apply C73_intersection_partial
    · rw [axis_dir]; exact cross_ne_of_not_colinear (by rw [hw1]; norm_num) hN.ne' hc
    · rw [axis_dir]; exact hc
    · rw [axis_dir]; exact .inl hd
    · refine ⟨m, ?_, ?_, ?_⟩ <;> rw [hxm] <;> simp <;> ring
    · exact hx
  -- the cosine of the angle
  obtain ⟨C, hC⟩ : ∃ C, C = V3.dot n s.axis := ⟨_, rfl⟩
  have hdC : V3.dot s.axis n = C := by rw [hC]; simp only [V3.dot]; ring
  have hC0 : C ≠ 0 := by
    intro h0
    have : V3.dot s.axis g.dir = V3.norm g.dir * V3.dot s.axis n := by
      conv_lhs => rw [hne]
      simp only [V3.dot, V3.smul_x, V3.smul_y, V3.smul_z]; ring
    rw [this, hdC, h0, mul_zero, abs_zero] at hd
    norm_num at hd
  have hC1 : C ^ 2 ≤ 1 := by
    rw [hC]
    simp only [V3.dot] at hww hnn ⊢
    generalize s.axis = w at *
    nlinarith [mul_self_nonneg (n.x * w.y - n.y * w.x), mul_self_nonneg (n.y * w.z - n.z * w.y), mul_self_nonneg (n.z * w.x - n.x * w.z)]
  have hCabs : |C| ≤ 1 := (abs_le_one_iff_mul_self_le_one).mpr (by nlinarith)
  have hCpos : 0 < |C| := abs_pos.mpr hC0
  have hn1 : V3.norm n = 1 := norm_one_of_dot hnn
  have hang : (if V3.dot s.axis n > 0 then vectors3dAngle s.axis n else vectors3dAngle s.axis (-n)) = some (arccos |C|) := by
    have hneg : V3.norm (-n) = 1 := norm_one_of_dot (by rw [← hnn]; simp only [V3.dot, V3.neg_x, V3.neg_y, V3.neg_z]; ring)
    have hdn : V3.dot s.axis (-n) = -C := by rw [← hdC]; simp only [V3.dot, V3.neg_x, V3.neg_y, V3.neg_z]; ring
    unfold vectors3dAngle
    rw [hw1, hn1, hneg, mul_one, if_neg one_ne_zero, if_neg one_ne_zero, hdn, hdC, div_one, div_one]
    split_ifs with h
    · rw [abs_of_pos h] at hCabs ⊢
      rw [min_eq_left hCabs, max_eq_left (by linarith)]
    · rw [not_lt] at h
      rw [abs_of_nonpos h] at hCabs ⊢
      rw [min_eq_left hCabs, max_eq_left (by linarith)]
  have hcos : cos (arccos |C|) = |C| := cos_arccos (by linarith) hCabs
  have htan : tan (arccos |C|) ^ 2 * C ^ 2 = 1 - C ^ 2 := by
    rw [tan_eq_sin_div_cos, hcos, sin_arccos, div_pow, sq_sqrt (by rw [sq_abs]; linarith), sq_abs]
    field_simp
  -- the condition on the points
  have hiff : ∀ (f : Frame3 ℝ) (p : V3 ℝ), f.origin = x → height f p ^ 2 = V3.dot (p - x) s.axis ^ 2 →
      (OnCone f (arccos |C|) p ↔ ∃ t, V3.dot (p - x) s.axis = V3.dot (V3.smul t n) s.axis ∧ V3.sqNorm (p - x) = V3.sqNorm (V3.smul t n)) := by
    intro f p hf hh
    unfold OnCone
    rw [mul_pow, hh]
    have hsq : sqDist f p = V3.sqNorm (p - x) := by unfold sqDist; rw [hf]
    rw [hsq]
    have t1 : ∀ t, V3.dot (V3.smul t n) s.axis = t * C := by
      intro t; rw [hC]; simp only [V3.dot, V3.smul_x, V3.smul_y, V3.smul_z]; ring
    have t2 : ∀ t, V3.sqNorm (V3.smul t n) = t ^ 2 := by
      intro t
      have : V3.sqNorm (V3.smul t n) = t ^ 2 * V3.dot n n := by simp only [V3.sqNorm, V3.dot, V3.smul_x, V3.smul_y, V3.smul_z]; ring
      rw [this, hnn, mul_one]
    simp only [t1, t2]
    generalize V3.sqNorm (p - x) = S
    generalize V3.dot (p - x) s.axis = H
    generalize tan (arccos |C|) ^ 2 = T at *
    constructor
    · intro h
      refine ⟨H / C, by field_simp, ?_⟩
      rw [div_pow, eq_div_iff (pow_ne_zero 2 hC0)]
      linear_combination C ^ 2 * h + H ^ 2 * htan
    · rintro ⟨t, rfl, rfl⟩
      linear_combination -t ^ 2 * htan
  have hlt : arccos |C| < π / 2 := arccos_lt_pi_div_two.mpr hCpos
  unfold Revolution.simplifyLine
  dsimp only
  rw [hint, Option.bind_some, hn, Option.bind_some]
  dsimp only
  rw [hang, Option.bind_some]
  by_cases hcl : Arc.isClose3 s.axisPoint x (1 / 10 ^ 6)
  · rw [if_neg (not_not.mpr hcl)]
    refine ⟨_, n, rfl, rfl, hC ▸ hC0, rfl, DirectOrthonormal.ortho hs.direct, arccos_nonneg _, hlt, fun p => hiff _ p rfl ?_⟩
    unfold height; dsimp only; rw [hs.axis]
  · rw [if_pos hcl]
    have hm : m ≠ 0 := by
      intro h0
      apply hcl
      unfold Arc.isClose3
      rw [mathIsClose_zero (by norm_num)]
      have : x = s.axisPoint := by rw [hxm, h0]; ext <;> simp
      rw [this]
      unfold V3.pointDistance
      have : s.axisPoint - s.axisPoint = ⟨0, 0, 0⟩ := by ext <;> simp
      rw [this]
      norm_num [V3.norm]
    have hox : s.axisPoint - x = V3.smul (-m) s.axis := by rw [hxm]; ext <;> simp
    obtain ⟨w, hw⟩ := V3.unitVector_some (u := s.axisPoint - x) (by
      rw [Ne, ← V3.norm_eq_zero_iff, ← pow_eq_zero_iff two_ne_zero, V3.norm_pow_two, hox]
      have : V3.dot (V3.smul (-m) s.axis) (V3.smul (-m) s.axis) = m ^ 2 * V3.dot s.axis s.axis := by
        simp only [V3.dot, V3.smul_x, V3.smul_y, V3.smul_z]; ring
      rw [this, hww, mul_one]; exact pow_ne_zero 2 hm)
    obtain ⟨hK, hwe, hwn⟩ := V3.unitVector_spec hw
    -- the new third vector is the axis or its opposite
    obtain ⟨e, he, hee⟩ : ∃ e : ℝ, w = V3.smul e s.axis ∧ e ^ 2 = 1 := by
      refine ⟨-m / V3.norm (s.axisPoint - x), ?_, ?_⟩
      · have ex := congrArg V3.x (hwe.symm.trans hox)
        have ey := congrArg V3.y (hwe.symm.trans hox)
        have ez := congrArg V3.z (hwe.symm.trans hox)
        simp only [V3.smul_x, V3.smul_y, V3.smul_z] at ex ey ez
        ext <;> simp only [V3.smul_x, V3.smul_y, V3.smul_z] <;> field_simp <;> linarith
      · rw [div_pow, V3.norm_pow_two, hox]
        have : V3.dot (V3.smul (-m) s.axis) (V3.smul (-m) s.axis) = m ^ 2 * V3.dot s.axis s.axis := by
          simp only [V3.dot, V3.smul_x, V3.smul_y, V3.smul_z]; ring
        rw [this, hww, mul_one, neg_sq, div_self (pow_ne_zero 2 hm)]
    rw [hw, Option.map_some]
    refine ⟨_, n, rfl, rfl, hC ▸ hC0, rfl, ?_, arccos_nonneg _, hlt, fun p => hiff _ p rfl ?_⟩
    · have huu := hs.direct.1
      have huw : V3.dot s.frame.basis.u w = 0 := by
        have h0 := hs.direct.2.2.2.2.1
        rw [hs.axis] at h0
        have : V3.dot s.frame.basis.u w = e * V3.dot s.frame.basis.u s.axis := by
          rw [he]; simp only [V3.dot, V3.smul_x, V3.smul_y, V3.smul_z]; ring
        rw [this, h0, mul_zero]
      dsimp only
      generalize s.frame.basis.u = u at *
      clear hwe hiff
      simp only [Orthonormal3, V3.dot, V3.cross] at *
      refine ⟨huu, ?_, hwn, ?_, huw, ?_⟩
      · linear_combination (w.x * w.x + w.y * w.y + w.z * w.z) * huu + hwn - (u.x * w.x + u.y * w.y + u.z * w.z) * huw
      · ring
      · ring
    · unfold height; dsimp only
      rw [he]
      have : V3.dot (p - x) (V3.smul e s.axis) = e * V3.dot (p - x) s.axis := by
        simp only [V3.dot, V3.smul_x, V3.smul_y, V3.smul_z]; ring
      rw [this, mul_pow, hee, one_mul]

/-- C158: a line that crosses the axis obliquely: `simplify` gives a cone (half angle below `π/2`, orthonormal frame at the crossing
point) whose points are exactly the points of the surface of revolution. -/
theorem C158_cone_line_partial {l : Line3} {o a x : V3 ℝ} {s : Revolution} (h : Revolution.new (.line l) o a = some s) (hl : l.point1 ≠ l.point2)
    (hx1 : OnLine3 o (o + a) x) (hx2 : OnLine3 l.point1 l.point2 x) (hc : isColinear s.axis l.dir = false) (hd : 1 / 10 ^ 6 < |V3.dot s.axis l.dir|) :
    ∃ k, s.simplify = some (.cone k) ∧ k.frame.origin = x ∧ Orthonormal3 k.frame.basis ∧ 0 ≤ k.semiAngle ∧ k.semiAngle < π / 2 ∧
      ∀ p, (∃ u v, s.to3d ⟨u, v⟩ = some p) ↔ OnCone k.frame k.semiAngle p := by
  have hs := new_valid h
  obtain ⟨he, ho, -, -, -, ⟨K, hK, hKa⟩, -⟩ := C156_frame h
  obtain ⟨r, r1, r2, r3⟩ := hx1
  have hxm : x = s.axisPoint + V3.smul (r * K) s.axis := by
    rw [ho]
    rw [hKa] at r1 r2 r3
    ext <;> simp only [V3.smul_x, V3.smul_y, V3.smul_z, V3.add_x, V3.add_y, V3.add_z] at *
    · rw [r1]; ring
    · rw [r2]; ring
    · rw [r3]; ring
  obtain ⟨k, n, h1, h2, h0, h3, h4, h5, h6, h7⟩ := simplifyLine_cone hs hl hxm hx2 hc hd
  refine ⟨k, ?_, h3, h4, h5, h6, ?_⟩
  · unfold Revolution.simplify; rw [he]; exact h1
  · intro p
    rw [points_from hs hxm, h7, he]
    obtain ⟨p1, p2⟩ := line_points l hl n h2 x hx2
    have hsub : ∀ t, x + V3.smul t n - x = V3.smul t n := by intro t; ext <;> simp
    constructor
    · rintro ⟨v, c, hcv, e1, e2⟩
      obtain ⟨t, ht⟩ := p1 v
      have hct : c = x + V3.smul t n := Option.some.inj (hcv.symm.trans ht)
      rw [hct, hsub] at e1 e2
      exact ⟨t, e1, e2⟩
    · rintro ⟨t, e1, e2⟩
      obtain ⟨v, hv⟩ := p2 t
      exact ⟨v, _, hv, by rw [hsub]; exact e1, by rw [hsub]; exact e2⟩

/-- C158: a segment carried by a line that crosses the axis obliquely: every point of the surface is on the cone `simplify` gives. -/
theorem C158_cone_segment_partial {e : Seg3} {o a x : V3 ℝ} {s : Revolution} (h : Revolution.new (.segment e) o a = some s) (hl : e.start ≠ e.stop)
    (hx1 : OnLine3 o (o + a) x) (hx2 : OnLine3 e.start e.stop x) (hc : isColinear s.axis (e.stop - e.start) = false)
    (hd : 1 / 10 ^ 6 < |V3.dot s.axis (e.stop - e.start)|) :
    ∃ k, s.simplify = some (.cone k) ∧ k.frame.origin = x ∧ Orthonormal3 k.frame.basis ∧ 0 ≤ k.semiAngle ∧ k.semiAngle < π / 2 ∧
      ∀ u v p, s.to3d ⟨u, v⟩ = some p → OnCone k.frame k.semiAngle p := by
  have hs := new_valid h
  obtain ⟨he, ho, -, -, -, ⟨K, hK, hKa⟩, -⟩ := C156_frame h
  obtain ⟨r, r1, r2, r3⟩ := hx1
  have hxm : x = s.axisPoint + V3.smul (r * K) s.axis := by
    rw [ho]
    rw [hKa] at r1 r2 r3
    ext <;> simp only [V3.smul_x, V3.smul_y, V3.smul_z, V3.add_x, V3.add_y, V3.add_z] at *
    · rw [r1]; ring
    · rw [r2]; ring
    · rw [r3]; ring
  obtain ⟨k, n, h1, h2, h0, h3, h4, h5, h6, h7⟩ := simplifyLine_cone (g := ⟨e.start, e.stop⟩) hs hl hxm hx2 hc hd
  refine ⟨k, ?_, h3, h4, h5, h6, ?_⟩
  · unfold Revolution.simplify; rw [he]; exact h1
  · intro u v p hp
    rw [h7]
    obtain ⟨v, c, hcv, e1, e2⟩ := (points_from hs hxm p).mp ⟨u, v, hp⟩
    rw [he] at hcv
    obtain ⟨p1, -⟩ := line_points ⟨e.start, e.stop⟩ hl n h2 x hx2
    obtain ⟨t, ht⟩ := p1 v
    have hsame : (Generatrix.segment e).pointAt v = (⟨e.start, e.stop⟩ : Line3).pointAtAbscissa v := by
      change e.pointAtAbscissa v = _
      unfold Seg3.pointAtAbscissa Line3.pointAtAbscissa Line3.dir
      cases V3.unitVector (e.stop - e.start) <;> rfl
    rw [hsame] at hcv
    have hct : c = x + V3.smul t n := Option.some.inj (hcv.symm.trans ht)
    have hsub : x + V3.smul t n - x = V3.smul t n := by ext <;> simp
    rw [hct, hsub] at e1 e2
    exact ⟨t, e1, e2⟩

/-! ## Cylinders -/

/-- A line along the axis direction: `simplify` looks for a cylinder. -/
theorem simplifyLine_parallel {s : Revolution} (hs : s.Valid) {g : Line3} (hg : g.point1 ≠ g.point2) {k : ℝ} (hk : g.dir = V3.smul k s.axis) :
    s.simplifyLine g = (s.edge.pointDistance s.axisPoint).map fun r => .cylinder ⟨s.frame, r⟩ := by
  have hw1 : V3.norm s.axis = 1 := hs.norm
  have hww : V3.dot s.axis s.axis = 1 := by rw [← V3.norm_pow_two, hw1]; norm_num
  have hN := Line3.dir_pos hg
  have hNk : V3.norm g.dir = |k| := by
    have : V3.norm g.dir ^ 2 = k ^ 2 := by
      rw [V3.norm_pow_two, hk]
      have : V3.dot (V3.smul k s.axis) (V3.smul k s.axis) = k ^ 2 * V3.dot s.axis s.axis := by
        simp only [V3.dot, V3.smul_x, V3.smul_y, V3.smul_z]; ring
      rw [this, hww, mul_one]
    have := abs_eq_abs.mpr (sq_eq_sq_iff_eq_or_eq_neg.mp this)
    rwa [abs_of_pos hN] at this
  have hk0 : |k| ≠ 0 := by rw [← hNk]; exact hN.ne'
  have hdk : V3.dot s.axis (V3.smul k s.axis) = k := by
    have : V3.dot s.axis (V3.smul k s.axis) = k * V3.dot s.axis s.axis := by simp only [V3.dot, V3.smul_x, V3.smul_y, V3.smul_z]; ring
    rw [this, hww, mul_one]
  have hcol : isColinear s.axis g.dir = true := by
    unfold isColinear
    rw [hw1, hNk, if_neg (by push Not; exact ⟨one_ne_zero, hk0⟩), hk, hdk, div_one, div_self hk0]
    norm_num [mathIsClose]
  obtain ⟨n, hn⟩ := V3.unitVector_some (u := g.dir) (by rw [Ne, ← V3.norm_eq_zero_iff]; exact hN.ne')
  obtain ⟨-, hne, hnn⟩ := V3.unitVector_spec hn
  have hcol' : isColinear s.axis n = true := by
    have hnk : |V3.dot s.axis n| = 1 := by
      have : V3.dot s.axis g.dir = V3.norm g.dir * V3.dot s.axis n := by
        conv_lhs => rw [hne]
        simp only [V3.dot, V3.smul_x, V3.smul_y, V3.smul_z]; ring
      rw [hNk, hk, hdk] at this
      have h2 := congrArg abs this
      rw [abs_mul, abs_abs] at h2
      exact mul_left_cancel₀ hk0 (by linarith)
    unfold isColinear
    rw [hw1, norm_one_of_dot hnn, if_neg (by norm_num), hnk, div_one, div_one]
    norm_num [mathIsClose]
  have hint : (⟨s.axisPoint, s.axisPoint + s.axis⟩ : Line3).intersection g = some none := by
    unfold Line3.intersection Line3.lineDistance
    rw [axis_dir, if_pos hcol, if_neg (by rw [hw1]; norm_num), Option.bind_some, if_pos (.inl hcol)]
  unfold Revolution.simplifyLine
  dsimp only
  rw [hint, Option.bind_some, hn, Option.bind_some]
  dsimp only
  rw [if_pos hcol']

/-- C158: a line parallel to the axis: `simplify` gives a cylinder whose points are exactly the points of the surface of revolution. -/
theorem C158_cylinder_line {l : Line3} {o a : V3 ℝ} {s : Revolution} (h : Revolution.new (.line l) o a = some s) (hl : l.point1 ≠ l.point2)
    (hpar : ∃ k, l.dir = V3.smul k a) :
    ∃ c, s.simplify = some (.cylinder c) ∧ 0 ≤ c.radius ∧ c.frame = s.frame ∧
      ∀ p, (∃ u v, s.to3d ⟨u, v⟩ = some p) ↔ OnCylinder c.frame c.radius p := by
  have hs := new_valid h
  obtain ⟨he, ho, -, -, -, ⟨K, hK, hKa⟩, -⟩ := C156_frame h
  obtain ⟨k, hk⟩ := hpar
  have hk : l.dir = V3.smul (k * K) s.axis := by rw [hk, hKa]; ext <;> simp <;> ring
  have hw1 : V3.norm s.axis = 1 := hs.norm
  have hww : V3.dot s.axis s.axis = 1 := by rw [← V3.norm_pow_two, hw1]; norm_num
  have hN := Line3.dir_pos hl
  obtain ⟨r, hr⟩ : ∃ r, r = V3.norm (V3.cross (s.axisPoint - l.point1) l.dir) / V3.norm l.dir := ⟨_, rfl⟩
  have hr0 : 0 ≤ r := by rw [hr]; exact div_nonneg (V3.norm_nonneg _) hN.le
  have hr2 : r ^ 2 = V3.sqNorm (l.point1 - s.axisPoint) - V3.dot (l.point1 - s.axisPoint) s.axis ^ 2 := by
    have hN2 : V3.norm l.dir ^ 2 = (k * K) ^ 2 := by
      rw [V3.norm_pow_two, hk]
      have : V3.dot (V3.smul (k * K) s.axis) (V3.smul (k * K) s.axis) = (k * K) ^ 2 * V3.dot s.axis s.axis := by
        simp only [V3.dot, V3.smul_x, V3.smul_y, V3.smul_z]; ring
      rw [this, hww, mul_one]
    have hkK : (k * K) ^ 2 ≠ 0 := by rw [← hN2]; exact pow_ne_zero 2 hN.ne'
    rw [hr, div_pow, hN2, div_eq_iff hkK, V3.norm_pow_two, hk]
    generalize s.axis = w at *
    generalize k * K = q
    simp only [V3.dot, V3.cross, V3.sqNorm, V3.sub_x, V3.sub_y, V3.sub_z, V3.smul_x, V3.smul_y, V3.smul_z] at hww ⊢
    linear_combination (q ^ 2 * ((s.axisPoint.x - l.point1.x) ^ 2 + (s.axisPoint.y - l.point1.y) ^ 2 + (s.axisPoint.z - l.point1.z) ^ 2)) * hww
  refine ⟨⟨s.frame, r⟩, ?_, hr0, rfl, ?_⟩
  · unfold Revolution.simplify
    rw [he]
    dsimp only
    rw [simplifyLine_parallel hs hl hk, he]
    change Option.map _ (l.pointDistance s.axisPoint) = _
    unfold Line3.pointDistance
    rw [if_neg hN.ne', ← hr, Option.map_some]
  · intro p
    obtain ⟨n, hn⟩ := V3.unitVector_some (u := l.dir) (by rw [Ne, ← V3.norm_eq_zero_iff]; exact hN.ne')
    obtain ⟨-, hne, hnn⟩ := V3.unitVector_spec hn
    obtain ⟨p1, p2⟩ := line_points l hl n hn l.point1 ⟨0, by simp, by simp, by simp⟩
    -- the unit direction is the axis, up to the sign
    obtain ⟨e, hne', hee⟩ : ∃ e : ℝ, n = V3.smul e s.axis ∧ e ^ 2 = 1 := by
      refine ⟨k * K / V3.norm l.dir, ?_, ?_⟩
      · have ex := congrArg V3.x (hne.symm.trans hk)
        have ey := congrArg V3.y (hne.symm.trans hk)
        have ez := congrArg V3.z (hne.symm.trans hk)
        simp only [V3.smul_x, V3.smul_y, V3.smul_z] at ex ey ez
        ext <;> simp only [V3.smul_x, V3.smul_y, V3.smul_z] <;> field_simp <;> linarith
      · rw [div_pow, V3.norm_pow_two, hk]
        have : V3.dot (V3.smul (k * K) s.axis) (V3.smul (k * K) s.axis) = (k * K) ^ 2 * V3.dot s.axis s.axis := by
          simp only [V3.dot, V3.smul_x, V3.smul_y, V3.smul_z]; ring
        rw [this, hww, mul_one, div_self]
        intro h0
        have : V3.norm l.dir ^ 2 = 0 := by
          rw [V3.norm_pow_two, hk, this]
          rw [h0, hww, mul_one]
        exact hN.ne' (pow_eq_zero_iff two_ne_zero |>.mp this)
    have q1 : ∀ t, V3.dot (l.point1 + V3.smul t n - s.axisPoint) s.axis = V3.dot (l.point1 - s.axisPoint) s.axis + t * e := by
      intro t
      have : V3.dot (l.point1 + V3.smul t n - s.axisPoint) s.axis = V3.dot (l.point1 - s.axisPoint) s.axis + t * e * V3.dot s.axis s.axis := by
        rw [hne']; simp only [V3.dot, V3.sub_x, V3.sub_y, V3.sub_z, V3.add_x, V3.add_y, V3.add_z, V3.smul_x, V3.smul_y, V3.smul_z]; ring
      rw [this, hww, mul_one]
    have q2 : ∀ t, V3.sqNorm (l.point1 + V3.smul t n - s.axisPoint)
        = V3.sqNorm (l.point1 - s.axisPoint) + 2 * t * e * V3.dot (l.point1 - s.axisPoint) s.axis + t ^ 2 * e ^ 2 := by
      intro t
      have : V3.sqNorm (l.point1 + V3.smul t n - s.axisPoint)
          = V3.sqNorm (l.point1 - s.axisPoint) + 2 * t * e * V3.dot (l.point1 - s.axisPoint) s.axis + t ^ 2 * e ^ 2 * V3.dot s.axis s.axis := by
        rw [hne']; simp only [V3.sqNorm, V3.dot, V3.sub_x, V3.sub_y, V3.sub_z, V3.add_x, V3.add_y, V3.add_z, V3.smul_x, V3.smul_y, V3.smul_z]; ring
      rw [this, hww, mul_one]
    have hxm : s.axisPoint = s.axisPoint + V3.smul 0 s.axis := by ext <;> simp
    rw [points_from hs hxm, he]
    have hcyl : OnCylinder s.frame r p ↔ V3.sqNorm (p - s.axisPoint) - V3.dot (p - s.axisPoint) s.axis ^ 2 = r ^ 2 := by
      unfold OnCylinder sqDist height; rw [hs.origin, hs.axis]
    dsimp only
    rw [hcyl, hr2]
    constructor
    · rintro ⟨v, c, hcv, e1, e2⟩
      obtain ⟨t, ht⟩ := p1 v
      have hct : c = l.point1 + V3.smul t n := Option.some.inj (hcv.symm.trans ht)
      rw [hct, q1] at e1
      rw [hct, q2] at e2
      rw [e1, e2]; ring
    · intro hp
      obtain ⟨v, hv⟩ := p2 ((V3.dot (p - s.axisPoint) s.axis - V3.dot (l.point1 - s.axisPoint) s.axis) * e)
      refine ⟨v, _, hv, ?_, ?_⟩
      · rw [q1]; linear_combination (-(V3.dot (p - s.axisPoint) s.axis - V3.dot (l.point1 - s.axisPoint) s.axis)) * hee
      · rw [q2]
        generalize V3.dot (p - s.axisPoint) s.axis = H at *
        generalize V3.dot (l.point1 - s.axisPoint) s.axis = G at *
        linear_combination hp - (2 * (H - G) * G + (H - G) ^ 2 * (e ^ 2 + 1)) * hee

/-- C158: a segment parallel to the axis, in front of the axis point (the projection of that point on the line of the segment is on the
segment): every point of the surface is on the cylinder `simplify` gives. -/
theorem C158_cylinder_segment_partial {e : Seg3} {o a : V3 ℝ} {s : Revolution} (h : Revolution.new (.segment e) o a = some s) (hl : e.start ≠ e.stop)
    (hpar : ∃ k, e.stop - e.start = V3.smul k a)
    (hface : 0 ≤ V3.dot (o - e.start) (e.stop - e.start) ∧ V3.dot (o - e.start) (e.stop - e.start) ≤ V3.dot (e.stop - e.start) (e.stop - e.start)) :
    ∃ c, s.simplify = some (.cylinder c) ∧ 0 ≤ c.radius ∧ c.frame = s.frame ∧ ∀ u v p, s.to3d ⟨u, v⟩ = some p → OnCylinder c.frame c.radius p := by
  have hs := new_valid h
  obtain ⟨he, ho, -, -, -, ⟨K, hK, hKa⟩, -⟩ := C156_frame h
  obtain ⟨k, hk⟩ := hpar
  have hk : e.stop - e.start = V3.smul (k * K) s.axis := by rw [hk, hKa]; ext <;> simp <;> ring
  have hw1 : V3.norm s.axis = 1 := hs.norm
  have hww : V3.dot s.axis s.axis = 1 := by rw [← V3.norm_pow_two, hw1]; norm_num
  have hN : 0 < V3.norm (e.stop - e.start) := Line3.dir_pos (l := ⟨e.start, e.stop⟩) hl
  have hN2 : V3.norm (e.stop - e.start) ^ 2 = (k * K) ^ 2 := by
    rw [V3.norm_pow_two, hk]
    have : V3.dot (V3.smul (k * K) s.axis) (V3.smul (k * K) s.axis) = (k * K) ^ 2 * V3.dot s.axis s.axis := by
      simp only [V3.dot, V3.smul_x, V3.smul_y, V3.smul_z]; ring
    rw [this, hww, mul_one]
  have hkK : (k * K) ^ 2 ≠ 0 := by rw [← hN2]; exact pow_ne_zero 2 hN.ne'
  have hkK0 : k * K ≠ 0 := fun h0 => hkK (by rw [h0]; norm_num)
  obtain ⟨t, ht⟩ : ∃ t, t = V3.dot (o - e.start) (e.stop - e.start) / V3.norm (e.stop - e.start) ^ 2 := ⟨_, rfl⟩
  have ht0 : 0 ≤ t := by rw [ht]; exact div_nonneg hface.1 (sq_nonneg _)
  have ht1 : t ≤ 1 := by rw [ht, V3.norm_pow_two]; exact div_le_one_of_le₀ hface.2 (by rw [← V3.norm_pow_two]; positivity)
  have htk : t * (k * K) = V3.dot (o - e.start) s.axis := by
    rw [ht, hN2, hk]
    have : V3.dot (o - e.start) (V3.smul (k * K) s.axis) = (k * K) * V3.dot (o - e.start) s.axis := by
      simp only [V3.dot, V3.smul_x, V3.smul_y, V3.smul_z]; ring
    rw [this]
    clear hface ht hk hN2 hkK this
    generalize k * K = q at *
    field_simp
  obtain ⟨r, hr⟩ : ∃ r, r = V3.norm (e.start + V3.smul t (e.stop - e.start) - o) := ⟨_, rfl⟩
  have hr2 : r ^ 2 = V3.sqNorm (e.start - o) - V3.dot (e.start - o) s.axis ^ 2 := by
    rw [hr, V3.norm_pow_two, hk]
    have : e.start + V3.smul t (V3.smul (k * K) s.axis) - o = (e.start - o) + V3.smul (t * (k * K)) s.axis := by ext <;> simp <;> ring
    rw [this, htk]
    have e1 : V3.dot (o - e.start) s.axis = -V3.dot (e.start - o) s.axis := by simp only [V3.dot, V3.sub_x, V3.sub_y, V3.sub_z]; ring
    rw [e1]
    generalize e.start - o = d
    have : V3.dot (d + V3.smul (-V3.dot d s.axis) s.axis) (d + V3.smul (-V3.dot d s.axis) s.axis)
        = V3.sqNorm d - 2 * V3.dot d s.axis ^ 2 + V3.dot d s.axis ^ 2 * V3.dot s.axis s.axis := by
      simp only [V3.sqNorm, V3.dot, V3.add_x, V3.add_y, V3.add_z, V3.smul_x, V3.smul_y, V3.smul_z]; ring
    rw [this, hww]; ring
  refine ⟨⟨s.frame, r⟩, ?_, by rw [hr]; exact V3.norm_nonneg _, rfl, ?_⟩
  · unfold Revolution.simplify
    rw [he]
    dsimp only
    rw [simplifyLine_parallel (g := ⟨e.start, e.stop⟩) hs hl hk, he]
    change Option.map _ (Option.map Prod.fst (linesegment3dPointDistance e.start e.stop s.axisPoint)) = _
    unfold linesegment3dPointDistance
    dsimp only
    rw [if_neg (pow_ne_zero 2 hN.ne'), ho, ← ht, min_eq_right ht1, max_eq_right ht0, ← hr]
    rfl
  · intro u v p hp
    have hxm : s.axisPoint = s.axisPoint + V3.smul 0 s.axis := by ext <;> simp
    obtain ⟨v, c, hcv, e1, e2⟩ := (points_from hs hxm p).mp ⟨u, v, hp⟩
    unfold OnCylinder sqDist height
    dsimp only
    rw [hs.origin, hs.axis, e1, e2, hr2, ho]
    rw [he] at hcv
    change e.pointAtAbscissa v = _ at hcv
    unfold Seg3.pointAtAbscissa at hcv
    obtain ⟨n, hn⟩ := V3.unitVector_some (u := e.stop - e.start) (by rw [Ne, ← V3.norm_eq_zero_iff]; exact hN.ne')
    obtain ⟨-, hne, hnn⟩ := V3.unitVector_spec hn
    rw [hn] at hcv
    have hc := (Option.some.inj hcv).symm
    have hcm : c - o = (e.start - o) + V3.smul (v * (k * K) / V3.norm (e.stop - e.start)) s.axis := by
      rw [hc]
      have ex := congrArg V3.x (hne.symm.trans hk)
      have ey := congrArg V3.y (hne.symm.trans hk)
      have ez := congrArg V3.z (hne.symm.trans hk)
      simp only [V3.smul_x, V3.smul_y, V3.smul_z] at ex ey ez
      generalize V3.norm (e.stop - e.start) = N at *
      have nx : n.x = s.axis.x * (k * K) / N := by field_simp; linarith
      have ny : n.y = s.axis.y * (k * K) / N := by field_simp; linarith
      have nz : n.z = s.axis.z * (k * K) / N := by field_simp; linarith
      ext <;> simp only [V3.smul_x, V3.smul_y, V3.smul_z, V3.add_x, V3.add_y, V3.add_z, V3.sub_x, V3.sub_y, V3.sub_z, nx, ny, nz] <;> ring
    rw [hcm]
    generalize e.start - o = d
    generalize v * (k * K) / V3.norm (e.stop - e.start) = q
    have g1 : V3.dot (d + V3.smul q s.axis) s.axis = V3.dot d s.axis + q := by
      have : V3.dot (d + V3.smul q s.axis) s.axis = V3.dot d s.axis + q * V3.dot s.axis s.axis := by
        simp only [V3.dot, V3.add_x, V3.add_y, V3.add_z, V3.smul_x, V3.smul_y, V3.smul_z]; ring
      rw [this, hww, mul_one]
    have g2 : V3.sqNorm (d + V3.smul q s.axis) = V3.sqNorm d + 2 * q * V3.dot d s.axis + q ^ 2 := by
      have : V3.sqNorm (d + V3.smul q s.axis) = V3.sqNorm d + 2 * q * V3.dot d s.axis + q ^ 2 * V3.dot s.axis s.axis := by
        simp only [V3.sqNorm, V3.dot, V3.add_x, V3.add_y, V3.add_z, V3.smul_x, V3.smul_y, V3.smul_z]; ring
      rw [this, hww, mul_one]
    rw [g1, g2]; ring

/-! ## Spheres -/

/-- C158: an arc whose centre is the axis point: `simplify` gives a sphere that contains every point of the surface. -/
theorem C158_sphere_partial {k : Curve} {r : ℝ} {o a : V3 ℝ} {s : Revolution} (h : Revolution.new (.arc o r k) o a = some s)
    (hk : ∀ v c, k.pointAt v = some c → V3.pointDistance c o = r) :
    ∃ b, s.simplify = some (.sphere b) ∧ b.radius = r ∧ ∀ u v p, s.to3d ⟨u, v⟩ = some p → OnSphere b.frame b.radius p := by
  have hs := new_valid h
  obtain ⟨he, ho, -⟩ := C156_frame h
  have hw1 : V3.norm s.axis = 1 := hs.norm
  have hne : (⟨s.axisPoint, s.axisPoint + s.axis⟩ : Line3).point1 ≠ (⟨s.axisPoint, s.axisPoint + s.axis⟩ : Line3).point2 := by
    intro h0
    have h1 : (⟨s.axisPoint, s.axisPoint + s.axis⟩ : Line3).dir = ⟨0, 0, 0⟩ := by
      unfold Line3.dir; rw [V3.sub_eq_zero_iff]; exact h0
    rw [axis_dir] at h1
    rw [h1] at hw1
    norm_num [V3.norm] at hw1
  obtain ⟨q, t, hq, -, -, -, -, -, hmin⟩ := C73_projection _ hne s.axisPoint
  have h0 : V3.pointDistance s.axisPoint s.axisPoint = 0 := by
    unfold V3.pointDistance; rw [V3.norm_eq_zero_iff]; ext <;> simp
  have hq0 : V3.pointDistance q s.axisPoint = 0 := by
    have := hmin s.axisPoint ⟨0, by simp, by simp, by simp⟩
    rw [h0] at this
    rw [V3.pointDistance_symm]
    exact le_antisymm this (V3.norm_nonneg _)
  refine ⟨⟨s.frame, r⟩, ?_, rfl, ?_⟩
  · unfold Revolution.simplify
    rw [he]
    dsimp only
    rw [← ho, hq, Option.map_some, if_pos]
    rw [hq0]; norm_num [mathIsClose]
  · intro u v p hp
    obtain ⟨v, c, hc, -, h2⟩ := (C156_points hs p).mp ⟨u, v, hp⟩
    rw [he] at hc
    have := hk v c hc
    rw [← ho, ← h2] at this
    unfold OnSphere sqDist
    dsimp only
    rw [hs.origin, ← this]
    unfold V3.pointDistance
    rw [V3.norm_pow_two]
    simp only [V3.sqNorm, V3.dot]

/-! ## What is wrong -/

/-- The surface returned by `simplify` contains a point (specification). -/
def Simplified.Contains : Simplified → V3 ℝ → Prop
  | .sphere b, p => OnSphere b.frame b.radius p
  | .cone c, p => OnCone c.frame c.semiAngle p
  | .cylinder c, p => OnCylinder c.frame c.radius p
  | .same s, p => ∃ u v, s.to3d ⟨u, v⟩ = some p

/-- C158: full statement: `simplify` keeps the points of the surface (an arc being an arc of circle of its centre and radius). -/
def C158_full_statement : Prop :=
  ∀ (e : Generatrix) (o a : V3 ℝ) (s : Revolution) (r : Simplified), Revolution.new e o a = some s → s.simplify = some r →
    (∀ c R k, e = .arc c R k → ∀ v q, k.pointAt v = some q → V3.pointDistance q c = R) →
    ∀ u v p, s.to3d ⟨u, v⟩ = some p → r.Contains p

theorem segment_start (e : Seg3) (h : e.start ≠ e.stop) : (Generatrix.segment e).pointAt 0 = some e.start := by
  change e.pointAtAbscissa 0 = _
  unfold Seg3.pointAtAbscissa
  obtain ⟨n, hn⟩ := V3.unitVector_some (u := e.stop - e.start) (by rw [Ne, V3.sub_eq_zero_iff]; exact h)
  rw [hn]
  change some _ = some _
  congr 1
  ext <;> simp

theorem to3d_start {s : Revolution} {c : V3 ℝ} (h : s.edge.pointAt 0 = some c) : s.to3d ⟨0, 0⟩ = some c := by
  rw [to3d_rotation]
  dsimp only
  rw [h, Option.map_some]
  have := C01_rotation3d_full_turn c s.axisPoint s.axis 0
  rw [Int.cast_zero, zero_mul] at this
  rw [this]

/-- C158: the segment from (1,0,5) to (1,0,6) turned about the z axis through the origin is a cylinder of radius 1: `simplify` gives the
distance from the origin to the segment, `√26`, as the radius. -/
theorem C158_cylinder_counterexample : ¬ C158_full_statement := by
  intro hfull
  obtain ⟨e, he⟩ : ∃ e : Seg3, e = ⟨⟨1, 0, 5⟩, ⟨1, 0, 6⟩⟩ := ⟨_, rfl⟩
  have hne : e.start ≠ e.stop := by rw [he]; intro h; have := congrArg V3.z h; norm_num at this
  have hsub : e.stop - e.start = ⟨0, 0, 1⟩ := by rw [he]; ext <;> norm_num
  have h0 := segment_start e hne
  have hstart : e.start = ⟨1, 0, 5⟩ := by rw [he]
  have hmid : (Generatrix.segment e).pointAt (Generatrix.segment e).secondAbscissa = some ⟨1, 0, 5 + (Generatrix.segment e).secondAbscissa⟩ := by
    change e.pointAtAbscissa _ = _
    unfold Seg3.pointAtAbscissa
    rw [hsub, unit_of_dot (by norm_num [V3.dot]), hstart]
    change some _ = some _
    congr 1
    ext <;> simp
  obtain ⟨s, hs⟩ := C156_total (.segment e) ⟨0, 0, 0⟩ ⟨0, 0, 1⟩ _ _ (by intro h; have := congrArg V3.z h; norm_num at this) h0 hmid
    (by rw [hstart]; intro h; have := congrArg V3.y h; norm_num [V3.cross] at this)
    (by intro h; have := congrArg V3.y h; norm_num [V3.cross] at this)
  have hv := new_valid hs
  obtain ⟨f1, f2, -, -, -, ⟨k, hk, hka⟩, -⟩ := C156_frame hs
  have hww : V3.dot s.axis s.axis = 1 := by rw [← hv.axis]; exact hv.direct.2.2.1
  have hax : s.axis = ⟨0, 0, 1⟩ := by
    have ex := congrArg V3.x hka
    have ey := congrArg V3.y hka
    have ez := congrArg V3.z hka
    simp only [V3.smul_x, V3.smul_y, V3.smul_z] at ex ey ez
    have h1 : s.axis.x = 0 := (mul_eq_zero.mp ex.symm).resolve_right hk.ne'
    have h2 : s.axis.y = 0 := (mul_eq_zero.mp ey.symm).resolve_right hk.ne'
    have h3 : s.axis.z = 1 := by
      unfold V3.dot at hww
      rw [h1, h2] at hww
      have : 0 < s.axis.z := by
        by_contra hneg
        nlinarith
      nlinarith
    ext <;> simp [h1, h2, h3]
  have hsimp : s.simplify = some (.cylinder ⟨s.frame, √26⟩) := by
    unfold Revolution.simplify
    rw [f1]
    dsimp only
    rw [simplifyLine_parallel (g := ⟨e.start, e.stop⟩) (k := 1) hv hne (by
      rw [hax]; change e.stop - e.start = _; rw [hsub]; ext <;> simp), f1]
    change Option.map _ (Option.map Prod.fst (linesegment3dPointDistance e.start e.stop s.axisPoint)) = _
    unfold linesegment3dPointDistance
    dsimp only
    rw [hsub, norm_z, if_neg (by norm_num), f2, hstart]
    have ht : max (0 : ℝ) (min 1 (V3.dot ((⟨0, 0, 0⟩ : V3 ℝ) - ⟨1, 0, 5⟩) ⟨0, 0, 1⟩ / 1 ^ 2)) = 0 := by norm_num [V3.dot]
    rw [ht]
    have hn : V3.norm ((⟨1, 0, 5⟩ : V3 ℝ) + V3.smul 0 ⟨0, 0, 1⟩ - ⟨0, 0, 0⟩) = √26 := by
      unfold V3.norm; congr 1; simp; norm_num
    rw [hn]
    rfl
  have := hfull _ _ _ s _ hs hsimp (by intro c R k h; cases h) 0 0 _ (to3d_start (by rw [f1]; exact h0))
  unfold Simplified.Contains OnCylinder sqDist height at this
  dsimp only at this
  rw [hv.origin, hv.axis, hax, f2, hstart, sq_sqrt (by norm_num)] at this
  norm_num [V3.sqNorm, V3.dot] at this

/-- C158: a segment perpendicular to the axis, from (1,0,0) to (2,0,0) about the z axis: the surface is part of the plane z = 0, `simplify`
gives a cone of apex the origin and of half angle `π/2`; at height 0 such a cone has its apex only, whatever value the tangent is given. -/
theorem C158_plane_counterexample : ∃ (e : Generatrix) (o a : V3 ℝ) (s : Revolution) (k : Cone) (p : V3 ℝ), Revolution.new e o a = some s ∧
    s.simplify = some (.cone k) ∧ k.semiAngle = π / 2 ∧ s.to3d ⟨0, 0⟩ = some p ∧ height k.frame p = 0 ∧
    ∀ tangent : ℝ, sqDist k.frame p - height k.frame p ^ 2 ≠ (tangent * height k.frame p) ^ 2 := by
  obtain ⟨e, he⟩ : ∃ e : Seg3, e = ⟨⟨1, 0, 0⟩, ⟨2, 0, 0⟩⟩ := ⟨_, rfl⟩
  have hne : e.start ≠ e.stop := by rw [he]; intro h; have := congrArg V3.x h; norm_num at this
  have hsub : e.stop - e.start = ⟨1, 0, 0⟩ := by rw [he]; ext <;> norm_num
  have hstart : e.start = ⟨1, 0, 0⟩ := by rw [he]
  have h0 := segment_start e hne
  rw [hstart] at h0
  have hnew := new_z (.segment e) h0
  refine ⟨_, _, _, _, ⟨⟨⟨0, 0, 0⟩, planeXY.basis⟩, π / 2⟩, ⟨1, 0, 0⟩, hnew, ?_, rfl, to3d_start h0, ?_, ?_⟩
  · have hcross : V3.cross (⟨0, 0, 1⟩ : V3 ℝ) ⟨1, 0, 0⟩ = ⟨0, 1, 0⟩ := by ext <;> norm_num [V3.cross]
    have hint : (⟨⟨0, 0, 0⟩, ⟨0, 0, 0⟩ + ⟨0, 0, 1⟩⟩ : Line3).intersection ⟨e.start, e.stop⟩ = some (some ⟨0, 0, 0⟩) := by
      have hd1 : (⟨⟨0, 0, 0⟩, ⟨0, 0, 0⟩ + ⟨0, 0, 1⟩⟩ : Line3).dir = ⟨0, 0, 1⟩ := by ext <;> simp [Line3.dir]
      have hd2 : (⟨e.start, e.stop⟩ : Line3).dir = ⟨1, 0, 0⟩ := hsub
      apply C73_intersection_partial
      · rw [hd1, hd2, hcross]; intro h; have := congrArg V3.y h; norm_num at this
      · rw [hd1, hd2]
        unfold isColinear
        rw [norm_x, norm_z, if_neg (by norm_num)]
        norm_num [V3.dot, mathIsClose]
      · right; rw [hd1, hd2]; norm_num [V3.dot]
      · exact ⟨0, by simp, by simp, by simp⟩
      · rw [he]; exact ⟨-1, by norm_num, by norm_num, by norm_num⟩
    unfold Revolution.simplify Revolution.simplifyLine
    dsimp only
    rw [hint, Option.bind_some]
    have hd2 : (⟨e.start, e.stop⟩ : Line3).dir = ⟨1, 0, 0⟩ := hsub
    rw [hd2, unit_of_dot (by norm_num [V3.dot]), Option.bind_some]
    dsimp only
    have hn : V3.norm (-(⟨1, 0, 0⟩ : V3 ℝ)) = 1 := norm_one_of_dot (by norm_num [V3.dot])
    have hang : vectors3dAngle (⟨0, 0, 1⟩ : V3 ℝ) (-⟨1, 0, 0⟩) = some (π / 2) := by
      unfold vectors3dAngle
      rw [hn, norm_z, if_neg (by norm_num)]
      norm_num [V3.dot]
    rw [if_neg (by norm_num [V3.dot]), hang, Option.bind_some, if_neg]
    rw [not_not]
    unfold Arc.isClose3
    rw [mathIsClose_zero (by norm_num)]
    norm_num [V3.pointDistance, V3.norm]
  · norm_num [height, planeXY, V3.dot]
  · intro t
    norm_num [height, sqDist, planeXY, V3.dot, V3.sqNorm]

/-- An arc of the plane y = 0, of centre (0,0,3/4) and of radius 5/4, that starts at (1,0,0). -/
noncomputable def exampleArc : Generatrix := .arc ⟨0, 0, 3 / 4⟩ (5 / 4)
  ⟨5 / 4, fun v => some ⟨cos (4 / 5 * v) + 3 / 4 * sin (4 / 5 * v), 0, 3 / 4 + sin (4 / 5 * v) - 3 / 4 * cos (4 / 5 * v)⟩, fun _ => none⟩

/-- C158: an arc centred on the axis, but not at the axis point: the sphere is centred at the axis point and does not contain the surface. -/
theorem C158_sphere_counterexample : ∃ (s : Revolution) (b : Sphere) (p : V3 ℝ), Revolution.new exampleArc ⟨0, 0, 0⟩ ⟨0, 0, 1⟩ = some s ∧
    s.simplify = some (.sphere b) ∧ s.to3d ⟨0, 0⟩ = some p ∧ ¬ OnSphere b.frame b.radius p := by
  have h0 : exampleArc.pointAt 0 = some ⟨1, 0, 0⟩ := by
    norm_num [exampleArc, Generatrix.pointAt]
  have hnew := new_z exampleArc h0
  refine ⟨_, ⟨planeXY, 5 / 4⟩, ⟨1, 0, 0⟩, hnew, ?_, to3d_start h0, ?_⟩
  · unfold Revolution.simplify exampleArc
    dsimp only
    have hpr : (⟨⟨0, 0, 0⟩, ⟨0, 0, 0⟩ + ⟨0, 0, 1⟩⟩ : Line3).pointProjection ⟨0, 0, 3 / 4⟩ = some (⟨0, 0, 3 / 4⟩, 3 / 4) := by
      unfold Line3.pointProjection pointProjection3
      dsimp only
      have hd : (⟨0, 0, 0⟩ + ⟨0, 0, 1⟩ - ⟨0, 0, 0⟩ : V3 ℝ) = ⟨0, 0, 1⟩ := by ext <;> simp
      rw [hd, norm_z, if_neg (by norm_num)]
      norm_num [V3.dot, V3.smul]
      ext <;> norm_num
    rw [hpr, Option.map_some, if_pos]
    norm_num [V3.pointDistance, V3.norm, mathIsClose]
  · norm_num [OnSphere, sqDist, planeXY, V3.sqNorm]

-- that arc is an arc of circle of its centre and radius
example (v : ℝ) (q : V3 ℝ) (h : exampleArc.pointAt v = some q) : V3.pointDistance q ⟨0, 0, 3 / 4⟩ = 5 / 4 := by
  have h := (Option.some.inj h).symm
  unfold V3.pointDistance V3.norm
  rw [h]
  have : ∀ a b : ℝ, a = b ^ 2 → 0 ≤ b → √a = b := fun a b hab hb => by rw [hab, Real.sqrt_sq hb]
  refine this _ _ ?_ (by norm_num)
  simp only [V3.sub_x, V3.sub_y, V3.sub_z]
  linear_combination (25 / 16) * sin_sq_add_cos_sq (4 / 5 * v)

-- the hypotheses of C158 are met: the line through (1,0,0) and (2,0,1) crosses the z axis at (0,0,-1) with a half angle of 45 degrees
example : ∃ s, Revolution.new (.line ⟨⟨1, 0, 0⟩, ⟨2, 0, 1⟩⟩) ⟨0, 0, 0⟩ ⟨0, 0, 1⟩ = some s ∧ OnLine3 ⟨0, 0, 0⟩ ⟨0, 0, 1⟩ ⟨0, 0, -1⟩ ∧
    OnLine3 ⟨1, 0, 0⟩ ⟨2, 0, 1⟩ ⟨0, 0, -1⟩ ∧ isColinear s.axis (Line3.dir ⟨⟨1, 0, 0⟩, ⟨2, 0, 1⟩⟩) = false ∧
    1 / 10 ^ 6 < |V3.dot s.axis (Line3.dir ⟨⟨1, 0, 0⟩, ⟨2, 0, 1⟩⟩)| := by
  have hne : (⟨⟨1, 0, 0⟩, ⟨2, 0, 1⟩⟩ : Line3).point1 ≠ (⟨⟨1, 0, 0⟩, ⟨2, 0, 1⟩⟩ : Line3).point2 := by
    intro h; have := congrArg V3.x h; norm_num at this
  have h0 : (Generatrix.line ⟨⟨1, 0, 0⟩, ⟨2, 0, 1⟩⟩).pointAt 0 = some ⟨1, 0, 0⟩ := by
    obtain ⟨q, hq, -, -, hd⟩ := C73_abscissa_inverse _ hne 0
    rw [abs_zero] at hd
    unfold V3.pointDistance at hd
    rw [V3.norm_eq_zero_iff, V3.sub_eq_zero_iff] at hd
    rw [← hd] at hq
    exact hq
  have hd : (⟨⟨1, 0, 0⟩, ⟨2, 0, 1⟩⟩ : Line3).dir = ⟨1, 0, 1⟩ := by ext <;> norm_num [Line3.dir]
  refine ⟨_, new_z _ h0, ⟨-1, by norm_num, by norm_num, by norm_num⟩, ⟨-1, by norm_num, by norm_num, by norm_num⟩, ?_, ?_⟩
  · rw [hd]
    unfold isColinear
    have hn : V3.norm (⟨1, 0, 1⟩ : V3 ℝ) = √2 := by unfold V3.norm; norm_num
    have h2 : (0 : ℝ) < √2 := by positivity
    have h3 : √2 * √2 = 2 := mul_self_sqrt (by norm_num)
    rw [norm_z, hn, if_neg (by push Not; exact ⟨one_ne_zero, h2.ne'⟩), decide_eq_false_iff_not]
    unfold mathIsClose
    norm_num [V3.dot]
    have hlt : (√2)⁻¹ < 3 / 4 := by
      rw [inv_lt_comm₀ h2 (by norm_num)]
      nlinarith
    have hpos : 0 < (√2)⁻¹ := by positivity
    rw [abs_of_neg (show (√2)⁻¹ - 1 < 0 by linarith), abs_of_pos h2, max_eq_right (by linarith)]
    constructor <;> linarith
  · rw [hd]; norm_num [V3.dot]

-- a parallel line, and a parallel segment in front of the axis point
example : ∃ k, (⟨⟨1, 0, 0⟩, ⟨1, 0, 2⟩⟩ : Line3).dir = V3.smul k ⟨0, 0, 1⟩ := ⟨2, by ext <;> norm_num [Line3.dir]⟩
example : 0 ≤ V3.dot ((⟨0, 0, 0⟩ : V3 ℝ) - ⟨1, 0, -1⟩) (⟨1, 0, 2⟩ - ⟨1, 0, -1⟩) ∧
    V3.dot ((⟨0, 0, 0⟩ : V3 ℝ) - ⟨1, 0, -1⟩) (⟨1, 0, 2⟩ - ⟨1, 0, -1⟩) ≤ V3.dot ((⟨1, 0, 2⟩ : V3 ℝ) - ⟨1, 0, -1⟩) (⟨1, 0, 2⟩ - ⟨1, 0, -1⟩) := by
  norm_num [V3.dot]

end Volmdlr.Surface
