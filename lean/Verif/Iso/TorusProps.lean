import Verif.Iso.Props

/-!
# Segments of the parametric domain of a torus (C175)
-/

namespace Volmdlr.Iso

open Real Volmdlr.Angle Volmdlr.Arc Volmdlr.Surface

lemma torus_parallel (s : Torus) (p : V2 ℝ) :
    s.paramTo3d p = turning s.frame (s.frame.origin + V3.smul (s.minorRadius * sin p.y) s.frame.basis.w) (s.majorRadius + s.minorRadius * cos p.y) p.x := by
  unfold Torus.paramTo3d turning
  ext <;> simp <;> ring

/-- The direction of the half plane of the angle `t`, and the frame of its meridian. -/
noncomputable def outward (f : Frame3 ℝ) (t : ℝ) : V3 ℝ := V3.smul (cos t) f.basis.u + V3.smul (sin t) f.basis.v
noncomputable def meridianFrame (f : Frame3 ℝ) (t : ℝ) : Frame3 ℝ := ⟨f.origin, ⟨outward f t, f.basis.w, V3.cross (outward f t) f.basis.w⟩⟩

lemma outward_spec {f : Frame3 ℝ} (hf : DirectOrthonormal f.basis) (t : ℝ) :
    V3.dot (outward f t) (outward f t) = 1 ∧ V3.dot (outward f t) f.basis.w = 0 := by
  obtain ⟨uu, vv, -, uv, uw, vw, -⟩ := hf
  have hsc := sin_sq_add_cos_sq t
  unfold outward
  simp only [V3.dot, V3.add_x, V3.add_y, V3.add_z, V3.smul_x, V3.smul_y, V3.smul_z] at *
  constructor
  · linear_combination cos t ^ 2 * uu + sin t ^ 2 * vv + 2 * sin t * cos t * uv + hsc
  · linear_combination cos t * uw + sin t * vw

lemma meridian_direct {f : Frame3 ℝ} (hf : DirectOrthonormal f.basis) (t : ℝ) : DirectOrthonormal (meridianFrame f t).basis :=
  direct_of_uv (outward_spec hf t).1 hf.2.2.1 (outward_spec hf t).2

lemma torus_meridian (s : Torus) (p : V2 ℝ) :
    s.paramTo3d p = turning (meridianFrame s.frame p.x) (s.frame.origin + V3.smul s.majorRadius (outward s.frame p.x)) s.minorRadius p.y := by
  unfold Torus.paramTo3d turning meridianFrame outward
  ext <;> simp <;> ring

/-- The centre of the meridian circle, as the conversion computes it. -/
lemma tube_center {f : Frame3 ℝ} (hf : DirectOrthonormal f.basis) (R t : ℝ) :
    V3.rotation (f.origin + V3.smul R f.basis.u) f.origin f.basis.w t = f.origin + V3.smul R (outward f t) := by
  have hg : Circle3.Good ⟨f, 1⟩ := ⟨hf, one_pos⟩
  have h := hg.rotation_at 0 t
  have hu := hf.2.2.2.2.1
  have hx := congrArg V3.x h
  have hy := congrArg V3.y h
  have hz := congrArg V3.z h
  unfold V3.rotation V3.rotationCS Circle3.at at *
  unfold outward
  simp only [V3.cross, V3.dot, V3.add_x, V3.add_y, V3.add_z, V3.sub_x, V3.sub_y, V3.sub_z, V3.smul_x, V3.smul_y, V3.smul_z, cos_zero, sin_zero, zero_add] at *
  ext <;> dsimp only [V3.add_x, V3.add_y, V3.add_z, V3.smul_x, V3.smul_y, V3.smul_z]
  · linear_combination R * hx
  · linear_combination R * hy
  · linear_combination R * hz

lemma unit_outward {f : Frame3 ℝ} (hf : DirectOrthonormal f.basis) {R : ℝ} (hR : 0 < R) (t : ℝ) :
    V3.unitVector (f.origin + V3.smul R (outward f t) - f.origin) = some (outward f t) := by
  have e : f.origin + V3.smul R (outward f t) - f.origin = V3.smul R (outward f t) := by ext <;> simp
  have hn : V3.norm (V3.smul R (outward f t)) = R := by
    refine (sq_eq_sq₀ (sqrt_nonneg _) hR.le).1 ?_
    change V3.norm _ ^ 2 = _
    have := (outward_spec hf t).1
    rw [V3.norm_pow_two]
    simp only [V3.dot, V3.smul_x, V3.smul_y, V3.smul_z] at *
    linear_combination R ^ 2 * this
  unfold V3.unitVector
  rw [e, hn, if_neg hR.ne']
  congr 1
  ext <;> simp <;> field_simp

lemma meridian_basis {f : Frame3 ℝ} (hf : DirectOrthonormal f.basis) (t : ℝ) :
    V3.cross (V3.cross (outward f t) f.basis.w) (outward f t) = f.basis.w ∧
      V3.cross (V3.cross f.basis.w (outward f t)) (outward f t) = -f.basis.w ∧
      V3.cross f.basis.w (outward f t) = V3.cross (outward f t) (-f.basis.w) := by
  obtain ⟨h1, h2⟩ := outward_spec hf t
  generalize outward f t = e at *
  simp only [V3.dot] at h1 h2
  refine ⟨?_, ?_, ?_⟩
  · ext <;> simp only [V3.cross]
    · linear_combination f.basis.w.x * h1 - e.x * h2
    · linear_combination f.basis.w.y * h1 - e.y * h2
    · linear_combination f.basis.w.z * h1 - e.z * h2
  · ext <;> simp only [V3.cross, V3.neg_x, V3.neg_y, V3.neg_z]
    · linear_combination -f.basis.w.x * h1 + e.x * h2
    · linear_combination -f.basis.w.y * h1 + e.y * h2
    · linear_combination -f.basis.w.z * h1 + e.z * h2
  · ext <;> simp only [V3.cross, V3.neg_x, V3.neg_y, V3.neg_z] <;> ring

/-- The circle of the meridian, as the conversion builds it. -/
lemma meridian_circle {s : Torus} (hs : DirectOrthonormal s.frame.basis) (a b : V2 ℝ) (hne : a.y ≠ b.y) :
    (⟨⟨s.frame.origin + V3.smul s.majorRadius (outward s.frame a.x), ⟨outward s.frame a.x,
      V3.cross (if a.y < b.y then V3.cross (outward s.frame a.x) s.frame.basis.w else V3.cross s.frame.basis.w (outward s.frame a.x)) (outward s.frame a.x),
      if a.y < b.y then V3.cross (outward s.frame a.x) s.frame.basis.w else V3.cross s.frame.basis.w (outward s.frame a.x)⟩⟩,
      V3.pointDistance (s.paramTo3d a) (s.frame.origin + V3.smul s.majorRadius (outward s.frame a.x))⟩ : Circle3) =
      turningCircle (meridianFrame s.frame a.x) (s.frame.origin + V3.smul s.majorRadius (outward s.frame a.x)) s.minorRadius (a.y > b.y) := by
  rw [torus_meridian s a, (turning_distance (meridian_direct hs a.x) _ _ _).1]
  obtain ⟨m1, m2, m3⟩ := meridian_basis hs a.x
  unfold turningCircle meridianFrame
  dsimp only
  rcases lt_or_gt_of_ne hne with h | h
  · rw [if_pos h, if_neg (by linarith), m1]
  · rw [if_neg (by linarith), if_pos h, m2, m3]

/-- C175: the image of a vertical segment of the parametric domain of a torus, of less than a turn, is an arc, which follows the meridian from the start of the
segment to its end, in the direction of the segment, and whose length is that of the meridian. -/
theorem C175_meridian_arc (s : Torus) (hs : DirectOrthonormal s.frame.basis) (hR : 0 < s.majorRadius) (hr : 0 < s.minorRadius) (a b : V2 ℝ)
    (hx : a.x = b.x) (hne : a.y ≠ b.y) (hlt : |a.y - b.y| < 2 * π) (hfull : ¬mathIsClose |a.y - b.y| (2 * π) (1 / 10 ^ 4))
    (ha : RegularAngle s.minorRadius a.y) (hb : RegularAngle s.minorRadius b.y) :
    ∃ arc, torusSegment s a b = .ok (.arc arc) ∧ arc.length = s.minorRadius * |a.y - b.y| ∧
      (Image.arc arc).Follows fun t => s.paramTo3d (along a b t) := by
  unfold torusSegment
  dsimp only
  rw [if_pos (by rw [hx]; exact mathIsClose_self _ _ (by norm_num)), tube_center hs, unit_outward hs hR]
  dsimp only
  rw [if_neg hfull, meridian_circle hs a b hne, torus_meridian s a, torus_meridian s b, ← hx]
  obtain ⟨arc, h1, h2, h3, h4⟩ := turning_arc (meridian_direct hs a.x) (s.frame.origin + V3.smul s.majorRadius (outward s.frame a.x)) hr.ne' ha hb hne hlt
  rw [h1]
  refine ⟨arc, rfl, ?_, fun t t0 t1 => (h4 t t0 t1).trans ?_⟩
  · unfold Arc3.length
    rw [h3, h2, abs_of_pos hr]
  · dsimp only
    rw [torus_meridian]
    unfold along
    dsimp only
    rw [← hx, sub_self, mul_zero, add_zero]

/-- The circle of the parallel, as the conversion builds it. -/
lemma parallel_circle {s : Torus} (hs : DirectOrthonormal s.frame.basis) (a b : V2 ℝ) :
    (⟨⟨s.frame.origin + V3.smul (s.minorRadius * sin a.y) s.frame.basis.w,
      if a.x > b.x then ⟨s.frame.basis.u, -s.frame.basis.v, V3.cross s.frame.basis.u (-s.frame.basis.v)⟩
      else ⟨s.frame.basis.u, s.frame.basis.v, s.frame.basis.w⟩⟩,
      V3.pointDistance (s.paramTo3d a) (s.frame.origin + V3.smul (s.minorRadius * sin a.y) s.frame.basis.w)⟩ : Circle3) =
      turningCircle s.frame (s.frame.origin + V3.smul (s.minorRadius * sin a.y) s.frame.basis.w) (s.majorRadius + s.minorRadius * cos a.y) (a.x > b.x) := by
  rw [torus_parallel s a, (turning_distance hs _ _ _).1]
  rfl

/-- C175: the image of a horizontal segment of the parametric domain of a torus, of less than a turn and off the axis, is an arc, which follows the parallel
from the start of the segment to its end, in the direction of the segment, and whose length is that of the parallel. -/
theorem C175_parallel_arc (s : Torus) (hs : DirectOrthonormal s.frame.basis) (a b : V2 ℝ) (hy : a.y = b.y)
    (hr : s.majorRadius + s.minorRadius * cos a.y ≠ 0) (hc : ¬mathIsClose a.x b.x (1 / 10 ^ 4)) (hlt : |a.x - b.x| < 2 * π)
    (hfull : ¬mathIsClose |a.x - b.x| (2 * π) (1 / 10 ^ 4))
    (ha : RegularAngle (s.majorRadius + s.minorRadius * cos a.y) a.x) (hb : RegularAngle (s.majorRadius + s.minorRadius * cos a.y) b.x) :
    ∃ arc, torusSegment s a b = .ok (.arc arc) ∧ arc.length = |s.majorRadius + s.minorRadius * cos a.y| * |a.x - b.x| ∧
      (Image.arc arc).Follows fun t => s.paramTo3d (along a b t) := by
  have hne := not_close_self_ne (by norm_num) hc
  unfold torusSegment
  dsimp only
  rw [if_neg hc, if_pos (by rw [hy]; exact mathIsClose_self _ _ (by norm_num)), if_neg hfull, parallel_circle hs, torus_parallel s a, torus_parallel s b, ← hy]
  obtain ⟨arc, h1, h2, h3, h4⟩ := turning_arc hs (s.frame.origin + V3.smul (s.minorRadius * sin a.y) s.frame.basis.w) hr ha hb hne hlt
  rw [h1]
  refine ⟨arc, rfl, ?_, fun t t0 t1 => (h4 t t0 t1).trans ?_⟩
  · unfold Arc3.length
    rw [h3, h2]
  · dsimp only
    rw [torus_parallel]
    unfold along
    dsimp only
    rw [← hy, sub_self, mul_zero, add_zero]

/-- The full claim for whole turns: the image of a horizontal or vertical segment of a whole turn runs the circle from the start of the segment. -/
def C175_full_turn_full_statement : Prop :=
  ∀ (s : Torus) (a b : V2 ℝ), DirectOrthonormal s.frame.basis → 0 < s.minorRadius → s.minorRadius < s.majorRadius →
    (a.y = b.y ∧ |a.x - b.x| = 2 * π ∧ ¬mathIsClose a.x b.x (1 / 10 ^ 4) ∨ a.x = b.x ∧ |a.y - b.y| = 2 * π) →
    ∃ im, torusSegment s a b = .ok im ∧ im.Follows fun t => s.paramTo3d (along a b t)

/-- C175: whole turns which start at the angle zero: the parallel of the largest radius from the first direction of the frame, and the meridians from their
outermost point.  Missing: the other ones (`C175_full_turn_counterexample`). -/
theorem C175_full_turn_partial (s : Torus) (hs : DirectOrthonormal s.frame.basis) (h0 : 0 < s.minorRadius) (h1 : s.minorRadius < s.majorRadius) (a b : V2 ℝ) :
    (a.y = 0 → b.y = 0 → a.x = 0 → |a.x - b.x| = 2 * π → ¬mathIsClose a.x b.x (1 / 10 ^ 4) →
      ∃ im, torusSegment s a b = .ok im ∧ im.Follows fun t => s.paramTo3d (along a b t)) ∧
    (a.x = b.x → a.y = 0 → |a.y - b.y| = 2 * π →
      ∃ im, torusSegment s a b = .ok im ∧ im.Follows fun t => s.paramTo3d (along a b t)) := by
  constructor
  · intro ha hb hx hfull hc
    have hr : s.majorRadius + s.minorRadius * cos a.y ≠ 0 := by rw [ha, cos_zero]; linarith
    unfold torusSegment
    dsimp only
    rw [if_neg hc, if_pos (by rw [ha, hb]; exact mathIsClose_self _ _ (by norm_num)), if_pos (by rw [hfull]; exact mathIsClose_self _ _ (by norm_num)),
      parallel_circle hs]
    refine ⟨_, rfl, ?_⟩
    have e : s.frame.origin + V3.smul (s.minorRadius * sin a.y) s.frame.basis.w + V3.smul (s.minorRadius + s.majorRadius) s.frame.basis.u =
        turning s.frame (s.frame.origin + V3.smul (s.minorRadius * sin a.y) s.frame.basis.w) (s.majorRadius + s.minorRadius * cos a.y) a.x := by
      unfold turning
      rw [ha, hx, cos_zero, sin_zero]
      ext <;> simp [add_comm]
    rw [e]
    refine fun t t0 t1 => (turning_full hs _ hr hfull t t0 t1).trans ?_
    dsimp only
    rw [torus_parallel]
    unfold along
    dsimp only
    rw [ha, hb, sub_self, mul_zero, add_zero]
  · intro hx ha hfull
    have hp := pi_pos
    have hne : a.y ≠ b.y := by intro h; rw [h, sub_self, abs_zero] at hfull; linarith
    unfold torusSegment
    dsimp only
    rw [if_pos (by rw [hx]; exact mathIsClose_self _ _ (by norm_num)), tube_center hs, unit_outward hs (by linarith)]
    dsimp only
    rw [if_pos (by rw [hfull]; exact mathIsClose_self _ _ (by norm_num)), meridian_circle hs a b hne]
    refine ⟨_, rfl, ?_⟩
    have e : s.frame.origin + V3.smul s.majorRadius (outward s.frame a.x) + V3.smul s.minorRadius (outward s.frame a.x) =
        turning (meridianFrame s.frame a.x) (s.frame.origin + V3.smul s.majorRadius (outward s.frame a.x)) s.minorRadius a.y := by
      unfold turning meridianFrame
      dsimp only
      rw [ha, cos_zero, sin_zero]
      ext <;> simp
    rw [e]
    refine fun t t0 t1 => (turning_full (meridian_direct hs a.x) _ h0.ne' hfull t t0 t1).trans ?_
    dsimp only
    rw [torus_meridian]
    unfold along
    dsimp only
    rw [← hx, sub_self, mul_zero, add_zero]

/-- A torus of radii two and one. -/
noncomputable def exTorus : Torus := ⟨⟨⟨0, 0, 0⟩, ⟨⟨1, 0, 0⟩, ⟨0, 1, 0⟩, ⟨0, 0, 1⟩⟩⟩, 2, 1⟩

lemma exTorus_direct : DirectOrthonormal exTorus.frame.basis := by norm_num [DirectOrthonormal, exTorus, V3.dot, V3.cross]

/-- C175: the whole turn at the top of the torus of radii two and one gives a full arc which starts at three from the axis: the circle has the radius two. -/
theorem C175_full_turn_counterexample : ¬C175_full_turn_full_statement := by
  intro h
  have hp := pi_gt_three
  have hc : ¬mathIsClose 0 (2 * π) (1 / 10 ^ 4) := by
    unfold mathIsClose
    rw [zero_sub, abs_neg, abs_zero, abs_of_pos (by linarith), max_eq_right (by linarith : (0 : ℝ) ≤ 2 * π), not_le, max_lt_iff]
    constructor <;> norm_num <;> linarith
  have hfull : |(0 : ℝ) - 2 * π| = 2 * π := by rw [zero_sub, abs_neg, abs_of_pos (by linarith)]
  obtain ⟨im, h1, h2⟩ := h exTorus ⟨0, π / 2⟩ ⟨2 * π, π / 2⟩ exTorus_direct (by norm_num [exTorus]) (by norm_num [exTorus])
    (Or.inl ⟨rfl, hfull, hc⟩)
  unfold torusSegment at h1
  dsimp only at h1
  rw [if_neg hc, if_pos (mathIsClose_self _ _ (by norm_num)), if_pos (by rw [hfull]; exact mathIsClose_self _ _ (by norm_num))] at h1
  obtain rfl := Except.ok.inj h1
  have h3 := h2 0 le_rfl zero_le_one
  dsimp only at h3
  have hx := congrArg V3.x h3
  unfold V3.rotation V3.rotationCS Torus.paramTo3d along exTorus at hx
  simp [V3.dot, V3.cross] at hx

/-- The quarter of turn meets the conditions on the angles, on a circle of radius at least 1e-15. -/
lemma regular_quarter {r : ℝ} (hr : 1 ≤ r) : RegularAngle r 0 ∧ RegularAngle r (π / 2) ∧ RegularAngle r π := by
  have hp := pi_gt_three
  refine ⟨⟨?_, ?_, ?_⟩, ⟨?_, ?_, ?_⟩, ⟨?_, ?_, ?_⟩⟩
  · right; rw [cos_zero, mul_one, abs_of_pos (by linarith)]; norm_num; linarith
  · left; rw [sin_zero, mul_zero]
  · intro k hk
    rw [zero_sub, abs_neg, abs_mul, abs_of_pos (by linarith : 0 < π)] at hk
    have : k = 0 := by
      by_contra hne
      have h1 : (1 : ℝ) ≤ |(k : ℝ)| := by
        have := Int.one_le_abs hne
        exact_mod_cast this
      norm_num at hk
      nlinarith
    rw [this]; simp
  · left; rw [cos_pi_div_two, mul_zero]
  · right; rw [sin_pi_div_two, mul_one, abs_of_pos (by linarith)]; norm_num; linarith
  · intro k hk
    exfalso
    have e : π / 2 - k * π = (1 - 2 * k) * (π / 2) := by ring
    rw [e, abs_mul, abs_of_pos (by linarith : 0 < π / 2)] at hk
    have h1 : (1 : ℝ) ≤ |1 - 2 * (k : ℝ)| := by
      have : (1 : ℤ) ≤ |1 - 2 * k| := Int.one_le_abs (by omega)
      exact_mod_cast this
    norm_num at hk
    nlinarith
  · right; rw [cos_pi, mul_neg, abs_neg, mul_one, abs_of_pos (by linarith)]; norm_num; linarith
  · left; rw [sin_pi, mul_zero]
  · intro k hk
    have e : π - k * π = (1 - k) * π := by ring
    rw [e, abs_mul, abs_of_pos (by linarith : 0 < π)] at hk
    have : 1 - k = 0 := by
      by_contra hne
      have h1 : (1 : ℝ) ≤ |1 - (k : ℝ)| := by
        have := Int.one_le_abs hne
        exact_mod_cast this
      norm_num at hk
      nlinarith
    have : k = 1 := by omega
    rw [this]; simp

lemma quarter_far : ¬mathIsClose 0 (π / 2) (1 / 10 ^ 4) ∧ |0 - π / 2| < 2 * π ∧ ¬mathIsClose |0 - π / 2| (2 * π) (1 / 10 ^ 4) := by
  have hp := pi_gt_three
  have hp4 := pi_lt_four
  have e : |0 - π / 2| = π / 2 := by rw [zero_sub, abs_neg, abs_of_pos (by linarith)]
  rw [e]
  refine ⟨?_, by linarith, ?_⟩
  · unfold mathIsClose
    rw [e, abs_zero, abs_of_pos (by linarith), max_eq_right (by linarith : (0 : ℝ) ≤ π / 2), not_le, max_lt_iff]
    constructor <;> norm_num <;> linarith
  · unfold mathIsClose
    rw [abs_of_neg (by linarith), abs_of_pos (by linarith), abs_of_pos (by linarith), max_eq_right (by linarith : π / 2 ≤ 2 * π), not_le, max_lt_iff]
    constructor <;> norm_num <;> linarith

-- a quarter of parallel and a quarter of meridian of this torus meet the hypotheses
example : DirectOrthonormal exTorus.frame.basis ∧ exTorus.majorRadius + exTorus.minorRadius * cos 0 ≠ 0 ∧ ¬mathIsClose 0 (π / 2) (1 / 10 ^ 4) ∧
    |0 - π / 2| < 2 * π ∧ ¬mathIsClose |0 - π / 2| (2 * π) (1 / 10 ^ 4) ∧
    RegularAngle (exTorus.majorRadius + exTorus.minorRadius * cos 0) 0 ∧ RegularAngle (exTorus.majorRadius + exTorus.minorRadius * cos 0) (π / 2) ∧
    RegularAngle exTorus.minorRadius 0 ∧ RegularAngle exTorus.minorRadius (π / 2) := by
  have e : exTorus.majorRadius + exTorus.minorRadius * cos 0 = 3 := by norm_num [exTorus]
  have e1 : exTorus.minorRadius = 1 := rfl
  rw [e, e1]
  obtain ⟨h1, h2, h3⟩ := quarter_far
  exact ⟨exTorus_direct, by norm_num, h1, h2, h3, (regular_quarter (by norm_num)).1, (regular_quarter (by norm_num)).2.1, (regular_quarter le_rfl).1,
    (regular_quarter le_rfl).2.1⟩

-- so do a quarter of parallel of a cylinder of radius one and one of a cone of semi angle π / 4 at the height two
example : DirectOrthonormal (⟨exTorus.frame, 1⟩ : Cylinder).frame.basis ∧ RegularAngle (⟨exTorus.frame, 1⟩ : Cylinder).radius 0 ∧
    RegularAngle (⟨exTorus.frame, 1⟩ : Cylinder).radius (π / 2) ∧ RegularAngle (2 * tan (⟨exTorus.frame, π / 4⟩ : Cone).semiAngle) 0 ∧
    RegularAngle (2 * tan (⟨exTorus.frame, π / 4⟩ : Cone).semiAngle) (π / 2) ∧ ¬mathIsClose 2 0 (1 / 10 ^ 6) := by
  have e : (2 : ℝ) * tan (⟨exTorus.frame, π / 4⟩ : Cone).semiAngle = 2 := by dsimp only; rw [tan_pi_div_four, mul_one]
  have e1 : (⟨exTorus.frame, 1⟩ : Cylinder).radius = 1 := rfl
  rw [e, e1]
  refine ⟨exTorus_direct, (regular_quarter le_rfl).1, (regular_quarter le_rfl).2.1, (regular_quarter (by norm_num)).1, (regular_quarter (by norm_num)).2.1, ?_⟩
  unfold mathIsClose
  norm_num

end Volmdlr.Iso
