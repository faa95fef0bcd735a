import Verif.Iso.Model
import Verif.Arc.Arc3Props
import Verif.Surface.SweptProps
import Verif.Surface.MoreProps

/-!
# Segments of the parametric domain and their images on cylinders, cones, tori and spheres (C174, C175)
-/

namespace Volmdlr.Iso

open Real Volmdlr.Angle Volmdlr.Arc Volmdlr.Surface

/-- The point of a segment of the parametric domain at the fraction `t` of its length (specification). -/
def along (a b : V2 ℝ) (t : ℝ) : V2 ℝ := ⟨a.x + t * (b.x - a.x), a.y + t * (b.y - a.y)⟩

/-- The edge given follows the path `f`, from `f 0` to `f 1`: its point at the fraction `t` of its length is `f t` (specification). -/
def Image.Follows : Image → (ℝ → V3 ℝ) → Prop
  | .nothing, _ => False
  | .fitted _, _ => False
  | .line a b, f => ∀ t, 0 ≤ t → t ≤ 1 → a + V3.smul t (b - a) = f t
  | .arc a, f => ∀ t, 0 ≤ t → t ≤ 1 → a.pointAtAbscissa (t * a.length) = .ok (f t)
  | .fullArc c p, f => ∀ t, 0 ≤ t → t ≤ 1 → V3.rotation p c.frame.origin c.frame.basis.w (2 * π * t) = f t

/-- An angle outside of the tolerance bands, on a circle of radius `|r|`: it is a multiple of `π` or at `1e-8` at least of these multiples, and the local
coordinates of the point are zero or not below the `1e-16` under which they are flushed. -/
def RegularAngle (r t : ℝ) : Prop := NotTiny (r * cos t) ∧ NotTiny (r * sin t) ∧ ∀ k : ℤ, |t - k * π| < 1 / 10 ^ 8 → t = k * π

lemma RegularAngle.clear {c : Circle3} {t : ℝ} (h : RegularAngle c.radius t) : ∃ k : ℤ, c.Clear (t + k * (2 * π)) := by
  have hp := pi_pos
  have hp4 := pi_lt_four
  obtain ⟨h1, h2, h3⟩ := h
  refine ⟨-⌊t / (2 * π)⌋, ⟨?_, ?_⟩, ?_, ?_⟩
  · push_cast
    have := Int.floor_le (t / (2 * π))
    rw [le_div_iff₀ (by positivity)] at this
    linarith
  · push_cast
    have l := Int.lt_floor_add_one (t / (2 * π))
    rw [div_lt_iff₀ (by positivity)] at l
    by_contra hc
    push Not at hc
    have := h3 (2 * (⌊t / (2 * π)⌋ + 1)) (by
      push_cast
      rw [abs_lt]
      constructor <;> norm_num at hc ⊢ <;> nlinarith)
    push_cast at this
    nlinarith
  · rw [cos_add_int_mul_two_pi]; exact h1
  · rw [sin_add_int_mul_two_pi]; exact h2

/-- Between two angles less than a turn apart the arc from the one to the other follows the circle. -/
lemma arc_image {c : Circle3} (h : c.Good) {a b : ℝ} (ha : RegularAngle c.radius a) (hb : RegularAngle c.radius b) (hab : a < b) (hb2 : b < a + 2 * π) :
    ∃ arc, Arc3.make c (c.at a) (c.at b) = .ok arc ∧ arc.circle = c ∧ arc.start = c.at a ∧ arc.fin = c.at b ∧ arc.angle = b - a ∧
      (Image.arc arc).Follows fun t => c.at (a + t * (b - a)) := by
  obtain ⟨j, hj⟩ := ha.clear
  obtain ⟨k, hk⟩ := hb.clear
  have ea : c.at a = c.at (a + j * (2 * π)) := c.at_period ⟨-j, by push_cast; ring⟩
  have eb : c.at b = c.at (b + k * (2 * π)) := c.at_period ⟨-k, by push_cast; ring⟩
  have hd := angle_eq hj.1.1 hj.1.lt hk.1.1 hk.1.lt (d := b - a) (by linarith) (by linarith) (k - j) (by push_cast; ring)
  refine ⟨⟨c, c.at (a + j * (2 * π)), c.at (b + k * (2 * π)), a + j * (2 * π), endAfter (a + j * (2 * π)) (b + k * (2 * π))⟩,
    by rw [ea, eb]; exact make3_clear h hj hk, rfl, ea.symm, eb.symm, hd, ?_⟩
  intro t t0 t1
  have hl : (⟨c, c.at (a + j * (2 * π)), c.at (b + k * (2 * π)), a + j * (2 * π), endAfter (a + j * (2 * π)) (b + k * (2 * π))⟩ : Arc3).length =
      c.radius * (b - a) := by
    unfold Arc3.length Arc3.angle; dsimp only; rw [hd, abs_of_pos (by linarith)]
  have hpos : 0 < c.radius * (b - a) := mul_pos h.pos (by linarith)
  rw [(C97_point_at_abscissa h (a + j * (2 * π)) _ rfl rfl _).1 (by
    change _ ≤ (⟨c, c.at (a + j * (2 * π)), c.at (b + k * (2 * π)), a + j * (2 * π), endAfter (a + j * (2 * π)) (b + k * (2 * π))⟩ : Arc3).length + _
    rw [hl]
    have : t * (c.radius * (b - a)) ≤ c.radius * (b - a) := by nlinarith
    norm_num
    linarith), hl]
  congr 1
  refine c.at_period ⟨j, ?_⟩
  have := h.pos.ne'
  field_simp
  ring

lemma good_reverse {c : Circle3} (h : c.Good) : (reverseCircle c).Good := by
  refine ⟨?_, h.pos⟩
  obtain ⟨uu, vv, -, uv, -⟩ := h.direct
  refine direct_of_uv uu ?_ ?_
  · simp only [V3.dot, V3.neg_x, V3.neg_y, V3.neg_z] at *; linarith
  · simp only [V3.dot, V3.neg_x, V3.neg_y, V3.neg_z] at *; linarith

lemma reverse_at (c : Circle3) (t : ℝ) : (reverseCircle c).at t = c.at (-t) := by
  unfold Circle3.at reverseCircle
  rw [cos_neg, sin_neg]
  ext <;> simp

lemma RegularAngle.neg {r t : ℝ} (h : RegularAngle r t) : RegularAngle r (-t) := by
  obtain ⟨h1, h2, h3⟩ := h
  refine ⟨by rwa [cos_neg], ?_, fun k hk => ?_⟩
  · rw [sin_neg, mul_neg]
    rcases h2 with h2 | h2
    · left; rw [h2, neg_zero]
    · right; rwa [abs_neg]
  · have := h3 (-k) (by push_cast; rw [← abs_neg]; convert hk using 2; ring)
    push_cast at this
    linarith

/-- The point at an angle of the circle of radius `|ρ|` of the plane of `u` and `v`, or the opposite one if `ρ` is negative (specification). -/
noncomputable def turning (f : Frame3 ℝ) (center : V3 ℝ) (rho t : ℝ) : V3 ℝ :=
  center + V3.smul rho (V3.smul (cos t) f.basis.u + V3.smul (sin t) f.basis.v)

/-- The circle which the conversions take. -/
noncomputable def turningCircle (f : Frame3 ℝ) (center : V3 ℝ) (rho : ℝ) (back : Prop) [Decidable back] : Circle3 :=
  ⟨⟨center, if back then ⟨f.basis.u, -f.basis.v, V3.cross f.basis.u (-f.basis.v)⟩ else ⟨f.basis.u, f.basis.v, f.basis.w⟩⟩, |rho|⟩

lemma phase (rho : ℝ) : ∃ k : ℤ, ∀ t, |rho| * cos (t + k * π) = rho * cos t ∧ |rho| * sin (t + k * π) = rho * sin t := by
  rcases le_or_gt 0 rho with h | h
  · exact ⟨0, fun t => by rw [abs_of_nonneg h]; simp⟩
  · refine ⟨1, fun t => ?_⟩
    rw [abs_of_neg h]
    simp [cos_add_pi, sin_add_pi]

lemma RegularAngle.phase {rho t : ℝ} (h : RegularAngle rho t) {k : ℤ} (hk : |rho| * cos (t + k * π) = rho * cos t ∧ |rho| * sin (t + k * π) = rho * sin t) :
    RegularAngle |rho| (t + k * π) := by
  obtain ⟨h1, h2, h3⟩ := h
  refine ⟨by rwa [hk.1], by rwa [hk.2], fun j hj => ?_⟩
  have := h3 (j - k) (by push_cast; convert hj using 2; ring)
  push_cast at this
  linarith

lemma turning_at (f : Frame3 ℝ) (center : V3 ℝ) (rho : ℝ) {k : ℤ} {t : ℝ}
    (hk : |rho| * cos (t + k * π) = rho * cos t ∧ |rho| * sin (t + k * π) = rho * sin t) :
    turning f center rho t = (turningCircle f center rho False).at (t + k * π) := by
  unfold turning turningCircle Circle3.at
  rw [if_neg not_false, hk.1, hk.2]
  ext <;> simp <;> ring

lemma turning_good {f : Frame3 ℝ} (hf : DirectOrthonormal f.basis) (center : V3 ℝ) {rho : ℝ} (h : rho ≠ 0) : (turningCircle f center rho False).Good := by
  refine ⟨?_, abs_pos.2 h⟩
  unfold turningCircle
  rw [if_neg not_false]
  exact hf

lemma turning_reverse (f : Frame3 ℝ) (center : V3 ℝ) (rho : ℝ) : turningCircle f center rho True = reverseCircle (turningCircle f center rho False) := by
  unfold turningCircle reverseCircle
  simp

/-- From the one angle to the other, in the direction of the circle given by their order. -/
lemma turning_arc {f : Frame3 ℝ} (hf : DirectOrthonormal f.basis) (center : V3 ℝ) {rho : ℝ} (h : rho ≠ 0) {a b : ℝ} (ha : RegularAngle rho a)
    (hb : RegularAngle rho b) (hne : a ≠ b) (hlt : |a - b| < 2 * π) [Decidable (a > b)] :
    ∃ arc, Arc3.make (turningCircle f center rho (a > b)) (turning f center rho a) (turning f center rho b) = .ok arc ∧ |arc.angle| = |a - b| ∧
      arc.circle.radius = |rho| ∧ (Image.arc arc).Follows fun t => turning f center rho (a + t * (b - a)) := by
  obtain ⟨k, hk⟩ := phase rho
  have hg := turning_good hf center h
  rw [abs_lt] at hlt
  have hra := ha.phase (hk a)
  have hrb := hb.phase (hk b)
  have heq : ∀ t : ℝ, turning f center rho t = (turningCircle f center rho False).at (t + k * π) := fun t => turning_at f center rho (hk t)
  rcases lt_or_gt_of_ne hne with hl | hl
  · have e : turningCircle f center rho (a > b) = turningCircle f center rho False := by
      unfold turningCircle; simp [not_lt.2 hl.le]
    obtain ⟨arc, h1, h2, -, -, h3, h4⟩ := arc_image hg hra hrb (by linarith) (by linarith)
    rw [e, heq a, heq b]
    refine ⟨arc, h1, ?_, by rw [h2]; rfl, fun t t0 t1 => ?_⟩
    · rw [h3, abs_sub_comm a b]; congr 1; ring
    · refine (h4 t t0 t1).trans ?_
      dsimp only
      rw [heq]
      congr 2
      ring
  · have e : turningCircle f center rho (a > b) = reverseCircle (turningCircle f center rho False) := by
      rw [← turning_reverse]; unfold turningCircle; simp [hl]
    obtain ⟨arc, h1, h2, -, -, h3, h4⟩ := arc_image (c := reverseCircle (turningCircle f center rho False)) (good_reverse hg) (RegularAngle.neg hra)
      (RegularAngle.neg hrb) (by linarith) (by linarith)
    rw [reverse_at, reverse_at, neg_neg, neg_neg] at h1
    rw [e, heq a, heq b]
    refine ⟨arc, h1, ?_, by rw [h2]; rfl, fun t t0 t1 => ?_⟩
    · rw [h3]; congr 1; ring
    · refine (h4 t t0 t1).trans ?_
      dsimp only
      rw [heq, reverse_at]
      congr 2
      ring

/-- A whole turn. -/
lemma turning_full {f : Frame3 ℝ} (hf : DirectOrthonormal f.basis) (center : V3 ℝ) {rho : ℝ} (h : rho ≠ 0) {a b : ℝ}
    (hlt : |a - b| = 2 * π) [Decidable (a > b)] :
    (Image.fullArc (turningCircle f center rho (a > b)) (turning f center rho a)).Follows fun t => turning f center rho (a + t * (b - a)) := by
  have hp := pi_pos
  obtain ⟨k, hk⟩ := phase rho
  have hg := turning_good hf center h
  have heq : ∀ t : ℝ, turning f center rho t = (turningCircle f center rho False).at (t + k * π) := fun t => turning_at f center rho (hk t)
  intro t t0 t1
  dsimp only
  rcases abs_cases (a - b) with ⟨h1, h2⟩ | ⟨h1, h2⟩
  · have hl : a > b := by linarith
    have e : turningCircle f center rho (a > b) = reverseCircle (turningCircle f center rho False) := by
      rw [← turning_reverse]; unfold turningCircle; simp [hl]
    have ha : turning f center rho a = (reverseCircle (turningCircle f center rho False)).at (-(a + k * π)) := by rw [reverse_at, neg_neg]; exact heq a
    rw [e, ha, (good_reverse hg).rotation_at, reverse_at, heq]
    congr 1
    have : b - a = -(2 * π) := by linarith
    rw [this]; ring
  · have hl : ¬a > b := by linarith
    have e : turningCircle f center rho (a > b) = turningCircle f center rho False := by unfold turningCircle; simp [hl]
    rw [e, heq a, hg.rotation_at, heq]
    congr 1
    have : b - a = 2 * π := by linarith
    rw [this]; ring

/-- The distance of the points of the circle to its centre. -/
lemma turning_distance {f : Frame3 ℝ} (hf : DirectOrthonormal f.basis) (center : V3 ℝ) (rho t : ℝ) :
    V3.pointDistance (turning f center rho t) center = |rho| ∧ V3.pointDistance center (turning f center rho t) = |rho| := by
  obtain ⟨uu, vv, -, uv, -⟩ := hf
  have hsc := sin_sq_add_cos_sq t
  simp only [V3.dot] at uu vv uv
  constructor
  all_goals
    refine (sq_eq_sq₀ (sqrt_nonneg _) (abs_nonneg _)).1 ?_
    change V3.norm _ ^ 2 = _
    rw [V3.norm_pow_two, sq_abs]
    simp only [turning, V3.dot, V3.sub_x, V3.sub_y, V3.sub_z, V3.add_x, V3.add_y, V3.add_z, V3.smul_x, V3.smul_y, V3.smul_z]
    linear_combination rho ^ 2 * (cos t ^ 2 * uu + sin t ^ 2 * vv + 2 * sin t * cos t * uv + hsc)

/-! ## Cylinders -/

lemma cylinder_turning (s : Cylinder) (p : V2 ℝ) :
    s.paramTo3d p = turning s.frame (s.frame.origin + V3.smul p.y s.frame.basis.w) s.radius p.x := by
  unfold Cylinder.paramTo3d turning
  ext <;> simp <;> ring

lemma not_close_of_lt {p q : V3 ℝ} (h : 1 / 10 ^ 6 < V3.pointDistance p q) : ¬isClose3 p q (1 / 10 ^ 6) := by
  have h0 : 0 ≤ V3.pointDistance p q := sqrt_nonneg _
  unfold isClose3 mathIsClose
  rw [sub_zero, abs_of_nonneg h0, abs_zero, max_eq_left h0, not_le, max_lt_iff]
  constructor <;> linarith

lemma not_close_self_ne {x y tol : ℝ} (h0 : 0 ≤ tol) (h : ¬mathIsClose x y tol) : x ≠ y := by
  rintro rfl
  exact h (mathIsClose_self x tol h0)

/-- C174: the image of a vertical segment of the parametric domain of a cylinder is the segment of its rule, and follows it. -/
theorem C174_cylinder_rule (s : Cylinder) (hs : DirectOrthonormal s.frame.basis) (name : SegName) (a b : V2 ℝ) (hx : a.x = b.x)
    (hy : 1 / 10 ^ 6 < |b.y - a.y|) :
    ∃ im, cylinderSegment s name a b = .ok im ∧ im.Follows fun t => s.paramTo3d (along a b t) := by
  have hd : V3.pointDistance (s.paramTo3d a) (s.paramTo3d b) = |b.y - a.y| := by
    refine (sq_eq_sq₀ (sqrt_nonneg _) (abs_nonneg _)).1 ?_
    change V3.norm _ ^ 2 = _
    have hw := hs.2.2.1
    rw [V3.norm_pow_two, sq_abs]
    simp only [Cylinder.paramTo3d, hx, V3.dot, V3.sub_x, V3.sub_y, V3.sub_z, V3.add_x, V3.add_y, V3.add_z, V3.smul_x, V3.smul_y, V3.smul_z] at *
    linear_combination (b.y - a.y) ^ 2 * hw
  unfold cylinderSegment
  dsimp only
  rw [if_pos (Or.inl (by rw [hx]; exact mathIsClose_self _ _ (by norm_num))), if_neg (not_close_of_lt (by rw [hd]; exact hy))]
  refine ⟨_, rfl, fun t _ _ => ?_⟩
  simp only [Cylinder.paramTo3d, along, hx]
  ext <;> simp <;> ring

/-- C174: the image of a horizontal segment of the parametric domain of a cylinder, of less than a turn, is an arc, which follows the parallel from the start
of the segment to its end, in the direction of the segment, and whose length is that of the parallel. -/
theorem C174_cylinder_arc (s : Cylinder) (hs : DirectOrthonormal s.frame.basis) (hr : 0 < s.radius) (name : SegName) (hn : name ≠ .linesegment)
    (a b : V2 ℝ) (hy : a.y = b.y) (hc : ¬mathIsClose a.x b.x (1 / 10 ^ 4)) (hlt : |a.x - b.x| < 2 * π)
    (hfull : ¬mathIsClose |a.x - b.x| (2 * π) (1 / 10 ^ 4)) (ha : RegularAngle s.radius a.x) (hb : RegularAngle s.radius b.x) :
    ∃ arc, cylinderSegment s name a b = .ok (.arc arc) ∧ arc.length = s.radius * |a.x - b.x| ∧
      (Image.arc arc).Follows fun t => s.paramTo3d (along a b t) := by
  unfold cylinderSegment
  dsimp only
  have hne := not_close_self_ne (by norm_num) hc
  rw [if_neg (by tauto), if_pos (Or.inl (by rw [hy]; exact mathIsClose_self _ _ (by norm_num))), if_neg hfull]
  rw [cylinder_turning s a, cylinder_turning s b, ← hy, (turning_distance hs _ _ _).1]
  obtain ⟨arc, h1, h2, h3, h4⟩ := turning_arc hs (s.frame.origin + V3.smul a.y s.frame.basis.w) hr.ne' ha hb hne hlt
  have e : (if a.x > b.x then
        (⟨⟨s.frame.origin + V3.smul a.y s.frame.basis.w, ⟨s.frame.basis.u, -s.frame.basis.v, V3.cross s.frame.basis.u (-s.frame.basis.v)⟩⟩, |s.radius|⟩ : Circle3)
      else ⟨⟨s.frame.origin + V3.smul a.y s.frame.basis.w, ⟨s.frame.basis.u, s.frame.basis.v, s.frame.basis.w⟩⟩, |s.radius|⟩) =
      turningCircle s.frame (s.frame.origin + V3.smul a.y s.frame.basis.w) s.radius (a.x > b.x) := by
    unfold turningCircle
    split_ifs <;> rfl
  rw [e, h1]
  refine ⟨arc, rfl, ?_, fun t t0 t1 => (h4 t t0 t1).trans ?_⟩
  · unfold Arc3.length
    rw [h3, h2, abs_of_pos hr]
  · dsimp only
    rw [cylinder_turning]
    unfold along
    dsimp only
    rw [← hy, sub_self, mul_zero, add_zero]

/-- C174: the image of a horizontal segment of a whole turn is the circle, run from the start of the segment in the direction of the segment. -/
theorem C174_cylinder_full (s : Cylinder) (hs : DirectOrthonormal s.frame.basis) (hr : 0 < s.radius) (name : SegName) (hn : name ≠ .linesegment)
    (a b : V2 ℝ) (hy : a.y = b.y) (hc : ¬mathIsClose a.x b.x (1 / 10 ^ 4)) (hfull : |a.x - b.x| = 2 * π) :
    ∃ c, cylinderSegment s name a b = .ok (.fullArc c (s.paramTo3d a)) ∧ c.radius = s.radius ∧
      (Image.fullArc c (s.paramTo3d a)).Follows fun t => s.paramTo3d (along a b t) := by
  unfold cylinderSegment
  dsimp only
  rw [if_neg (by tauto), if_pos (Or.inl (by rw [hy]; exact mathIsClose_self _ _ (by norm_num))),
    if_pos (by rw [hfull]; exact mathIsClose_self _ _ (by norm_num))]
  rw [cylinder_turning s a, (turning_distance hs _ _ _).1]
  have e : (if a.x > b.x then
        (⟨⟨s.frame.origin + V3.smul a.y s.frame.basis.w, ⟨s.frame.basis.u, -s.frame.basis.v, V3.cross s.frame.basis.u (-s.frame.basis.v)⟩⟩, |s.radius|⟩ : Circle3)
      else ⟨⟨s.frame.origin + V3.smul a.y s.frame.basis.w, ⟨s.frame.basis.u, s.frame.basis.v, s.frame.basis.w⟩⟩, |s.radius|⟩) =
      turningCircle s.frame (s.frame.origin + V3.smul a.y s.frame.basis.w) s.radius (a.x > b.x) := by
    unfold turningCircle
    split_ifs <;> rfl
  rw [e]
  refine ⟨_, rfl, by unfold turningCircle; exact abs_of_pos hr, fun t t0 t1 =>
    (turning_full hs (s.frame.origin + V3.smul a.y s.frame.basis.w) hr.ne' hfull t t0 t1).trans ?_⟩
  dsimp only
  rw [cylinder_turning]
  unfold along
  dsimp only
  rw [← hy, sub_self, mul_zero, add_zero]

/-! ## Cones -/

lemma cone_turning (s : Cone) (p : V2 ℝ) :
    s.paramTo3d p = turning s.frame (s.frame.origin + V3.smul p.y s.frame.basis.w) (p.y * tan s.semiAngle) p.x := by
  unfold Cone.paramTo3d turning
  ext <;> simp <;> ring

/-- C174: the image of a vertical segment of the parametric domain of a cone is the segment of its rule, and follows it. -/
theorem C174_cone_rule (s : Cone) (belongs : Arc3 → V3 ℝ → Bool) (name : SegName) (a b : V2 ℝ) (hx : a.x = b.x) :
    ∃ im, coneSegment s belongs name a b = .ok im ∧ im.Follows fun t => s.paramTo3d (along a b t) := by
  unfold coneSegment
  dsimp only
  rw [if_pos (by rw [hx]; exact mathIsClose_self _ _ (by norm_num))]
  refine ⟨_, rfl, fun t _ _ => ?_⟩
  simp only [Cone.paramTo3d, along, hx]
  ext <;> simp <;> ring

/-- The test of belonging accepts the points of the arcs (specification of the parameter `belongs`). -/
def Accepts (belongs : Arc3 → V3 ℝ → Bool) : Prop :=
  ∀ (arc : Arc3) (t : ℝ) (p : V3 ℝ), 0 ≤ t → t ≤ 1 → arc.pointAtAbscissa (t * arc.length) = .ok p → belongs arc p = true

lemma cone_circle {s : Cone} (hs : DirectOrthonormal s.frame.basis) (a b : V2 ℝ) (hne : a.x ≠ b.x) :
    (⟨⟨s.frame.origin + V3.smul a.y s.frame.basis.w, if b.x - a.x > 0 then ⟨s.frame.basis.u, s.frame.basis.v, s.frame.basis.w⟩
      else ⟨s.frame.basis.u, -s.frame.basis.v, -s.frame.basis.w⟩⟩, V3.pointDistance (s.frame.origin + V3.smul a.y s.frame.basis.w) (s.paramTo3d a)⟩ : Circle3) =
      turningCircle s.frame (s.frame.origin + V3.smul a.y s.frame.basis.w) (a.y * tan s.semiAngle) (a.x > b.x) := by
  rw [cone_turning s a, (turning_distance hs _ _ _).2]
  unfold turningCircle
  rcases lt_or_gt_of_ne hne with h | h
  · rw [if_pos (by linarith), if_neg (by linarith)]
  · rw [if_neg (by linarith), if_pos h]
    have e : V3.cross s.frame.basis.u (-s.frame.basis.v) = -s.frame.basis.w := by
      rw [← (Arc.direct_cross hs).2.2]
      ext <;> simp [V3.cross] <;> ring
    rw [e]

/-- C174: the image of a horizontal segment of the parametric domain of a cone, away from the apex and of less than a turn, is an arc, which follows the
parallel from the start of the segment to its end, in the direction of the segment: on both sides of the apex. -/
theorem C174_cone_arc (s : Cone) (hs : DirectOrthonormal s.frame.basis) (belongs : Arc3 → V3 ℝ → Bool) (hbel : Accepts belongs) (name : SegName)
    (hn : name ≠ .construction) (a b : V2 ℝ) (hy : a.y = b.y) (hr : a.y * tan s.semiAngle ≠ 0) (hap : ¬mathIsClose a.y 0 (1 / 10 ^ 6))
    (hc : ¬mathIsClose a.x b.x (1 / 10 ^ 4)) (hlt : |a.x - b.x| < 2 * π)
    (ha : RegularAngle (a.y * tan s.semiAngle) a.x) (hb : RegularAngle (a.y * tan s.semiAngle) b.x) :
    ∃ arc, coneSegment s belongs name a b = .ok (.arc arc) ∧ arc.length = |a.y * tan s.semiAngle| * |a.x - b.x| ∧
      (Image.arc arc).Follows fun t => s.paramTo3d (along a b t) := by
  have hne := not_close_self_ne (by norm_num) hc
  unfold coneSegment
  dsimp only
  rw [if_neg hc, if_neg (by tauto), if_pos (by rw [hy]; exact mathIsClose_self _ _ (by norm_num)), if_neg hlt.ne, cone_circle hs a b hne,
    cone_turning s a, cone_turning s b, ← hy]
  obtain ⟨arc, h1, h2, h3, h4⟩ := turning_arc hs (s.frame.origin + V3.smul a.y s.frame.basis.w) hr ha hb hne hlt
  rw [h1]
  dsimp only
  have hmid : belongs arc (s.paramTo3d ⟨1 / 2 * (a.x + b.x), a.y⟩) = true := by
    refine hbel arc (1 / 2) _ (by norm_num) (by norm_num) ((h4 _ (by norm_num) (by norm_num)).trans ?_)
    dsimp only
    rw [cone_turning]
    dsimp only
    congr 2
    ring
  rw [if_pos hmid]
  refine ⟨arc, rfl, ?_, fun t t0 t1 => (h4 t t0 t1).trans ?_⟩
  · unfold Arc3.length
    rw [h3, h2]
  · dsimp only
    rw [cone_turning]
    unfold along
    dsimp only
    rw [← hy, sub_self, mul_zero, add_zero]

/-- C174: the image of a horizontal segment of exactly one turn on a cone is the circle, run from the start of the segment in its direction. -/
theorem C174_cone_full (s : Cone) (hs : DirectOrthonormal s.frame.basis) (belongs : Arc3 → V3 ℝ → Bool) (name : SegName)
    (hn : name ≠ .construction) (a b : V2 ℝ) (hy : a.y = b.y) (hr : a.y * tan s.semiAngle ≠ 0) (hap : ¬mathIsClose a.y 0 (1 / 10 ^ 6))
    (hc : ¬mathIsClose a.x b.x (1 / 10 ^ 4)) (hfull : |a.x - b.x| = 2 * π) :
    ∃ c, coneSegment s belongs name a b = .ok (.fullArc c (s.paramTo3d a)) ∧ c.radius = |a.y * tan s.semiAngle| ∧
      (Image.fullArc c (s.paramTo3d a)).Follows fun t => s.paramTo3d (along a b t) := by
  have hne := not_close_self_ne (by norm_num) hc
  unfold coneSegment
  dsimp only
  rw [if_neg hc, if_neg (by tauto), if_pos (by rw [hy]; exact mathIsClose_self _ _ (by norm_num)), if_pos hfull, cone_circle hs a b hne]
  refine ⟨_, rfl, rfl, ?_⟩
  rw [cone_turning s a]
  refine fun t t0 t1 => (turning_full hs (s.frame.origin + V3.smul a.y s.frame.basis.w) hr hfull t t0 t1).trans ?_
  dsimp only
  rw [cone_turning]
  unfold along
  dsimp only
  rw [← hy, sub_self, mul_zero, add_zero]

end Volmdlr.Iso
