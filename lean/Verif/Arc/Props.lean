import Verif.Arc.Model
import Verif.Angle.Props

/-!
# C57: arcs
-/

namespace Volmdlr.Arc

open Real Volmdlr.Angle

/-! ## The point of a circle at an angle (specification) -/

/-- The frame of the circle is orthonormal (direct or not) and its radius is positive. -/
structure Circle2.Good (c : Circle2) : Prop where
  uu : c.frame.basis.u.x ^ 2 + c.frame.basis.u.y ^ 2 = 1
  vv : c.frame.basis.v.x ^ 2 + c.frame.basis.v.y ^ 2 = 1
  uv : c.frame.basis.u.x * c.frame.basis.v.x + c.frame.basis.u.y * c.frame.basis.v.y = 0
  pos : 0 < c.radius

/-- The point of the circle at an angle: `center + r cos θ u + r sin θ v`. -/
noncomputable def Circle2.at (c : Circle2) (t : ℝ) : V2 ℝ :=
  ⟨c.frame.origin.x + c.radius * (cos t * c.frame.basis.u.x + sin t * c.frame.basis.v.x),
   c.frame.origin.y + c.radius * (cos t * c.frame.basis.u.y + sin t * c.frame.basis.v.y)⟩

/-- An angle of `[0, 2π)` not within `2π · 1e-9` of a full turn (where `sin_cos_angle` returns zero, C54). -/
def Clear (t : ℝ) : Prop := 0 ≤ t ∧ t < (1 - 1 / 10 ^ 9) * (2 * π)

lemma Clear.lt {t : ℝ} (h : Clear t) : t < 2 * π := by
  have := pi_pos
  have := h.2
  linarith

/-- The sign of the frame. -/
def Circle2.sign (c : Circle2) : ℝ := V2.cross c.frame.basis.u c.frame.basis.v

lemma Circle2.Good.sign_spec {c : Circle2} (h : c.Good) :
    (c.sign = 1 ∨ c.sign = -1) ∧ c.frame.basis.v.x = -c.sign * c.frame.basis.u.y ∧ c.frame.basis.v.y = c.sign * c.frame.basis.u.x := by
  obtain ⟨uu, vv, uv, -⟩ := h
  unfold Circle2.sign V2.cross
  set ux := c.frame.basis.u.x
  set uy := c.frame.basis.u.y
  set vx := c.frame.basis.v.x
  set vy := c.frame.basis.v.y
  refine ⟨?_, ?_, ?_⟩
  · have : (ux * vy - uy * vx - 1) * (ux * vy - uy * vx + 1) = 0 := by
      linear_combination (vx ^ 2 + vy ^ 2) * uu + vv - (ux * vx + uy * vy) * uv
    rcases mul_eq_zero.1 this with h | h
    · left; linarith
    · right; linarith
  · linear_combination -vx * uu + ux * uv
  · linear_combination -vy * uu + uy * uv

lemma Circle2.Good.trigo_iff {c : Circle2} (h : c.Good) : c.IsTrigo ↔ c.sign = 1 := by
  unfold Circle2.IsTrigo
  change 0 < c.sign ↔ _
  rcases h.sign_spec.1 with e | e <;> rw [e] <;> norm_num

lemma Circle2.Good.not_trigo_iff {c : Circle2} (h : c.Good) : ¬c.IsTrigo ↔ c.sign = -1 := by
  rw [h.trigo_iff]
  rcases h.sign_spec.1 with e | e <;> rw [e] <;> norm_num

/-- Rotating a point of the circle about the centre. -/
lemma Circle2.Good.rotation_at {c : Circle2} (h : c.Good) (t p : ℝ) :
    V2.rotation (c.at t) c.frame.origin p = c.at (t + c.sign * p) := by
  obtain ⟨hs, hx, hy⟩ := h.sign_spec
  unfold V2.rotation V2.rotationCS Circle2.at
  ext
  · simp only [V2.sub_x, V2.sub_y]
    rcases hs with e | e <;> rw [hx, hy, e] <;>
      simp only [one_mul, neg_mul, cos_add, sin_add, cos_neg, sin_neg] <;> ring
  · simp only [V2.sub_x, V2.sub_y]
    rcases hs with e | e <;> rw [hx, hy, e] <;>
      simp only [one_mul, neg_mul, cos_add, sin_add, cos_neg, sin_neg] <;> ring

/-- The local coordinates of a point in an orthonormal frame. -/
lemma Circle2.Good.globalToLocal {c : Circle2} (h : c.Good) (p : V2 ℝ) :
    c.frame.globalToLocal p = .ok ⟨(p.x - c.frame.origin.x) * c.frame.basis.u.x + (p.y - c.frame.origin.y) * c.frame.basis.u.y,
      (p.x - c.frame.origin.x) * c.frame.basis.v.x + (p.y - c.frame.origin.y) * c.frame.basis.v.y⟩ := by
  obtain ⟨hs, hx, hy⟩ := h.sign_spec
  have hd : M22.det c.frame.basis.transfer = c.sign := by
    unfold M22.det Basis2.transfer Circle2.sign V2.cross
    dsimp only; ring
  unfold Frame2.globalToLocal Basis2.globalToLocal M22.inverse
  have habs : |c.sign| = 1 := by rcases hs with e | e <;> rw [e] <;> simp
  rw [hd, habs, if_pos (by norm_num)]
  change Except.ok _ = _
  congr 1
  unfold M22.mulVec Basis2.transfer
  ext <;> simp only [V2.sub_x, V2.sub_y] <;> rcases hs with e | e <;> rw [hx, hy, e] <;> ring

lemma Circle2.Good.pointAngle_at {c : Circle2} (h : c.Good) (t : ℝ) :
    c.pointAngle (c.at t) = .ok (sinCosAngle (cos t) (sin t)) := by
  have hr := h.pos
  unfold Circle2.pointAngle
  rw [h.globalToLocal]
  change (if c.radius = 0 then _ else _) = _
  rw [if_neg hr.ne']
  change Except.ok _ = _
  congr 1
  obtain ⟨uu, vv, uv, -⟩ := h
  unfold Circle2.at
  dsimp only
  congr 1
  · rw [div_eq_iff hr.ne']; linear_combination (c.radius * cos t) * uu + (c.radius * sin t) * uv
  · rw [div_eq_iff hr.ne']; linear_combination (c.radius * cos t) * uv + (c.radius * sin t) * vv

lemma Circle2.Good.pointAngle_clear {c : Circle2} (h : c.Good) {t : ℝ} (ht : Clear t) : c.pointAngle (c.at t) = .ok t := by
  rw [h.pointAngle_at, C54_sin_cos_angle_eq t ht.1 ht.2]

lemma cos_sin_eq_iff {x y : ℝ} : (cos x = cos y ∧ sin x = sin y) ↔ ∃ n : ℤ, x = y + n * (2 * π) := by
  constructor
  · rintro ⟨h1, h2⟩
    have : cos (x - y) = 1 := by rw [cos_sub, h1, h2]; nlinarith [sin_sq_add_cos_sq y]
    obtain ⟨n, hn⟩ := (cos_eq_one_iff _).1 this
    exact ⟨n, by linarith⟩
  · rintro ⟨n, rfl⟩
    exact ⟨cos_add_int_mul_two_pi _ _, sin_add_int_mul_two_pi _ _⟩

/-- Two angles give the same point if and only if they differ by full turns. -/
lemma Circle2.Good.at_eq_iff {c : Circle2} (h : c.Good) {x y : ℝ} : c.at x = c.at y ↔ ∃ n : ℤ, x = y + n * (2 * π) := by
  rw [← cos_sin_eq_iff]
  constructor
  · intro e
    obtain ⟨uu, vv, uv, hr⟩ := h
    have ex := congrArg V2.x e
    have ey := congrArg V2.y e
    unfold Circle2.at at ex ey
    dsimp only at ex ey
    constructor
    · apply mul_left_cancel₀ hr.ne'
      linear_combination c.frame.basis.u.x * ex + c.frame.basis.u.y * ey - c.radius * (cos x - cos y) * uu - c.radius * (sin x - sin y) * uv
    · apply mul_left_cancel₀ hr.ne'
      linear_combination c.frame.basis.v.x * ex + c.frame.basis.v.y * ey - c.radius * (cos x - cos y) * uv - c.radius * (sin x - sin y) * vv
  · rintro ⟨h1, h2⟩
    unfold Circle2.at
    rw [h1, h2]

lemma Circle2.Good.dist_sq {c : Circle2} (h : c.Good) (x y : ℝ) :
    (V2.pointDistance (c.at x) (c.at y)) ^ 2 = c.radius ^ 2 * (2 - 2 * cos (x - y)) := by
  obtain ⟨uu, vv, uv, hr⟩ := h
  unfold V2.pointDistance
  rw [norm2_sq]
  unfold Circle2.at
  simp only [V2.sub_x, V2.sub_y]
  rw [cos_sub]
  have a := sin_sq_add_cos_sq x
  have b := sin_sq_add_cos_sq y
  linear_combination (c.radius ^ 2 * (cos x - cos y) ^ 2) * uu + (c.radius ^ 2 * (sin x - sin y) ^ 2) * vv +
    (2 * c.radius ^ 2 * (cos x - cos y) * (sin x - sin y)) * uv + c.radius ^ 2 * a + c.radius ^ 2 * b

lemma pointDistance_nonneg (p q : V2 ℝ) : 0 ≤ V2.pointDistance p q := sqrt_nonneg _

lemma isClose2_iff {p q : V2 ℝ} {tol : ℝ} (ht : 0 ≤ tol) : isClose2 p q tol ↔ V2.pointDistance p q ≤ tol := by
  unfold isClose2 mathIsClose
  have h0 := pointDistance_nonneg p q
  rw [sub_zero, abs_zero, abs_of_nonneg h0, max_eq_left h0]
  constructor
  · intro h
    rcases le_max_iff.1 h with h | h
    · have : V2.pointDistance p q = 0 := by linarith
      linarith
    · exact h
  · exact fun h => le_max_of_le_right h

/-- The chord is not longer than the arc. -/
lemma Circle2.Good.dist_le {c : Circle2} (h : c.Good) (x y : ℝ) : V2.pointDistance (c.at x) (c.at y) ≤ c.radius * |x - y| := by
  have hr := h.pos
  apply abs_le_of_sq_le_sq' _ (by positivity) |>.2
  rw [h.dist_sq, mul_pow, sq_abs]
  apply mul_le_mul_of_nonneg_left _ (by positivity)
  have := one_sub_sq_div_two_le_cos (x := x - y)
  linarith

/-- Every point at the distance `radius` of the centre is the point at an angle of `[0, 2π)`. -/
lemma Circle2.Good.exists_at {c : Circle2} (h : c.Good) {p : V2 ℝ} (hp : V2.pointDistance p c.frame.origin = c.radius) :
    ∃ t, 0 ≤ t ∧ t < 2 * π ∧ p = c.at t := by
  have hr := h.pos
  have hsq : (p.x - c.frame.origin.x) ^ 2 + (p.y - c.frame.origin.y) ^ 2 = c.radius ^ 2 := by
    rw [← hp]
    unfold V2.pointDistance
    rw [norm2_sq]
    simp only [V2.sub_x, V2.sub_y]
    ring
  obtain ⟨hs, hx, hy⟩ := h.sign_spec
  obtain ⟨uu, vv, uv, -⟩ := h
  set X := p.x - c.frame.origin.x with hX
  set Y := p.y - c.frame.origin.y with hY
  set ux := c.frame.basis.u.x
  set uy := c.frame.basis.u.y
  set vx := c.frame.basis.v.x
  set vy := c.frame.basis.v.y
  have hs2 : c.sign ^ 2 = 1 := by rcases hs with e | e <;> rw [e] <;> norm_num
  obtain ⟨r1, r2, r3, r4⟩ := raw_spec (u1 := (X * ux + Y * uy) / c.radius) (u2 := (X * vx + Y * vy) / c.radius) (by
    rw [div_pow, div_pow, ← add_div, div_eq_one_iff_eq (by positivity), ← hsq, hx, hy]
    linear_combination (X ^ 2 + Y ^ 2) * uu + (X * uy - Y * ux) ^ 2 * hs2)
  refine ⟨_, r1, r2, ?_⟩
  unfold Circle2.at
  rw [r3, r4]
  ext
  · dsimp only
    rw [show c.radius * ((X * ux + Y * uy) / c.radius * ux + (X * vx + Y * vy) / c.radius * vx) =
      (X * ux + Y * uy) * ux + (X * vx + Y * vy) * vx by field_simp, hx, hy]
    linear_combination -X * uu - (X * uy ^ 2 - Y * ux * uy) * hs2 + hX
  · dsimp only
    rw [show c.radius * ((X * ux + Y * uy) / c.radius * uy + (X * vx + Y * vy) / c.radius * vy) =
      (X * ux + Y * uy) * uy + (X * vx + Y * vy) * vy by field_simp, hx, hy]
    linear_combination -Y * uu - (Y * ux ^ 2 - X * ux * uy) * hs2 + hY

/-! ## C57 -/

lemma endAfter_range {a b : ℝ} (ha : 0 ≤ a) (ha' : a < 2 * π) (hb : 0 ≤ b) (hb' : b < 2 * π) :
    0 < endAfter a b - a ∧ endAfter a b - a ≤ 2 * π ∧ ∃ n : ℤ, endAfter a b = b + n * (2 * π) := by
  unfold endAfter
  by_cases h : a ≥ b
  · rw [if_pos h]
    exact ⟨by linarith, by linarith, 1, by push_cast; ring⟩
  · rw [if_neg h]
    push Not at h
    exact ⟨by linarith, by linarith, 0, by push_cast; ring⟩

lemma pointAngle2_range {c : Circle2} {p : V2 ℝ} {t : ℝ} (h : c.pointAngle p = .ok t) : 0 ≤ t ∧ t < 2 * π := by
  unfold Circle2.pointAngle at h
  rcases hl : c.frame.globalToLocal p with e | l
  · rw [hl] at h; cases h
  · rw [hl] at h
    change (if c.radius = 0 then _ else _) = _ at h
    by_cases hr : c.radius = 0
    · rw [if_pos hr] at h; cases h
    · rw [if_neg hr] at h
      obtain rfl := Except.ok.inj h
      exact C54_sin_cos_angle_range _ _

lemma pointAngle3_range {c : Circle3} {p : V3 ℝ} {t : ℝ} (h : c.pointAngle p = .ok t) : 0 ≤ t ∧ t < 2 * π := by
  unfold Circle3.pointAngle at h
  rcases hl : c.frame.globalToLocal p with e | l
  · rw [hl] at h; cases h
  · rw [hl] at h
    change (if c.radius = 0 then _ else _) = _ at h
    by_cases hr : c.radius = 0
    · rw [if_pos hr] at h; cases h
    · rw [if_neg hr] at h
      obtain rfl := Except.ok.inj h
      exact C54_sin_cos_angle_range _ _

lemma make2_spec {c : Circle2} {p q : V2 ℝ} {arc : Arc2} (h : Arc2.make c p q = .ok arc) :
    ∃ a b, c.pointAngle p = .ok a ∧ c.pointAngle q = .ok b ∧ arc = ⟨c, p, q, a, endAfter a b⟩ := by
  unfold Arc2.make at h
  rcases ha : c.pointAngle p with e | a
  · rw [ha] at h; cases h
  · rcases hb : c.pointAngle q with e | b
    · rw [ha, hb] at h; cases h
    · rw [ha, hb] at h
      exact ⟨a, b, rfl, rfl, (Except.ok.inj h).symm⟩

lemma make3_spec {c : Circle3} {p q : V3 ℝ} {arc : Arc3} (h : Arc3.make c p q = .ok arc) :
    ∃ a b, c.pointAngle p = .ok a ∧ c.pointAngle q = .ok b ∧ arc = ⟨c, p, q, a, endAfter a b⟩ := by
  unfold Arc3.make at h
  rcases ha : c.pointAngle p with e | a
  · rw [ha] at h; cases h
  · rcases hb : c.pointAngle q with e | b
    · rw [ha, hb] at h; cases h
    · rw [ha, hb] at h
      exact ⟨a, b, rfl, rfl, (Except.ok.inj h).symm⟩

/-- **C57.** Every arc of the plane that can be built has an angle in `(0, 2π]`, and the length radius times angle. -/
theorem C57_angle_range2 (c : Circle2) (p q : V2 ℝ) (arc : Arc2) (h : Arc2.make c p q = .ok arc) :
    0 < arc.angle ∧ arc.angle ≤ 2 * π ∧ arc.length = c.radius * arc.angle := by
  obtain ⟨a, b, ha, hb, rfl⟩ := make2_spec h
  have h1 := pointAngle2_range ha
  have h2 := pointAngle2_range hb
  have h3 := endAfter_range h1.1 h1.2 h2.1 h2.2
  refine ⟨h3.1, h3.2.1, ?_⟩
  unfold Arc2.length Arc2.angle
  rw [abs_of_pos h3.1]

/-- **C57.** Every arc of space that can be built has an angle in `(0, 2π]`, and the length radius times angle. -/
theorem C57_angle_range3 (c : Circle3) (p q : V3 ℝ) (arc : Arc3) (h : Arc3.make c p q = .ok arc) :
    0 < arc.angle ∧ arc.angle ≤ 2 * π ∧ arc.length = c.radius * arc.angle := by
  obtain ⟨a, b, ha, hb, rfl⟩ := make3_spec h
  have h1 := pointAngle3_range ha
  have h2 := pointAngle3_range hb
  have h3 := endAfter_range h1.1 h1.2 h2.1 h2.2
  refine ⟨h3.1, h3.2.1, ?_⟩
  unfold Arc3.length Arc3.angle
  rw [abs_of_pos h3.1]

/-- **C57.** `point_at_abscissa(0)` is the start. -/
theorem C57_start2 (arc : Arc2) : arc.pointAtAbscissa 0 = arc.start := by
  unfold Arc2.pointAtAbscissa V2.rotation V2.rotationCS
  split_ifs <;> ext <;> simp

/-- **C57.** `point_at_abscissa(0)` is the start, in space. -/
theorem C57_start3 (arc : Arc3) (h : 0 ≤ arc.circle.radius) : arc.pointAtAbscissa 0 = .ok arc.start := by
  unfold Arc3.pointAtAbscissa
  have : 0 ≤ arc.length := by unfold Arc3.length; positivity
  rw [if_neg (by norm_num; linarith)]
  congr 1
  unfold V3.rotation V3.rotationCS
  rw [zero_div, cos_zero, sin_zero]
  ext <;> simp

/-- **C57.** The point at abscissa `s` is the point of the circle at the angle of the start plus `s / radius`. -/
theorem C57_point_at_abscissa {c : Circle2} (hc : c.Good) (a : ℝ) (arc : Arc2) (h1 : arc.circle = c) (h2 : arc.start = c.at a) (s : ℝ) :
    arc.pointAtAbscissa s = c.at (a + s / c.radius) := by
  unfold Arc2.pointAtAbscissa
  rw [h1, h2]
  by_cases ht : c.IsTrigo
  · rw [if_pos ht, hc.rotation_at, hc.trigo_iff.1 ht, one_mul]
  · rw [if_neg ht, hc.rotation_at, hc.not_trigo_iff.1 ht]
    congr 2
    ring

/-- The angle computed for a point, up to the tolerance of `sin_cos_angle`. -/
lemma sinCosAngle_err (t : ℝ) : ∃ n : ℤ, ∃ e : ℝ, 0 ≤ e ∧ e ≤ 1 / 10 ^ 9 * (2 * π) ∧ sinCosAngle (cos t) (sin t) = t + e + n * (2 * π) := by
  obtain ⟨s, ⟨s1, s2, s3, s4⟩, hA, hB⟩ := C54_sin_cos_angle (cos t) (sin t) (by rw [add_comm]; exact sin_sq_add_cos_sq t)
  obtain ⟨n, hn⟩ := cos_sin_eq_iff.1 ⟨s3, s4⟩
  have hp := pi_pos
  rcases le_or_gt (2 * π - s) (1 / 10 ^ 9 * (2 * π)) with h | h
  · refine ⟨n - 1, 2 * π - s, by linarith, h, ?_⟩
    rw [hA h]
    push_cast
    linarith
  · exact ⟨n, 0, le_rfl, by positivity, by rw [hB h]; linarith⟩

/-- **C57.** For all start and end points on the circle, the point at abscissa `length` is the end, up to an angle of `2π · 1e-9`
(the tolerance of `sin_cos_angle`). -/
theorem C57_end {c : Circle2} (hc : c.Good) (p q : V2 ℝ) (hp : V2.pointDistance p c.frame.origin = c.radius)
    (hq : V2.pointDistance q c.frame.origin = c.radius) :
    ∃ arc, Arc2.make c p q = .ok arc ∧
      V2.pointDistance (arc.pointAtAbscissa arc.length) q ≤ c.radius * (1 / 10 ^ 9 * (2 * π)) := by
  obtain ⟨a, a1, a2, rfl⟩ := hc.exists_at hp
  obtain ⟨b, b1, b2, rfl⟩ := hc.exists_at hq
  have hr := hc.pos
  obtain ⟨arc, harc⟩ : ∃ arc, Arc2.make c (c.at a) (c.at b) = .ok arc := by
    unfold Arc2.make
    rw [hc.pointAngle_at, hc.pointAngle_at]
    exact ⟨_, rfl⟩
  refine ⟨arc, harc, ?_⟩
  have hlen := (C57_angle_range2 _ _ _ _ harc).2.2
  obtain ⟨a', b', ha, hb, rfl⟩ := make2_spec harc
  have h1 := pointAngle2_range ha
  have h2 := pointAngle2_range hb
  have h3 := endAfter_range h1.1 h1.2 h2.1 h2.2
  rw [C57_point_at_abscissa hc a _ rfl rfl, hlen, mul_div_cancel_left₀ _ hr.ne']
  unfold Arc2.angle
  dsimp only
  rw [hc.pointAngle_at] at ha hb
  obtain ⟨n, e, e0, e1, he⟩ := sinCosAngle_err a
  obtain ⟨m, f, f0, f1, hf⟩ := sinCosAngle_err b
  obtain ⟨k, hk⟩ := h3.2.2
  have ha' := Except.ok.inj ha
  have hb' := Except.ok.inj hb
  rw [hk]
  have heq : a + (b' + k * (2 * π) - a') = b + (f - e) + ((m + k - n : ℤ) : ℝ) * (2 * π) := by
    rw [← ha', ← hb', he, hf]; push_cast; ring
  rw [heq, hc.at_eq_iff.2 ⟨m + k - n, rfl⟩]
  refine (hc.dist_le _ _).trans ?_
  apply mul_le_mul_of_nonneg_left _ hr.le
  rw [add_sub_cancel_left, abs_le]
  constructor <;> linarith

/-- The arc between two points at clear angles. -/
lemma make_clear {c : Circle2} (hc : c.Good) {a b : ℝ} (ha : Clear a) (hb : Clear b) :
    Arc2.make c (c.at a) (c.at b) = .ok ⟨c, c.at a, c.at b, a, endAfter a b⟩ := by
  unfold Arc2.make
  rw [hc.pointAngle_clear ha, hc.pointAngle_clear hb]
  rfl

/-- **C57.** Outside of the tolerance band, the end is reached exactly. -/
theorem C57_end_exact {c : Circle2} (hc : c.Good) (a b : ℝ) (ha : Clear a) (hb : Clear b) :
    ∃ arc, Arc2.make c (c.at a) (c.at b) = .ok arc ∧ arc.pointAtAbscissa arc.length = arc.fin := by
  refine ⟨_, make_clear hc ha hb, ?_⟩
  have hlen := (C57_angle_range2 _ _ _ _ (make_clear hc ha hb)).2.2
  have h3 := endAfter_range ha.1 ha.lt hb.1 hb.lt
  rw [C57_point_at_abscissa hc a _ rfl rfl, hlen, mul_div_cancel_left₀ _ hc.pos.ne']
  unfold Arc2.angle
  obtain ⟨k, hk⟩ := h3.2.2
  dsimp only
  rw [hk]
  exact hc.at_eq_iff.2 ⟨k, by ring⟩

/-- **C57.** All points of an arc are on the circle. -/
theorem C57_on_circle {c : Circle2} (hc : c.Good) (p q : V2 ℝ) (hp : V2.pointDistance p c.frame.origin = c.radius) (arc : Arc2)
    (h : Arc2.make c p q = .ok arc) (s : ℝ) : V2.pointDistance (arc.pointAtAbscissa s) c.frame.origin = c.radius := by
  obtain ⟨a, -, -, rfl⟩ := hc.exists_at hp
  obtain ⟨a', b', -, -, rfl⟩ := make2_spec h
  rw [C57_point_at_abscissa hc a _ rfl rfl]
  have hr := hc.pos
  generalize a + s / c.radius = t
  have : V2.pointDistance (c.at t) c.frame.origin ^ 2 = c.radius ^ 2 := by
    obtain ⟨uu, vv, uv, -⟩ := hc
    unfold V2.pointDistance
    rw [norm2_sq]
    unfold Circle2.at
    simp only [V2.sub_x, V2.sub_y]
    linear_combination (c.radius ^ 2 * cos t ^ 2) * uu + (c.radius ^ 2 * sin t ^ 2) * vv +
      (2 * c.radius ^ 2 * cos t * sin t) * uv + c.radius ^ 2 * sin_sq_add_cos_sq t
  exact (pow_left_inj₀ (pointDistance_nonneg _ _) hr.le two_ne_zero).1 this

/-! ### Splitting -/

/-- The arc from `a` to `b` is the piece of length `d` of the circle. -/
lemma angle_eq {a b d : ℝ} (ha : 0 ≤ a) (ha' : a < 2 * π) (hb : 0 ≤ b) (hb' : b < 2 * π) (hd : 0 < d) (hd' : d ≤ 2 * π) (n : ℤ)
    (h : b = a + d + n * (2 * π)) : endAfter a b - a = d := by
  obtain ⟨h1, h2, k, hk⟩ := endAfter_range ha ha' hb hb'
  have hp := pi_pos
  have e : endAfter a b - a - d = ((n + k : ℤ) : ℝ) * (2 * π) := by rw [hk, h]; push_cast; ring
  have l1 : ((n + k : ℤ) : ℝ) < 1 := by by_contra hc; push Not at hc; nlinarith
  have l2 : (-1 : ℝ) < ((n + k : ℤ) : ℝ) := by by_contra hc; push Not at hc; nlinarith
  have l1' : n + k < 1 := by exact_mod_cast l1
  have l2' : -1 < n + k := by exact_mod_cast l2
  rw [show n + k = 0 by omega] at e
  simp at e
  linarith

/-- The full claim about splitting, in the plane: for every arc and every point strictly inside, not within the tolerance of the
extremities, the two pieces have lengths adding up to that of the arc. -/
def C57_split_full_statement : Prop :=
  ∀ (c : Circle2), c.Good → ∀ (a b : ℝ) (arc : Arc2), Arc2.make c (c.at a) (c.at b) = .ok arc → ∀ t, 0 < t → t < arc.length →
    ∀ r s, arc.split (arc.pointAtAbscissa t) = .ok (some r, some s) → r.length + s.length = arc.length

/-- **C57 (partial).** Splitting an arc at one of its points gives, when none of the three points is in the tolerance band of
`sin_cos_angle`, two arcs, from the start to the point and from the point to the end, whose angles are those of the two pieces and whose
lengths add up; or the arc itself when the point is within the tolerance of an extremity.  Missing: points in the band. -/
theorem C57_split_partial {c : Circle2} (hc : c.Good) (a b m : ℝ) (ha : Clear a) (hb : Clear b) (hm : Clear m) (arc : Arc2)
    (h : Arc2.make c (c.at a) (c.at b) = .ok arc) (t : ℝ) (ht : 0 < t) (ht' : t < arc.length)
    (hpt : arc.pointAtAbscissa t = c.at m) :
    (isClose2 (c.at m) arc.start (1 / 10 ^ 6) ∧ arc.split (c.at m) = .ok (none, some arc)) ∨
    (isClose2 (c.at m) arc.fin (1 / 10 ^ 6) ∧ arc.split (c.at m) = .ok (some arc, none)) ∨
    ∃ r s, arc.split (c.at m) = .ok (some r, some s) ∧ r.start = arc.start ∧ r.fin = c.at m ∧ s.start = c.at m ∧ s.fin = arc.fin ∧
      r.angle + s.angle = arc.angle ∧ r.length = t ∧ s.length = arc.length - t := by
  have hlen := (C57_angle_range2 _ _ _ _ h).2.2
  have hang := (C57_angle_range2 _ _ _ _ h).2.1
  rw [make_clear hc ha hb] at h
  obtain rfl := Except.ok.inj h
  have hr := hc.pos
  unfold Arc2.split
  dsimp only
  by_cases h1 : isClose2 (c.at m) (c.at a) (1 / 10 ^ 6)
  · left; exact ⟨h1, by rw [if_pos h1]⟩
  by_cases h2 : isClose2 (c.at m) (c.at b) (1 / 10 ^ 6)
  · right; left; exact ⟨h2, by rw [if_neg h1, if_pos h2]⟩
  right; right
  rw [if_neg h1, if_neg h2, make_clear hc ha hm, make_clear hc hm hb]
  refine ⟨_, _, rfl, rfl, rfl, rfl, rfl, ?_⟩
  rw [C57_point_at_abscissa hc a _ rfl rfl] at hpt
  obtain ⟨n, hn⟩ := hc.at_eq_iff.1 hpt.symm
  obtain ⟨e1, e2, k, hk⟩ := endAfter_range ha.1 ha.lt hb.1 hb.lt
  rw [hlen] at ht'
  unfold Arc2.angle at ht' hang
  dsimp only at ht' hang
  set d := endAfter a b - a with hd
  have t0 : 0 < t / c.radius := by positivity
  have t1 : t / c.radius < d := by rw [div_lt_iff₀ hr]; linarith
  have A1 : endAfter a m - a = t / c.radius := angle_eq ha.1 ha.lt hm.1 hm.lt t0 (by linarith) n (by linarith)
  have A2 : endAfter m b - m = d - t / c.radius := by
    refine angle_eq hm.1 hm.lt hb.1 hb.lt (by linarith) (by linarith) (-n - k) ?_
    rw [hn]; push_cast; linarith
  refine ⟨?_, ?_, ?_⟩
  · unfold Arc2.angle; dsimp only; rw [A1, A2]; ring
  · unfold Arc2.length Arc2.angle; dsimp only; rw [A1, abs_of_pos t0]; field_simp
  · rw [hlen]
    unfold Arc2.length Arc2.angle; dsimp only; rw [A2, abs_of_pos (by linarith), ← hd]; field_simp

/-- The unit circle. -/
noncomputable def unitCircle : Circle2 := ⟨⟨⟨0, 0⟩, ⟨⟨1, 0⟩, ⟨0, 1⟩⟩⟩, 1⟩

lemma unitCircle_good : unitCircle.Good := by constructor <;> norm_num [unitCircle]

/-- Not vacuous: the half of the unit circle crossing the seam, split at the seam. -/
example : Clear (3 * π / 2) ∧ Clear (π / 2) ∧ Clear 0 ∧
    ∃ arc, Arc2.make unitCircle (unitCircle.at (3 * π / 2)) (unitCircle.at (π / 2)) = .ok arc ∧ 0 < π / 2 ∧ π / 2 < arc.length ∧
      arc.pointAtAbscissa (π / 2) = unitCircle.at 0 := by
  have hp := pi_pos
  have c1 : Clear (3 * π / 2) := ⟨by positivity, by linarith⟩
  have c2 : Clear (π / 2) := ⟨by positivity, by linarith⟩
  have c3 : Clear 0 := ⟨le_rfl, by linarith⟩
  refine ⟨c1, c2, c3, _, make_clear unitCircle_good c1 c2, by positivity, ?_, ?_⟩
  · unfold Arc2.length Arc2.angle endAfter
    dsimp only
    rw [if_pos (by linarith), show π / 2 + 2 * π - 3 * π / 2 = π by ring, abs_of_pos hp]
    change _ < (1 : ℝ) * π
    linarith
  · rw [C57_point_at_abscissa unitCircle_good _ _ rfl rfl]
    apply unitCircle_good.at_eq_iff.2 ⟨1, ?_⟩
    change 3 * π / 2 + π / 2 / 1 = _
    push_cast; ring

/-- A circle of radius ten million. -/
noncomputable def largeCircle : Circle2 := ⟨⟨⟨0, 0⟩, ⟨⟨1, 0⟩, ⟨0, 1⟩⟩⟩, 10 ^ 7⟩

lemma largeCircle_good : largeCircle.Good := by constructor <;> norm_num [largeCircle]

lemma sinCosAngle_band {t : ℝ} (h0 : (1 - 1 / 10 ^ 9) * (2 * π) ≤ t) (h1 : t < 2 * π) : sinCosAngle (cos t) (sin t) = 0 := by
  obtain ⟨s, ⟨s1, s2, s3, s4⟩, hA, -⟩ := C54_sin_cos_angle (cos t) (sin t) (by rw [add_comm]; exact sin_sq_add_cos_sq t)
  have hp := pi_pos
  have : s = t := angle_unique s1 s2 (by nlinarith) h1 s3 s4
  exact hA (by linarith)

/-- The distance between two points of the large circle whose angles differ by `1e-9` is more than `1e-6`. -/
lemma large_far {x y : ℝ} (hxy : |x - y| = 1 / 10 ^ 9) : ¬isClose2 (largeCircle.at x) (largeCircle.at y) (1 / 10 ^ 6) := by
  rw [isClose2_iff (by norm_num), not_le]
  have hd := largeCircle_good.dist_sq x y
  have hcos : cos (x - y) ≤ 1 - (1 / 10 ^ 9) ^ 2 / 4 := by
    rw [← cos_abs, hxy]
    have := cos_bound (x := (1 / 10 ^ 9 : ℝ)) (by norm_num)
    rw [abs_le] at this
    have h3 := this.2
    norm_num at h3 ⊢
    linarith
  have hrad : largeCircle.radius = 10 ^ 7 := rfl
  rw [hrad] at hd
  have hpos := pointDistance_nonneg (largeCircle.at x) (largeCircle.at y)
  set D := V2.pointDistance (largeCircle.at x) (largeCircle.at y)
  have hD : (1 / 1000 : ℝ) ^ 2 < D ^ 2 := by
    rw [hd]
    have : (10 ^ 7 : ℝ) ^ 2 * ((1 / 10 ^ 9) ^ 2 / 2) ≤ (10 ^ 7) ^ 2 * (2 - 2 * cos (x - y)) :=
      mul_le_mul_of_nonneg_left (by linarith) (by positivity)
    refine lt_of_lt_of_le ?_ this
    norm_num
  have hD' : 1 / 1000 < D := lt_of_pow_lt_pow_left₀ 2 hpos hD
  exact lt_trans (by norm_num) hD'

/-- The claim is false in the band: on a circle of radius ten million, of an arc starting `2e-9` radian before the seam and ending at a
quarter, split half way to the seam (two centimetres, if the unit is the metre, from each), the first piece is a full turn. -/
theorem C57_split_counterexample : ¬C57_split_full_statement := by
  have hp := pi_gt_three
  have hp4 := pi_lt_four
  intro hfull
  have hg := largeCircle_good
  have hrad : largeCircle.radius = 10 ^ 7 := rfl
  have ca : Clear (π / 2) := ⟨by positivity, by linarith⟩
  have pa : largeCircle.pointAngle (largeCircle.at (2 * π - 2 / 10 ^ 9)) = .ok 0 := by
    rw [hg.pointAngle_at, sinCosAngle_band (by linarith) (by linarith [show (0 : ℝ) < 2 / 10 ^ 9 by norm_num])]
  have pm : largeCircle.pointAngle (largeCircle.at (2 * π - 1 / 10 ^ 9)) = .ok 0 := by
    rw [hg.pointAngle_at, sinCosAngle_band (by linarith) (by linarith [show (0 : ℝ) < 1 / 10 ^ 9 by norm_num])]
  have pb := hg.pointAngle_clear ca
  have mk1 : Arc2.make largeCircle (largeCircle.at (2 * π - 2 / 10 ^ 9)) (largeCircle.at (π / 2)) =
      .ok ⟨largeCircle, largeCircle.at (2 * π - 2 / 10 ^ 9), largeCircle.at (π / 2), 0, π / 2⟩ := by
    unfold Arc2.make
    rw [pa, pb]
    change Except.ok _ = _
    rw [show endAfter 0 (π / 2) = π / 2 by unfold endAfter; rw [if_neg (by linarith)]]
  have mk2 : Arc2.make largeCircle (largeCircle.at (2 * π - 2 / 10 ^ 9)) (largeCircle.at (2 * π - 1 / 10 ^ 9)) =
      .ok ⟨largeCircle, largeCircle.at (2 * π - 2 / 10 ^ 9), largeCircle.at (2 * π - 1 / 10 ^ 9), 0, 2 * π⟩ := by
    unfold Arc2.make
    rw [pa, pm]
    change Except.ok _ = _
    rw [show endAfter 0 0 = 2 * π by unfold endAfter; rw [if_pos (le_refl (0 : ℝ)), zero_add]]
  have mk3 : Arc2.make largeCircle (largeCircle.at (2 * π - 1 / 10 ^ 9)) (largeCircle.at (π / 2)) =
      .ok ⟨largeCircle, largeCircle.at (2 * π - 1 / 10 ^ 9), largeCircle.at (π / 2), 0, π / 2⟩ := by
    unfold Arc2.make
    rw [pm, pb]
    change Except.ok _ = _
    rw [show endAfter 0 (π / 2) = π / 2 by unfold endAfter; rw [if_neg (by linarith)]]
  have hlen : ∀ c p q, Arc2.length ⟨largeCircle, p, q, 0, c⟩ = 10 ^ 7 * |c| := by
    intro c p q
    unfold Arc2.length Arc2.angle
    dsimp only
    rw [sub_zero, hrad]
  have hpt : Arc2.pointAtAbscissa ⟨largeCircle, largeCircle.at (2 * π - 2 / 10 ^ 9), largeCircle.at (π / 2), 0, π / 2⟩ (1 / 100) =
      largeCircle.at (2 * π - 1 / 10 ^ 9) := by
    rw [C57_point_at_abscissa hg _ _ rfl rfl, hrad]
    congr 1
    norm_num
    ring
  have hfar2 : ¬isClose2 (largeCircle.at (2 * π - 1 / 10 ^ 9)) (largeCircle.at (π / 2)) (1 / 10 ^ 6) := by
    rw [isClose2_iff (by norm_num), not_le]
    have hd := hg.dist_sq (2 * π - 1 / 10 ^ 9) (π / 2)
    have hcos : cos (2 * π - 1 / 10 ^ 9 - π / 2) ≤ 0 := by
      rw [show 2 * π - 1 / 10 ^ 9 - π / 2 = 2 * π - (1 / 10 ^ 9 + π / 2) by ring, cos_two_pi_sub]
      apply cos_nonpos_of_pi_div_two_le_of_le
      · norm_num
      · linarith
    rw [hrad] at hd
    have hpos := pointDistance_nonneg (largeCircle.at (2 * π - 1 / 10 ^ 9)) (largeCircle.at (π / 2))
    set D := V2.pointDistance (largeCircle.at (2 * π - 1 / 10 ^ 9)) (largeCircle.at (π / 2))
    have hD : (1 : ℝ) ^ 2 < D ^ 2 := by
      rw [hd]
      have : (10 ^ 7 : ℝ) ^ 2 * 2 ≤ (10 ^ 7) ^ 2 * (2 - 2 * cos (2 * π - 1 / 10 ^ 9 - π / 2)) :=
        mul_le_mul_of_nonneg_left (by linarith) (by positivity)
      refine lt_of_lt_of_le ?_ this
      norm_num
    have hD' : 1 < D := lt_of_pow_lt_pow_left₀ 2 hpos hD
    exact lt_trans (by norm_num) hD'
  have := hfull largeCircle hg _ _ _ mk1 (1 / 100) (by norm_num) (by
    rw [hlen, abs_of_pos (by linarith)]; norm_num; linarith) ⟨largeCircle, largeCircle.at (2 * π - 2 / 10 ^ 9), largeCircle.at (2 * π - 1 / 10 ^ 9), 0, 2 * π⟩
    ⟨largeCircle, largeCircle.at (2 * π - 1 / 10 ^ 9), largeCircle.at (π / 2), 0, π / 2⟩ (by
      rw [hpt]
      unfold Arc2.split
      dsimp only
      rw [if_neg (large_far (by norm_num)), if_neg hfar2, mk2, mk3]
      rfl)
  rw [hlen, hlen, hlen, abs_of_pos (by linarith), abs_of_pos (by linarith)] at this
  nlinarith

/-! ### Area -/

/-- **C57.** `straight_line_area` is the area of the sector minus that of the triangle of the centre and the chord: in both branches half
of the square of the radius times `angle - sin angle`, signed by the direction; equivalently `± r² angle / 2` minus half of the cross
product of the radii of the extremities. -/
theorem C57_straight_line_area {c : Circle2} (hc : c.Good) (a b : ℝ) (ha : Clear a) (hb : Clear b) :
    ∃ arc, Arc2.make c (c.at a) (c.at b) = .ok arc ∧
      arc.straightLineArea = c.sign * (c.radius ^ 2 * arc.angle / 2) - V2.cross (arc.start - c.frame.origin) (arc.fin - c.frame.origin) / 2 := by
  refine ⟨_, make_clear hc ha hb, ?_⟩
  obtain ⟨e1, e2, k, hk⟩ := endAfter_range ha.1 ha.lt hb.1 hb.lt
  have hang : Arc2.angle ⟨c, c.at a, c.at b, a, endAfter a b⟩ = b + k * (2 * π) - a := by unfold Arc2.angle; dsimp only; rw [hk]
  have hsin : sin (b + k * (2 * π) - a) = sin (b - a) := by
    rw [show b + k * (2 * π) - a = b - a + k * (2 * π) by ring, sin_add_int_mul_two_pi]
  unfold Arc2.straightLineArea
  rw [hang]
  dsimp only
  have harea : (if b + k * (2 * π) - a ≥ π then
      π * c.radius ^ 2 - 1 / 2 * c.radius ^ 2 * (2 * π - (b + k * (2 * π) - a) - sin (2 * π - (b + k * (2 * π) - a)))
      else 1 / 2 * c.radius ^ 2 * (b + k * (2 * π) - a - sin (b + k * (2 * π) - a))) =
      1 / 2 * c.radius ^ 2 * (b + k * (2 * π) - a - sin (b - a)) := by
    split_ifs
    · rw [sin_two_pi_sub, hsin]; ring
    · rw [hsin]
  rw [harea]
  have hcross : V2.cross (c.at a - c.frame.origin) (c.at b - c.frame.origin) = c.sign * c.radius ^ 2 * sin (b - a) := by
    rw [sin_sub]
    unfold V2.cross Circle2.at Circle2.sign V2.cross
    simp only [V2.sub_x, V2.sub_y]
    ring
  rw [hcross]
  by_cases ht : c.IsTrigo
  · rw [if_pos ht, hc.trigo_iff.1 ht]; ring
  · rw [if_neg ht, hc.not_trigo_iff.1 ht]; ring

end Volmdlr.Arc
