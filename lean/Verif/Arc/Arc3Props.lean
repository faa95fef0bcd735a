import Verif.Arc.BelongsProps
import Verif.Solid.CylOps

/-!
# Arcs of circles in space: `Arc3D` (C97)
-/

namespace Volmdlr.Arc

open Real Volmdlr.Angle Volmdlr.Surface Volmdlr.Solid

/-- A circle of space in a direct orthonormal frame. -/
structure Circle3.Good (c : Circle3) : Prop where
  direct : DirectOrthonormal c.frame.basis
  pos : 0 < c.radius

/-- The point of the circle at an angle: `center + r cos θ u + r sin θ v` (specification). -/
noncomputable def Circle3.at (c : Circle3) (t : ℝ) : V3 ℝ :=
  c.frame.origin + V3.smul (c.radius * cos t) c.frame.basis.u + V3.smul (c.radius * sin t) c.frame.basis.v

/-- An angle outside of the tolerance bands: not in the last `1e-9` of the turn, and whose local coordinates are not in the band
flushed to zero. -/
def Circle3.Clear (c : Circle3) (t : ℝ) : Prop := Arc.Clear t ∧ NotTiny (c.radius * cos t) ∧ NotTiny (c.radius * sin t)

lemma direct_cross {b : Basis3 ℝ} (h : DirectOrthonormal b) : V3.cross b.w b.u = b.v ∧ V3.cross b.w b.v = -b.u ∧ V3.cross b.u b.v = b.w := by
  obtain ⟨uu, vv, ww, uv, uw, vw, hd⟩ := h
  obtain ⟨⟨ux, uy, uz⟩, ⟨vx, vy, vz⟩, ⟨wx, wy, wz⟩⟩ := b
  simp only [V3.dot, V3.cross] at *
  have key : (uy * vz - uz * vy - wx) ^ 2 + (uz * vx - ux * vz - wy) ^ 2 + (ux * vy - uy * vx - wz) ^ 2 = 0 := by
    have e : (uy * vz - uz * vy) ^ 2 + (uz * vx - ux * vz) ^ 2 + (ux * vy - uy * vx) ^ 2 = 1 := by
      have : (uy * vz - uz * vy) ^ 2 + (uz * vx - ux * vz) ^ 2 + (ux * vy - uy * vx) ^ 2 =
        (ux * ux + uy * uy + uz * uz) * (vx * vx + vy * vy + vz * vz) - (ux * vx + uy * vy + uz * vz) ^ 2 := by ring
      rw [this, uu, vv, uv]; norm_num
    linear_combination e - 2 * hd + ww
  have hx : uy * vz - uz * vy = wx := by nlinarith [sq_nonneg (uy * vz - uz * vy - wx), sq_nonneg (uz * vx - ux * vz - wy), sq_nonneg (ux * vy - uy * vx - wz)]
  have hy : uz * vx - ux * vz = wy := by nlinarith [sq_nonneg (uy * vz - uz * vy - wx), sq_nonneg (uz * vx - ux * vz - wy), sq_nonneg (ux * vy - uy * vx - wz)]
  have hz : ux * vy - uy * vx = wz := by nlinarith [sq_nonneg (uy * vz - uz * vy - wx), sq_nonneg (uz * vx - ux * vz - wy), sq_nonneg (ux * vy - uy * vx - wz)]
  refine ⟨?_, ?_, ?_⟩
  · ext <;> simp only <;> subst hx hy hz
    · linear_combination vx * uu - ux * uv
    · linear_combination vy * uu - uy * uv
    · linear_combination vz * uu - uz * uv
  · ext <;> simp only [V3.neg_x, V3.neg_y, V3.neg_z] <;> subst hx hy hz
    · linear_combination -ux * vv + vx * uv
    · linear_combination -uy * vv + vy * uv
    · linear_combination -uz * vv + vz * uv
  · ext <;> simp only <;> assumption

/-- Turning a point of the circle about its axis adds to its angle. -/
lemma Circle3.Good.rotation_at {c : Circle3} (h : c.Good) (t p : ℝ) :
    V3.rotation (c.at t) c.frame.origin c.frame.basis.w p = c.at (t + p) := by
  obtain ⟨h1, h2, -⟩ := direct_cross h.direct
  obtain ⟨uu, vv, ww, uv, uw, vw, -⟩ := h.direct
  have ax := congrArg V3.x h1
  have ay := congrArg V3.y h1
  have az := congrArg V3.z h1
  have bx := congrArg V3.x h2
  have by' := congrArg V3.y h2
  have bz := congrArg V3.z h2
  unfold V3.rotation V3.rotationCS Circle3.at
  simp only [V3.cross, V3.dot, V3.neg_x, V3.neg_y, V3.neg_z] at *
  rw [cos_add, sin_add]
  ext
  · simp only [V3.add_x, V3.add_y, V3.add_z, V3.sub_x, V3.sub_y, V3.sub_z, V3.smul_x, V3.smul_y, V3.smul_z]
    linear_combination sin p * c.radius * (cos t * ax + sin t * bx) + (1 - cos p) * c.radius * c.frame.basis.w.x * (cos t * uw + sin t * vw)
  · simp only [V3.add_x, V3.add_y, V3.add_z, V3.sub_x, V3.sub_y, V3.sub_z, V3.smul_x, V3.smul_y, V3.smul_z]
    linear_combination sin p * c.radius * (cos t * ay + sin t * by') + (1 - cos p) * c.radius * c.frame.basis.w.y * (cos t * uw + sin t * vw)
  · simp only [V3.add_x, V3.add_y, V3.add_z, V3.sub_x, V3.sub_y, V3.sub_z, V3.smul_x, V3.smul_y, V3.smul_z]
    linear_combination sin p * c.radius * (cos t * az + sin t * bz) + (1 - cos p) * c.radius * c.frame.basis.w.z * (cos t * uw + sin t * vw)

lemma coord_unique {f : Frame3 ℝ} (ho : Orthonormal3 f.basis) {q q' : V3 ℝ} (h : pt f q = pt f q') : q = q' := by
  obtain ⟨h1, h2, h3, h4, h5, h6⟩ := ho
  unfold pt at h
  have hx := congrArg V3.x h
  have hy := congrArg V3.y h
  have hz := congrArg V3.z h
  simp only [V3.add_x, V3.add_y, V3.add_z, V3.smul_x, V3.smul_y, V3.smul_z, V3.dot] at *
  ext
  · linear_combination f.basis.u.x * hx + f.basis.u.y * hy + f.basis.u.z * hz - (q.x - q'.x) * h1 - (q.y - q'.y) * h4 - (q.z - q'.z) * h5
  · linear_combination f.basis.v.x * hx + f.basis.v.y * hy + f.basis.v.z * hz - (q.x - q'.x) * h4 - (q.y - q'.y) * h2 - (q.z - q'.z) * h6
  · linear_combination f.basis.w.x * hx + f.basis.w.y * hy + f.basis.w.z * hz - (q.x - q'.x) * h5 - (q.y - q'.y) * h6 - (q.z - q'.z) * h3

lemma at_pt (c : Circle3) (t : ℝ) : c.at t = pt c.frame ⟨c.radius * cos t, c.radius * sin t, 0⟩ := by
  unfold Circle3.at pt
  ext <;> simp

lemma Circle3.Good.pointAngle_clear {c : Circle3} (h : c.Good) {t : ℝ} (ht : c.Clear t) : c.pointAngle (c.at t) = .ok t := by
  have ho := direct_orthonormal h.direct
  obtain ⟨q, hq, hl⟩ := globalToLocal_flush c.frame (orthonormal_invertible ho) (c.at t)
  rw [at_pt] at hq
  have := coord_unique ho hq
  subst this
  unfold Circle3.pointAngle
  rw [hl]
  change (if c.radius = 0 then _ else _) = _
  rw [if_neg h.pos.ne']
  change Except.ok (sinCosAngle (flush (c.radius * cos t) / c.radius) (flush (c.radius * sin t) / c.radius)) = _
  rw [flush_of_notTiny ht.2.1, flush_of_notTiny ht.2.2, mul_div_cancel_left₀ _ h.pos.ne', mul_div_cancel_left₀ _ h.pos.ne',
    C54_sin_cos_angle_eq t ht.1.1 ht.1.2]

lemma make3_clear {c : Circle3} (h : c.Good) {a b : ℝ} (ha : c.Clear a) (hb : c.Clear b) :
    Arc3.make c (c.at a) (c.at b) = .ok ⟨c, c.at a, c.at b, a, endAfter a b⟩ := by
  unfold Arc3.make
  rw [h.pointAngle_clear ha, h.pointAngle_clear hb]
  rfl

lemma Circle3.at_period (c : Circle3) {x y : ℝ} (h : ∃ n : ℤ, x = y + n * (2 * π)) : c.at x = c.at y := by
  obtain ⟨h1, h2⟩ := cos_sin_eq_iff.2 h
  unfold Circle3.at
  rw [h1, h2]

lemma Circle3.Good.at_inj {c : Circle3} (h : c.Good) {x y : ℝ} (he : c.at x = c.at y) : ∃ n : ℤ, x = y + n * (2 * π) := by
  rw [at_pt, at_pt] at he
  have := coord_unique (direct_orthonormal h.direct) he
  have h1 := congrArg V3.x this
  have h2 := congrArg V3.y this
  dsimp only at h1 h2
  exact cos_sin_eq_iff.1 ⟨mul_left_cancel₀ h.pos.ne' h1, mul_left_cancel₀ h.pos.ne' h2⟩

/-- C97: for every abscissa up to the length (and the tolerance) the point at this abscissa is the point of the circle at the angle of the start plus
`s / radius`; beyond it is refused. -/
theorem C97_point_at_abscissa {c : Circle3} (h : c.Good) (a : ℝ) (arc : Arc3) (h1 : arc.circle = c) (h2 : arc.start = c.at a) (s : ℝ) :
    (s ≤ c.radius * |arc.angle| + 1 / 10 ^ 6 → arc.pointAtAbscissa s = .ok (c.at (a + s / c.radius))) ∧
      (c.radius * |arc.angle| + 1 / 10 ^ 6 < s → arc.pointAtAbscissa s = .error .valueError) := by
  unfold Arc3.pointAtAbscissa Arc3.length
  rw [h1, h2]
  constructor
  · intro hs
    rw [if_neg (not_lt.2 hs), h.rotation_at]
  · intro hs
    rw [if_pos hs]

/-- C97: outside of the tolerance bands the angle of an arc is in `(0, 2π]`, its end is the point at abscissa `length`, and its points are at the
distance `radius` from the centre, in the plane of the circle. -/
theorem C97_end {c : Circle3} (h : c.Good) (a b : ℝ) (ha : c.Clear a) (hb : c.Clear b) :
    ∃ arc, Arc3.make c (c.at a) (c.at b) = .ok arc ∧ arc.start = c.at a ∧ arc.fin = c.at b ∧ 0 < arc.angle ∧ arc.angle ≤ 2 * π ∧
      arc.length = c.radius * arc.angle ∧ arc.pointAtAbscissa 0 = .ok (c.at a) ∧ arc.pointAtAbscissa arc.length = .ok (c.at b) ∧
      ∀ s p, arc.pointAtAbscissa s = .ok p → V3.pointDistance p c.frame.origin = c.radius ∧ V3.dot (p - c.frame.origin) c.frame.basis.w = 0 := by
  have h3 := endAfter_range ha.1.1 ha.1.lt hb.1.1 hb.1.lt
  have hlen : (⟨c, c.at a, c.at b, a, endAfter a b⟩ : Arc3).length = c.radius * (endAfter a b - a) := by
    unfold Arc3.length Arc3.angle; dsimp only; rw [abs_of_pos h3.1]
  refine ⟨_, make3_clear h ha hb, rfl, rfl, h3.1, h3.2.1, hlen, ?_, ?_, ?_⟩
  · rw [(C97_point_at_abscissa h a _ rfl rfl 0).1 (add_nonneg (mul_nonneg h.pos.le (abs_nonneg _)) (by norm_num)), zero_div, add_zero]
  · rw [(C97_point_at_abscissa h a (⟨c, c.at a, c.at b, a, endAfter a b⟩ : Arc3) rfl rfl (Arc3.length _)).1 (le_add_of_nonneg_right (by norm_num)), hlen, mul_div_cancel_left₀ _ h.pos.ne']
    congr 1
    obtain ⟨k, hk⟩ := h3.2.2
    exact c.at_period ⟨k, by rw [hk]; ring⟩
  · intro s p hp
    by_cases hs : s ≤ c.radius * |(⟨c, c.at a, c.at b, a, endAfter a b⟩ : Arc3).angle| + 1 / 10 ^ 6
    · rw [(C97_point_at_abscissa h a _ rfl rfl s).1 hs] at hp
      obtain rfl := Except.ok.inj hp
      generalize a + s / c.radius = t
      obtain ⟨uu, vv, ww, uv, uw, vw, -⟩ := h.direct
      have hsc := sin_sq_add_cos_sq t
      simp only [V3.dot] at uu vv uv uw vw
      constructor
      · have h0 : 0 ≤ V3.pointDistance (c.at t) c.frame.origin := sqrt_nonneg _
        refine (sq_eq_sq₀ h0 h.pos.le).1 ?_
        unfold V3.pointDistance
        rw [V3.norm_pow_two]
        simp only [Circle3.at, V3.dot, V3.sub_x, V3.sub_y, V3.sub_z, V3.add_x, V3.add_y, V3.add_z, V3.smul_x, V3.smul_y, V3.smul_z]
        linear_combination c.radius ^ 2 * (cos t ^ 2 * uu + sin t ^ 2 * vv + 2 * sin t * cos t * uv + hsc)
      · simp only [Circle3.at, V3.dot, V3.sub_x, V3.sub_y, V3.sub_z, V3.add_x, V3.add_y, V3.add_z, V3.smul_x, V3.smul_y, V3.smul_z]
        linear_combination c.radius * (cos t * uw + sin t * vw)
    · rw [(C97_point_at_abscissa h a _ rfl rfl s).2 (not_le.1 hs)] at hp
      cases hp

/-- C97: outside of the tolerance bands, and farther than the tolerance from the ends, `abscissa` is the inverse of `point_at_abscissa`. -/
theorem C97_abscissa {c : Circle3} (h : c.Good) (a b m : ℝ) (ha : c.Clear a) (hb : c.Clear b) (hm : c.Clear m) (arc : Arc3)
    (hmk : Arc3.make c (c.at a) (c.at b) = .ok arc) (t : ℝ) (ht : 0 < t) (ht' : t < arc.length) (hpt : arc.pointAtAbscissa t = .ok (c.at m)) (tol : ℝ)
    (h1 : tol < V3.pointDistance (c.at m) arc.start) (h2 : tol < V3.pointDistance (c.at m) arc.fin) :
    arc.abscissa (c.at m) tol = .ok t := by
  have hr := h.pos
  rw [make3_clear h ha hb] at hmk
  obtain rfl := Except.ok.inj hmk
  obtain ⟨e1, e2, k, hk⟩ := endAfter_range ha.1.1 ha.1.lt hb.1.1 hb.1.lt
  unfold Arc3.length Arc3.angle at ht'
  dsimp only at ht' h1 h2
  rw [abs_of_pos e1] at ht'
  rw [(C97_point_at_abscissa h a _ rfl rfl t).1 (by unfold Arc3.angle; dsimp only; rw [abs_of_pos e1]; norm_num; linarith)] at hpt
  obtain ⟨n, hn⟩ := h.at_inj (Except.ok.inj hpt).symm
  unfold Arc3.abscissa
  dsimp only
  rw [if_neg (not_le.2 h1), if_neg (not_le.2 h2)]
  unfold Arc3.arcPointAngle
  rw [h.pointAngle_clear hm]
  set d := endAfter a b - a with hd
  have t0 : 0 < t / c.radius := by positivity
  have t1 : t / c.radius < d := by rw [div_lt_iff₀ hr]; linarith
  have A1 : endAfter a m - a = t / c.radius := angle_eq ha.1.1 ha.1.lt hm.1.1 hm.1.lt t0 (by linarith) n (by linarith)
  have hne : a ≠ m := by
    intro e
    subst e
    unfold endAfter at A1
    rw [if_pos le_rfl] at A1
    linarith
  have hang : (if a > m then m + 2 * π else m) = endAfter a m := by
    unfold endAfter
    rcases lt_or_gt_of_ne hne with hlt | hlt
    · rw [if_neg (not_lt.2 hlt.le), if_neg (not_le.2 hlt)]
    · rw [if_pos hlt, if_pos hlt.le]
  change (if ¬(a ≤ (if a > m then m + 2 * π else m) ∧ (if a > m then m + 2 * π else m) ≤ endAfter a b) then _ else
    Except.ok (c.radius * |(if a > m then m + 2 * π else m) - a|)) = _
  rw [hang, if_neg (by rw [not_not]; constructor <;> linarith), A1, abs_of_pos t0]
  congr 1
  field_simp

/-- C97: splitting an arc of space at one of its points, outside of the tolerance bands: two arcs, from the start to the point and from the point to
the end, whose angles and lengths add up, or the arc itself when the point is within the tolerance of an end. -/
theorem C97_split {c : Circle3} (h : c.Good) (a b m : ℝ) (ha : c.Clear a) (hb : c.Clear b) (hm : c.Clear m) (arc : Arc3)
    (hmk : Arc3.make c (c.at a) (c.at b) = .ok arc) (t : ℝ) (ht : 0 < t) (ht' : t < arc.length) (hpt : arc.pointAtAbscissa t = .ok (c.at m)) :
    (isClose3 (c.at m) arc.start (1 / 10 ^ 6) ∧ arc.split (c.at m) = .ok (none, some arc)) ∨
    (isClose3 (c.at m) arc.fin (1 / 10 ^ 6) ∧ arc.split (c.at m) = .ok (some arc, none)) ∨
    ∃ r s, arc.split (c.at m) = .ok (some r, some s) ∧ r.start = arc.start ∧ r.fin = c.at m ∧ s.start = c.at m ∧ s.fin = arc.fin ∧
      r.angle + s.angle = arc.angle ∧ r.length = t ∧ s.length = arc.length - t := by
  have hr := h.pos
  rw [make3_clear h ha hb] at hmk
  obtain rfl := Except.ok.inj hmk
  obtain ⟨e1, e2, k, hk⟩ := endAfter_range ha.1.1 ha.1.lt hb.1.1 hb.1.lt
  have hlen : (⟨c, c.at a, c.at b, a, endAfter a b⟩ : Arc3).length = c.radius * (endAfter a b - a) := by
    unfold Arc3.length Arc3.angle; dsimp only; rw [abs_of_pos e1]
  rw [hlen] at ht'
  rw [(C97_point_at_abscissa h a _ rfl rfl t).1 (by unfold Arc3.angle; dsimp only; rw [abs_of_pos e1]; norm_num; linarith)] at hpt
  obtain ⟨n, hn⟩ := h.at_inj (Except.ok.inj hpt).symm
  unfold Arc3.split
  dsimp only
  by_cases h1 : isClose3 (c.at m) (c.at a) (1 / 10 ^ 6)
  · left; exact ⟨h1, by rw [if_pos h1]⟩
  by_cases h2 : isClose3 (c.at m) (c.at b) (1 / 10 ^ 6)
  · right; left; exact ⟨h2, by rw [if_neg h1, if_pos h2]⟩
  right; right
  rw [if_neg h1, if_neg h2, make3_clear h ha hm, make3_clear h hm hb]
  refine ⟨_, _, rfl, rfl, rfl, rfl, rfl, ?_⟩
  set d := endAfter a b - a with hd
  have t0 : 0 < t / c.radius := by positivity
  have t1 : t / c.radius < d := by rw [div_lt_iff₀ hr]; linarith
  have A1 : endAfter a m - a = t / c.radius := angle_eq ha.1.1 ha.1.lt hm.1.1 hm.1.lt t0 (by linarith) n (by linarith)
  have A2 : endAfter m b - m = d - t / c.radius := by
    refine angle_eq hm.1.1 hm.1.lt hb.1.1 hb.1.lt (by linarith) (by linarith) (-n - k) ?_
    rw [hn]; push_cast; linarith
  refine ⟨?_, ?_, ?_⟩
  · unfold Arc3.angle; dsimp only; rw [A1, A2]; ring
  · unfold Arc3.length Arc3.angle; dsimp only; rw [A1, abs_of_pos t0]; field_simp
  · rw [hlen]
    unfold Arc3.length Arc3.angle; dsimp only; rw [A2, abs_of_pos (by linarith)]; field_simp

/-- A circle of radius two in a turned frame. -/
noncomputable def exCircle3 : Circle3 := ⟨⟨⟨1, 2, 3⟩, ⟨⟨3 / 5, 4 / 5, 0⟩, ⟨-4 / 5, 3 / 5, 0⟩, ⟨0, 0, 1⟩⟩⟩, 2⟩

-- the half circle of radius two from the angle 0, split at the quarter, meets the hypotheses
example : exCircle3.Good ∧ exCircle3.Clear 0 ∧ exCircle3.Clear π ∧ exCircle3.Clear (π / 2) ∧
    ∃ arc, Arc3.make exCircle3 (exCircle3.at 0) (exCircle3.at π) = .ok arc ∧ 0 < π ∧ π < arc.length ∧ arc.pointAtAbscissa π = .ok (exCircle3.at (π / 2)) := by
  have hp := pi_pos
  have hg : exCircle3.Good := ⟨by norm_num [DirectOrthonormal, exCircle3, V3.dot, V3.cross], by norm_num [exCircle3]⟩
  have hr : exCircle3.radius = 2 := rfl
  have c0 : exCircle3.Clear 0 := ⟨⟨le_rfl, by positivity⟩, by rw [hr, cos_zero]; right; norm_num, by rw [hr, sin_zero]; left; norm_num⟩
  have c1 : exCircle3.Clear π := ⟨⟨hp.le, by linarith⟩, by rw [hr, cos_pi]; right; norm_num, by rw [hr, sin_pi]; left; norm_num⟩
  have c2 : exCircle3.Clear (π / 2) := ⟨⟨by positivity, by linarith⟩, by rw [hr, cos_pi_div_two]; left; norm_num, by rw [hr, sin_pi_div_two]; right; norm_num⟩
  have hl : (⟨exCircle3, exCircle3.at 0, exCircle3.at π, 0, endAfter 0 π⟩ : Arc3).length = 2 * π := by
    unfold Arc3.length Arc3.angle endAfter
    dsimp only
    rw [if_neg (not_le.2 hp), sub_zero, abs_of_pos hp, hr]
  refine ⟨hg, c0, c1, c2, _, make3_clear hg c0 c1, hp, by rw [hl]; linarith, ?_⟩
  rw [(C97_point_at_abscissa hg 0 _ rfl rfl π).1 (by
      have e : exCircle3.radius * |(⟨exCircle3, exCircle3.at 0, exCircle3.at π, 0, endAfter 0 π⟩ : Arc3).angle| = 2 * π := hl
      rw [e]; norm_num; linarith), hr, zero_add]

/-- The foot of the perpendicular from a point to an axis of unit direction (specification). -/
noncomputable def footOnAxis (start axisPoint axis : V3 ℝ) : V3 ℝ := axisPoint + V3.smul (V3.dot (start - axisPoint) axis) axis

lemma fromAngle_eq (start : V3 ℝ) (angle : ℝ) (axisPoint axis : V3 ℝ) (ha : V3.dot axis axis = 1) :
    Arc3.fromAngle start angle axisPoint axis = some (Arc3.make ⟨⟨footOnAxis start axisPoint axis,
      ⟨start - footOnAxis start axisPoint axis, V3.cross axis (start - footOnAxis start axisPoint axis), axis⟩⟩,
      V3.pointDistance (footOnAxis start axisPoint axis) start⟩ start (V3.rotation start axisPoint axis angle)) := by
  have hv : axisPoint + axis - axisPoint = axis := by ext <;> simp
  have hn : V3.norm axis ^ 2 = 1 := by rw [V3.norm_pow_two]; exact ha
  unfold Arc3.fromAngle pointProjection3
  simp only [hv, hn, one_ne_zero, if_false, div_one, Option.map_some]
  rfl

/-- The full claim: the arc built from a start, an angle and an axis goes from the start to its image by the rotation, and its angle is the given one. -/
def C97_from_angle_full_statement : Prop :=
  ∀ (start : V3 ℝ) (angle : ℝ) (axisPoint axis : V3 ℝ), V3.dot axis axis = 1 → 1 / 10 ^ 6 < V3.pointDistance (footOnAxis start axisPoint axis) start →
    1 / 10 ^ 6 < angle → angle < 2 * π - 1 / 10 ^ 6 →
    ∃ arc, Arc3.fromAngle start angle axisPoint axis = some (.ok arc) ∧ arc.start = start ∧ arc.fin = V3.rotation start axisPoint axis angle ∧
      arc.angle = angle

/-- C97: for a start at distance one of the axis, and outside of the tolerance bands, `from_angle` gives the arc of the given angle from the start to its
image.  Missing: at any other distance the frame of the circle has a first vector which is not a unit vector, and the angles are wrong
(`C97_from_angle_counterexample`). -/
theorem C97_from_angle_partial (start : V3 ℝ) (angle : ℝ) (axisPoint axis : V3 ℝ) (ha : V3.dot axis axis = 1)
    (hd : V3.pointDistance (footOnAxis start axisPoint axis) start = 1) (h0 : 0 < angle) (hang : Arc.Clear angle) (hc : NotTiny (cos angle))
    (hs : NotTiny (sin angle)) :
    ∃ arc, Arc3.fromAngle start angle axisPoint axis = some (.ok arc) ∧ arc.start = start ∧ arc.fin = V3.rotation start axisPoint axis angle ∧
      arc.angle = angle ∧ arc.length = angle ∧ arc.circle.Good ∧ arc.circle.frame.basis.w = axis ∧
      V3.dot (arc.circle.frame.origin - axisPoint) (arc.circle.frame.origin - axisPoint) =
        V3.dot (arc.circle.frame.origin - axisPoint) axis ^ 2 := by
  obtain ⟨f, hf⟩ : ∃ f, f = footOnAxis start axisPoint axis := ⟨_, rfl⟩
  obtain ⟨u, hu⟩ : ∃ u, u = start - f := ⟨_, rfl⟩
  have huu : V3.dot u u = 1 := by
    have : V3.pointDistance f start ^ 2 = 1 := by rw [hf, hd]; norm_num
    unfold V3.pointDistance at this
    rw [V3.norm_pow_two] at this
    rw [hu, ← this]
    simp only [V3.dot, V3.sub_x, V3.sub_y, V3.sub_z]; ring
  have hua : V3.dot u axis = 0 := by
    rw [hu, hf]
    unfold footOnAxis
    simp only [V3.dot, V3.sub_x, V3.sub_y, V3.sub_z, V3.add_x, V3.add_y, V3.add_z, V3.smul_x, V3.smul_y, V3.smul_z] at *
    linear_combination -((start.x - axisPoint.x) * axis.x + (start.y - axisPoint.y) * axis.y + (start.z - axisPoint.z) * axis.z) * ha
  have hg : Circle3.Good ⟨⟨f, ⟨u, V3.cross axis u, axis⟩⟩, 1⟩ := by
    refine ⟨?_, one_pos⟩
    unfold DirectOrthonormal
    simp only [V3.dot, V3.cross] at *
    refine ⟨huu, ?_, ha, ?_, hua, ?_, ?_⟩
    · linear_combination (axis.x * axis.x + axis.y * axis.y + axis.z * axis.z) * huu + ha - (u.x * axis.x + u.y * axis.y + u.z * axis.z) * hua
    · ring
    · ring
    · linear_combination (axis.x * axis.x + axis.y * axis.y + axis.z * axis.z) * huu + ha - (u.x * axis.x + u.y * axis.y + u.z * axis.z) * hua
  have hst : start = Circle3.at ⟨⟨f, ⟨u, V3.cross axis u, axis⟩⟩, 1⟩ 0 := by
    unfold Circle3.at
    rw [hu]
    ext <;> simp
  have hrot : V3.rotation start axisPoint axis angle = Circle3.at ⟨⟨f, ⟨u, V3.cross axis u, axis⟩⟩, 1⟩ angle := by
    have h1 := hg.rotation_at 0 angle
    rw [zero_add, ← hst] at h1
    rw [← h1]
    dsimp only
    rw [hf]
    unfold V3.rotation V3.rotationCS footOnAxis
    simp only [V3.dot, V3.cross, V3.sub_x, V3.sub_y, V3.sub_z, V3.add_x, V3.add_y, V3.add_z, V3.smul_x, V3.smul_y, V3.smul_z] at *
    generalize cos angle = co
    generalize sin angle = si
    ext <;> dsimp only
    · linear_combination (1 - co) * ((start.x - axisPoint.x) * axis.x + (start.y - axisPoint.y) * axis.y + (start.z - axisPoint.z) * axis.z) * axis.x * ha
    · linear_combination (1 - co) * ((start.x - axisPoint.x) * axis.x + (start.y - axisPoint.y) * axis.y + (start.z - axisPoint.z) * axis.z) * axis.y * ha
    · linear_combination (1 - co) * ((start.x - axisPoint.x) * axis.x + (start.y - axisPoint.y) * axis.y + (start.z - axisPoint.z) * axis.z) * axis.z * ha
  have c0 : Circle3.Clear ⟨⟨f, ⟨u, V3.cross axis u, axis⟩⟩, 1⟩ 0 :=
    ⟨⟨le_rfl, by have := pi_pos; positivity⟩, by rw [cos_zero]; right; norm_num, by rw [sin_zero]; left; norm_num⟩
  have c1 : Circle3.Clear ⟨⟨f, ⟨u, V3.cross axis u, axis⟩⟩, 1⟩ angle := ⟨hang, by rw [one_mul]; exact hc, by rw [one_mul]; exact hs⟩
  have hmk := make3_clear hg c0 c1
  rw [fromAngle_eq start angle axisPoint axis ha, hd, ← hf, ← hu]
  have e : endAfter 0 angle = angle := by unfold endAfter; rw [if_neg (not_le.2 h0)]
  rw [e, ← hst, ← hrot] at hmk
  refine ⟨_, congrArg some hmk, rfl, rfl, ?_, ?_, hg, rfl, ?_⟩
  · unfold Arc3.angle; dsimp only; ring
  · unfold Arc3.length Arc3.angle; dsimp only; rw [sub_zero, abs_of_pos h0, one_mul]
  · dsimp only
    rw [hf]
    unfold footOnAxis
    simp only [V3.dot, V3.sub_x, V3.sub_y, V3.sub_z, V3.add_x, V3.add_y, V3.add_z, V3.smul_x, V3.smul_y, V3.smul_z] at *
    generalize (start.x - axisPoint.x) * axis.x + (start.y - axisPoint.y) * axis.y + (start.z - axisPoint.z) * axis.z = k
    linear_combination k ^ 2 * ha - k ^ 2 * (axis.x * axis.x + axis.y * axis.y + axis.z * axis.z + 1) * ha

/-- C97: the quarter of turn of the point `(2, 0, 0)` about the axis of `z` gives an arc whose angle is `π / 6`. -/
theorem C97_from_angle_counterexample : ¬C97_from_angle_full_statement := by
  intro h
  have hp := pi_gt_three
  have hf : footOnAxis ⟨2, 0, 0⟩ ⟨0, 0, 0⟩ ⟨0, 0, 1⟩ = ⟨0, 0, 0⟩ := by unfold footOnAxis; ext <;> simp [V3.dot]
  have hd : V3.pointDistance (⟨0, 0, 0⟩ : V3 ℝ) ⟨2, 0, 0⟩ = 2 := by
    have h0 : 0 ≤ V3.pointDistance (⟨0, 0, 0⟩ : V3 ℝ) ⟨2, 0, 0⟩ := sqrt_nonneg _
    refine (sq_eq_sq₀ h0 (by norm_num)).1 ?_
    unfold V3.pointDistance
    rw [V3.norm_pow_two]
    norm_num [V3.dot]
  obtain ⟨arc, harc, -, -, hang⟩ := h ⟨2, 0, 0⟩ (π / 2) ⟨0, 0, 0⟩ ⟨0, 0, 1⟩ (by norm_num [V3.dot]) (by rw [hf, hd]; norm_num)
    (by norm_num; linarith) (by norm_num; linarith)
  rw [fromAngle_eq _ _ _ _ (by norm_num [V3.dot]), hf, hd] at harc
  obtain ⟨c, hc⟩ : ∃ c : Circle3, c = ⟨⟨⟨0, 0, 0⟩, ⟨⟨2, 0, 0⟩, ⟨0, 2, 0⟩, ⟨0, 0, 1⟩⟩⟩, 2⟩ := ⟨_, rfl⟩
  have hcc : (⟨⟨⟨0, 0, 0⟩, ⟨⟨2, 0, 0⟩ - ⟨0, 0, 0⟩, V3.cross ⟨0, 0, 1⟩ (⟨2, 0, 0⟩ - ⟨0, 0, 0⟩), ⟨0, 0, 1⟩⟩⟩, 2⟩ : Circle3) = c := by
    rw [hc]
    have e1 : (⟨2, 0, 0⟩ - ⟨0, 0, 0⟩ : V3 ℝ) = ⟨2, 0, 0⟩ := by ext <;> simp
    have e2 : V3.cross ⟨0, 0, 1⟩ (⟨2, 0, 0⟩ : V3 ℝ) = ⟨0, 2, 0⟩ := by ext <;> simp [V3.cross]
    rw [e1, e2]
  rw [hcc] at harc
  have hend : V3.rotation ⟨2, 0, 0⟩ ⟨0, 0, 0⟩ ⟨0, 0, 1⟩ (π / 2) = ⟨0, 2, 0⟩ := by
    unfold V3.rotation V3.rotationCS
    rw [cos_pi_div_two, sin_pi_div_two]
    ext <;> simp [V3.cross, V3.dot]
  rw [hend] at harc
  have hang' : ∀ x y : ℝ, NotTiny x → NotTiny y → c.pointAngle ⟨2 * x, 2 * y, 0⟩ = .ok (sinCosAngle (x / 2) (y / 2)) := by
    intro x y hx hy
    obtain ⟨q, hq, hl⟩ := globalToLocal_flush c.frame (by rw [hc]; norm_num [Frame3.Invertible, V3.dot, V3.cross]) ⟨2 * x, 2 * y, 0⟩
    have q1 := congrArg V3.x hq
    have q2 := congrArg V3.y hq
    rw [hc] at q1 q2
    simp [pt] at q1 q2
    unfold Circle3.pointAngle
    rw [hl]
    have hr : c.radius = 2 := by rw [hc]
    change (if c.radius = 0 then _ else _) = _
    rw [if_neg (by rw [hr]; norm_num), hr]
    change Except.ok (sinCosAngle (flush q.x / 2) (flush q.y / 2)) = _
    have e1 : q.x = x := by linarith
    have e2 : q.y = y := by linarith
    rw [e1, e2, flush_of_notTiny hx, flush_of_notTiny hy]
  have z0 : NotTiny (0 : ℝ) := by left; norm_num
  have z1 : NotTiny (1 : ℝ) := by right; norm_num
  have ncl : ∀ t : ℝ, 0 ≤ t → t ≤ π / 2 → ¬mathIsClose t (2 * π) (1 / 10 ^ 9) := by
    intro t t0 t1
    unfold mathIsClose
    rw [abs_of_nonneg t0, abs_of_neg (by linarith), abs_of_pos (by linarith : 0 < 2 * π), (max_eq_right (by linarith) : max t (2 * π) = 2 * π)]
    rw [not_le]
    refine max_lt ?_ ?_ <;> norm_num <;> linarith
  have a1 : c.pointAngle ⟨2, 0, 0⟩ = .ok (π / 3) := by
    have := hang' 1 0 z1 z0
    norm_num at this
    rw [this]
    have e : arccos (1 / 2) = π / 3 := by rw [← cos_pi_div_three, arccos_cos (by linarith) (by linarith)]
    unfold sinCosAngle
    dsimp only
    have e2 : sinCosAngleRaw (max (-1) (min (1 / 2) 1)) (max (-1) (min 0 1)) = π / 3 := by
      norm_num [sinCosAngleRaw]
      simpa using e
    rw [e2, if_neg (ncl _ (by linarith) (by linarith))]
  have a2 : c.pointAngle ⟨0, 2, 0⟩ = .ok (π / 2) := by
    have := hang' 0 1 z0 z1
    norm_num at this
    rw [this]
    unfold sinCosAngle
    dsimp only
    have e2 : sinCosAngleRaw (max (-1) (min 0 1)) (max (-1) (min (1 / 2) 1)) = π / 2 := by
      norm_num [sinCosAngleRaw]
    rw [e2, if_neg (ncl _ (by linarith) (by linarith))]
  unfold Arc3.make at harc
  rw [a1, a2] at harc
  have := Except.ok.inj (Option.some.inj harc)
  rw [← this] at hang
  unfold Arc3.angle endAfter at hang
  dsimp only at hang
  rw [if_neg (by rw [not_le]; linarith)] at hang
  linarith

-- a start at distance one of a vertical axis meets the hypotheses, for a quarter of turn
example : V3.dot (⟨0, 0, 1⟩ : V3 ℝ) ⟨0, 0, 1⟩ = 1 ∧ V3.pointDistance (footOnAxis ⟨1, 3, 5⟩ ⟨1, 2, 3⟩ ⟨0, 0, 1⟩) ⟨1, 3, 5⟩ = 1 ∧ 0 < π / 2 ∧
    Arc.Clear (π / 2) ∧ NotTiny (cos (π / 2)) ∧ NotTiny (sin (π / 2)) := by
  have hp := pi_pos
  refine ⟨by norm_num [V3.dot], ?_, by positivity, ⟨by positivity, by linarith⟩, by rw [cos_pi_div_two]; left; norm_num, by
    rw [sin_pi_div_two]; right; norm_num⟩
  have h0 : 0 ≤ V3.pointDistance (footOnAxis ⟨1, 3, 5⟩ ⟨1, 2, 3⟩ ⟨0, 0, 1⟩) ⟨1, 3, 5⟩ := sqrt_nonneg _
  refine (sq_eq_sq₀ h0 (by norm_num)).1 ?_
  unfold V3.pointDistance
  rw [V3.norm_pow_two]
  norm_num [V3.dot, footOnAxis]

end Volmdlr.Arc
