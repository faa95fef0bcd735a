import Verif.Surface.ArcSweepModel
import Verif.Surface.CircleSweepProps

/-!
# C216, C217: revolution of an arc of space
-/

namespace Volmdlr.Surface

open Volmdlr.Angle Volmdlr.Arc Real

/-! ## Specification -/

/-- The points of a face. -/
def ArcFace.points : ArcFace → Set (V3 ℝ)
  | .sphere s theta1 theta2 phi1 phi2 => {p | ∃ a b : ℝ, 0 ≤ a ∧ a ≤ 1 ∧ 0 ≤ b ∧ b ≤ 1 ∧ p = s.paramTo3d ⟨theta1 + a * (theta2 - theta1), phi1 + b * (phi2 - phi1)⟩}
  | .torus s theta1 theta2 phi1 phi2 => {p | ∃ a b : ℝ, 0 ≤ a ∧ a ≤ 1 ∧ 0 ≤ b ∧ b ≤ 1 ∧ p = s.paramTo3d ⟨theta1 + a * (theta2 - theta1), phi1 + b * (phi2 - phi1)⟩}

/-- The points swept by an arc turned about an axis; the arc is the points of its start turned about its centre by the angles from zero to `arcAngle`. -/
def ArcSweptAround (start center normal : V3 ℝ) (arcAngle : ℝ) (axisPoint axis : V3 ℝ) (angle : ℝ) : Set (V3 ℝ) :=
  {p | ∃ s t : ℝ, 0 ≤ s ∧ s ≤ arcAngle ∧ 0 ≤ t ∧ t ≤ angle ∧ p = V3.rotation (V3.rotation start center normal s) axisPoint axis t}

/-! ## Proofs -/

/-- A point of a plane with the axis, turned about the axis. -/
lemma rotation_around {axisPoint axis foot u : V3 ℝ} (hw : V3.dot axis axis = 1) (ho : V3.dot u axis = 0) (hfoot : ∃ q, foot = axisPoint + V3.smul q axis) (X Y t : ℝ) :
    V3.rotation (foot + V3.smul X u + V3.smul Y axis) axisPoint axis t = around foot u axis X t Y := by
  obtain ⟨q, rfl⟩ := hfoot
  unfold V3.rotation V3.rotationCS around
  simp only [V3.dot] at ho hw
  ext
  · simp only [V3.add_x, V3.smul_x, V3.sub_x, V3.add_y, V3.smul_y, V3.sub_y, V3.add_z, V3.smul_z, V3.sub_z, V3.dot, V3.cross]
    linear_combination (1 - cos t) * axis.x * (X * ho + (q + Y) * hw)
  · simp only [V3.add_x, V3.smul_x, V3.sub_x, V3.add_y, V3.smul_y, V3.sub_y, V3.add_z, V3.smul_z, V3.sub_z, V3.dot, V3.cross]
    linear_combination (1 - cos t) * axis.y * (X * ho + (q + Y) * hw)
  · simp only [V3.add_x, V3.smul_x, V3.sub_x, V3.add_y, V3.smul_y, V3.sub_y, V3.add_z, V3.smul_z, V3.sub_z, V3.dot, V3.cross]
    linear_combination (1 - cos t) * axis.z * (X * ho + (q + Y) * hw)

/-- The points of an arc in a plane with the axis. -/
lemma rotation_arc {axis foot u : V3 ℝ} (hu : V3.dot u u = 1) (hw : V3.dot axis axis = 1) (ho : V3.dot u axis = 0) (R r phi e s : ℝ) (he : e = 1 ∨ e = -1) :
    V3.rotation (foot + V3.smul (R + r * cos phi) u + V3.smul (r * sin phi) axis) (foot + V3.smul R u) (V3.smul e (V3.cross axis u)) s =
      foot + V3.smul (R + r * cos (phi - e * s)) u + V3.smul (r * sin (phi - e * s)) axis := by
  have hc : cos (phi - e * s) = cos phi * cos s + e * (sin phi * sin s) := by
    rcases he with rfl | rfl
    · rw [one_mul, one_mul, cos_sub]
    · rw [show phi - -1 * s = phi + s by ring, cos_add]; ring
  have hs : sin (phi - e * s) = sin phi * cos s - e * (cos phi * sin s) := by
    rcases he with rfl | rfl
    · rw [one_mul, one_mul, sin_sub]
    · rw [show phi - -1 * s = phi + s by ring, sin_add]; ring
  rw [hc, hs]
  unfold V3.rotation V3.rotationCS
  simp only [V3.dot] at hu ho hw
  obtain ⟨x, hx⟩ : ∃ x, x = r * cos phi := ⟨_, rfl⟩
  obtain ⟨y, hy⟩ : ∃ y, y = r * sin phi := ⟨_, rfl⟩
  ext
  · simp only [V3.add_x, V3.smul_x, V3.sub_x, V3.add_y, V3.smul_y, V3.sub_y, V3.add_z, V3.smul_z, V3.sub_z, V3.dot, V3.cross]
    linear_combination sin s * e * r * ((cos phi * u.x - sin phi * axis.x) * ho - cos phi * axis.x * hu + sin phi * u.x * hw)
  · simp only [V3.add_x, V3.smul_x, V3.sub_x, V3.add_y, V3.smul_y, V3.sub_y, V3.add_z, V3.smul_z, V3.sub_z, V3.dot, V3.cross]
    linear_combination sin s * e * r * ((cos phi * u.y - sin phi * axis.y) * ho - cos phi * axis.y * hu + sin phi * u.y * hw)
  · simp only [V3.add_x, V3.smul_x, V3.sub_x, V3.add_y, V3.smul_y, V3.sub_y, V3.add_z, V3.smul_z, V3.sub_z, V3.dot, V3.cross]
    linear_combination sin s * e * r * ((cos phi * u.z - sin phi * axis.z) * ho - cos phi * axis.z * hu + sin phi * u.z * hw)

/-- The angles of the rectangle of parameters. -/
lemma interval_iff (phi alpha e x : ℝ) (ha : 0 < alpha) (he : e = 1 ∨ e = -1) :
    (∃ b : ℝ, 0 ≤ b ∧ b ≤ 1 ∧ x = min phi (phi - alpha * e) + b * (rectangleEnd (min phi (phi - alpha * e)) (max phi (phi - alpha * e)) - min phi (phi - alpha * e))) ↔
      ∃ s : ℝ, 0 ≤ s ∧ s ≤ alpha ∧ x = phi - e * s := by
  have hr : ∀ a b : ℝ, a < b → rectangleEnd a b = b := by
    intro a b h
    unfold rectangleEnd
    rw [if_neg h.ne, if_neg (not_lt.mpr h.le)]
  rcases he with rfl | rfl
  · rw [mul_one, min_eq_right (by linarith), max_eq_left (by linarith), hr _ _ (by linarith)]
    constructor
    · rintro ⟨b, b0, b1, rfl⟩
      exact ⟨alpha * (1 - b), mul_nonneg ha.le (by linarith), by nlinarith, by ring⟩
    · rintro ⟨s, s0, s1, rfl⟩
      refine ⟨1 - s / alpha, ?_, ?_, ?_⟩
      · have := (div_le_one ha).mpr s1; linarith
      · have := div_nonneg s0 ha.le; linarith
      · field_simp; ring
  · rw [show phi - alpha * -1 = phi + alpha by ring, min_eq_left (by linarith), max_eq_right (by linarith), hr _ _ (by linarith)]
    constructor
    · rintro ⟨b, b0, b1, rfl⟩
      exact ⟨alpha * b, mul_nonneg ha.le b0, by nlinarith, by ring⟩
    · rintro ⟨s, s0, s1, rfl⟩
      exact ⟨s / alpha, div_nonneg s0 ha.le, (div_le_one ha).mpr s1, by field_simp; ring⟩

lemma rectangleEnd_pos {a : ℝ} (h : 0 < a) : rectangleEnd 0 a = a := by
  unfold rectangleEnd
  rw [if_neg h.ne, if_neg (not_lt.mpr h.le)]

lemma angle_iff (angle t : ℝ) (ha : 0 < angle) : (∃ a : ℝ, 0 ≤ a ∧ a ≤ 1 ∧ t = 0 + a * (rectangleEnd 0 angle - 0)) ↔ 0 ≤ t ∧ t ≤ angle := by
  rw [rectangleEnd_pos ha]
  constructor
  · rintro ⟨a, a0, a1, rfl⟩
    rw [zero_add, sub_zero]
    exact ⟨by positivity, by nlinarith⟩
  · rintro ⟨h0, h1⟩
    exact ⟨t / angle, by positivity, (div_le_one ha).mpr h1, by field_simp; ring⟩

lemma far_zero {d : ℝ} (h : 1 / 10 ^ 6 < d) : ¬ mathIsClose d 0 (1 / 10 ^ 6) := by
  have p : (0 : ℝ) < 1 / 10 ^ 6 := by norm_num
  have hd : 0 < d := by linarith
  intro hh
  unfold mathIsClose at hh
  rw [sub_zero, abs_zero, abs_of_pos hd, max_eq_left hd.le] at hh
  rcases le_max_iff.mp hh with hh | hh <;> linarith

lemma near_zero {d : ℝ} (h : d = 0) : mathIsClose d 0 (1 / 10 ^ 6) := by
  unfold mathIsClose
  rw [h, sub_self, abs_zero]
  exact le_max_of_le_right (by norm_num)

lemma cross_dot_self {axis u : V3 ℝ} (hu : V3.dot u u = 1) (hw : V3.dot axis axis = 1) (ho : V3.dot u axis = 0) (e : ℝ) : V3.dot (V3.cross axis u) (V3.smul e (V3.cross axis u)) = e := by
  simp only [V3.dot, V3.cross, V3.smul_x, V3.smul_y, V3.smul_z] at *
  linear_combination e * (hw * (u.x * u.x + u.y * u.y + u.z * u.z) + hu - (u.x * axis.x + u.y * axis.y + u.z * axis.z) * ho)

/-- **C216** (partial) an arc in a plane with the axis, whose centre is not on the axis, gives one part of a torus, whose points are the points swept by the arc. -/
theorem C216_revolution_partial (spherePhi : Sphere → V3 ℝ → ℝ) (torusPhi : Torus → V3 ℝ → ℝ) (circle : Circle3) (fin axisPoint axis foot u : V3 ℝ) (distance angle arcAngle phi e : ℝ)
    (hd : 1 / 10 ^ 6 < distance) (ha : 0 < angle) (hal : 0 < arcAngle)
    (hw : V3.dot axis axis = 1) (hu : V3.dot u u = 1) (ho : V3.dot u axis = 0) (hfoot : ∃ q, foot = axisPoint + V3.smul q axis)
    (hc : circle.frame.origin = foot + V3.smul distance u) (he : e = 1 ∨ e = -1) (hn : circle.frame.basis.w = V3.smul e (V3.cross axis u))
    (start : V3 ℝ) (hstart : start = foot + V3.smul (distance + circle.radius * cos phi) u + V3.smul (circle.radius * sin phi) axis)
    (hphi : torusPhi ⟨⟨foot, ⟨u, V3.cross axis u, axis⟩⟩, distance, circle.radius⟩ start = phi) :
    ∃ f, arcRevolution spherePhi torusPhi circle start fin arcAngle axisPoint axis angle = .ok [f] ∧
      f.points = ArcSweptAround start circle.frame.origin circle.frame.basis.w arcAngle axisPoint axis angle := by
  have p6 : (0 : ℝ) < 1 / 10 ^ 6 := by norm_num
  have hd0 : 0 < distance := by linarith
  have m : Meridian circle.frame.origin circle.frame.origin axisPoint axis foot u distance distance 0 := by
    refine ⟨hw, hu, ho, hfoot, hc, ?_⟩
    rw [hc]
    ext <;> simp
  obtain ⟨s, hs⟩ := foot_start m
  obtain ⟨d1, -, d3, -⟩ := dists m
  have d3' : V3.pointDistance foot circle.frame.origin = distance := by
    rw [norm_neg_sub', d1, norm_smul hu, abs_of_pos hd0]
  have h0 : V3.dot circle.frame.basis.w u = 0 := by
    rw [hn]
    simp only [V3.dot, V3.cross, V3.smul_x, V3.smul_y, V3.smul_z]
    ring
  refine ⟨.torus ⟨⟨foot, ⟨u, V3.cross axis u, axis⟩⟩, distance, circle.radius⟩ 0 (rectangleEnd 0 angle) (min phi (phi - arcAngle * e)) (rectangleEnd (min phi (phi - arcAngle * e)) (max phi (phi - arcAngle * e))), ?_, ?_⟩
  · unfold arcRevolution
    rw [hs]
    dsimp only
    rw [d3', if_neg (far_zero hd), d1, unit_smul hu hd0]
    dsimp only
    rw [if_neg (not_not.mpr (near_zero h0)), hphi, hn, cross_dot_self hu hw ho]
  · ext p
    have hrot : ∀ s t : ℝ, V3.rotation (V3.rotation start circle.frame.origin circle.frame.basis.w s) axisPoint axis t =
        around foot u axis (distance + circle.radius * cos (phi - e * s)) t (circle.radius * sin (phi - e * s)) := by
      intro s t
      rw [hstart, hc, hn, rotation_arc hu hw ho _ _ _ _ _ he, rotation_around hw ho hfoot]
    have hpar : ∀ t x : ℝ, Torus.paramTo3d ⟨⟨foot, ⟨u, V3.cross axis u, axis⟩⟩, distance, circle.radius⟩ ⟨t, x⟩ =
        around foot u axis (distance + circle.radius * cos x) t (circle.radius * sin x) := by
      intro t x
      unfold Torus.paramTo3d around
      ext
      · simp only [V3.add_x, V3.smul_x]; ring
      · simp only [V3.add_y, V3.smul_y]; ring
      · simp only [V3.add_z, V3.smul_z]; ring
    constructor
    · rintro ⟨a, b, a0, a1, b0, b1, rfl⟩
      obtain ⟨t0, t1⟩ := (angle_iff angle _ ha).mp ⟨a, a0, a1, rfl⟩
      obtain ⟨s, s0, s1, hx⟩ := (interval_iff phi arcAngle e _ hal he).mp ⟨b, b0, b1, rfl⟩
      exact ⟨s, _, s0, s1, t0, t1, by rw [hrot, ← hx, hpar]⟩
    · rintro ⟨s, t, s0, s1, t0, t1, rfl⟩
      obtain ⟨a, a0, a1, hta⟩ := (angle_iff angle t ha).mpr ⟨t0, t1⟩
      obtain ⟨b, b0, b1, hx⟩ := (interval_iff phi arcAngle e _ hal he).mpr ⟨s, s0, s1, rfl⟩
      exact ⟨a, b, a0, a1, b0, b1, by rw [hrot, hpar, ← hta, ← hx]⟩

/-- **C217** (partial) an arc in a plane with the axis, whose centre is on the axis and whose start is not, gives one part of a sphere; its points are the points swept by the arc of the same start and the same angle
in the opposite direction. -/
theorem C217_sphere_partial (spherePhi : Sphere → V3 ℝ → ℝ) (torusPhi : Torus → V3 ℝ → ℝ) (circle : Circle3) (fin axisPoint axis u : V3 ℝ) (angle arcAngle phi e : ℝ)
    (hr : 1 / 10 ^ 6 < circle.radius * cos phi) (ha : 0 < angle) (hal : 0 < arcAngle)
    (hw : V3.dot axis axis = 1) (hu : V3.dot u u = 1) (ho : V3.dot u axis = 0) (hfoot : ∃ q, circle.frame.origin = axisPoint + V3.smul q axis)
    (he : e = 1 ∨ e = -1) (hn : circle.frame.basis.w = V3.smul e (V3.cross axis u))
    (start : V3 ℝ) (hstart : start = circle.frame.origin + V3.smul (circle.radius * cos phi) u + V3.smul (circle.radius * sin phi) axis)
    (hphi : spherePhi ⟨⟨circle.frame.origin, ⟨u, V3.cross axis u, axis⟩⟩, circle.radius⟩ start = phi) :
    ∃ f, arcRevolution spherePhi torusPhi circle start fin arcAngle axisPoint axis angle = .ok [f] ∧
      f.points = ArcSweptAround start circle.frame.origin (-circle.frame.basis.w) arcAngle axisPoint axis angle := by
  have p6 : (0 : ℝ) < 1 / 10 ^ 6 := by norm_num
  obtain ⟨C, hC⟩ : ∃ C, C = circle.frame.origin := ⟨_, rfl⟩
  rw [← hC] at hfoot hstart hphi ⊢
  have hr0 : 0 < circle.radius * cos phi := by linarith
  have m : Meridian C start axisPoint axis C u 0 (circle.radius * cos phi) (circle.radius * sin phi) := by
    refine ⟨hw, hu, ho, hfoot, ?_, hstart⟩
    ext <;> simp
  have hfin : ∃ q s, pointProjection3 fin axisPoint (axisPoint + axis) = some (q, s) := by
    have he : axisPoint + axis - axisPoint = axis := by ext <;> simp
    unfold pointProjection3
    dsimp only
    rw [he, V3.norm_pow_two, hw, if_neg one_ne_zero]
    exact ⟨_, _, rfl⟩
  obtain ⟨endP, s3, h3⟩ := hfin
  obtain ⟨s1, h1⟩ := foot_start m
  obtain ⟨s2, h2⟩ := foot_fin m
  obtain ⟨-, d2, d3, -⟩ := dists m
  have d3' : V3.pointDistance C C = 0 := by rw [d3, abs_zero]
  have hfar : ¬ mathIsClose (V3.norm (V3.smul (circle.radius * cos phi) u)) 0 (1 / 10 ^ 6) := by
    rw [norm_smul hu, abs_of_pos hr0]
    exact far_zero hr
  refine ⟨.sphere ⟨⟨C, ⟨u, V3.cross axis u, axis⟩⟩, circle.radius⟩ 0 (rectangleEnd 0 angle) (min phi (phi - arcAngle * -e)) (rectangleEnd (min phi (phi - arcAngle * -e)) (max phi (phi - arcAngle * -e))), ?_, ?_⟩
  · unfold arcRevolution
    rw [← hC, h1]
    dsimp only
    rw [if_pos (near_zero d3'), h2, h3]
    dsimp only
    rw [d2, if_neg (fun hh => hfar hh.1), if_neg hfar, unit_smul hu hr0]
    dsimp only
    rw [hphi, hn, cross_dot_self hu hw ho, mul_neg, sub_neg_eq_add]
  · ext p
    have he' : -e = 1 ∨ -e = -1 := by
      rcases he with rfl | rfl
      · exact Or.inr rfl
      · exact Or.inl (by norm_num)
    have hneg : -circle.frame.basis.w = V3.smul (-e) (V3.cross axis u) := by
      rw [hn]
      ext
      · simp only [V3.neg_x, V3.smul_x]; ring
      · simp only [V3.neg_y, V3.smul_y]; ring
      · simp only [V3.neg_z, V3.smul_z]; ring
    have hrot : ∀ s t : ℝ, V3.rotation (V3.rotation start C (-circle.frame.basis.w) s) axisPoint axis t =
        around C u axis (circle.radius * cos (phi - -e * s)) t (circle.radius * sin (phi - -e * s)) := by
      intro s t
      have h := rotation_arc (foot := C) hu hw ho 0 circle.radius phi (-e) s he'
      rw [zero_add, zero_add] at h
      have hz : C + V3.smul 0 u = C := by ext <;> simp
      rw [hz] at h
      rw [hstart, hneg, h, rotation_around hw ho hfoot]
    have hpar : ∀ t x : ℝ, Sphere.paramTo3d ⟨⟨C, ⟨u, V3.cross axis u, axis⟩⟩, circle.radius⟩ ⟨t, x⟩ =
        around C u axis (circle.radius * cos x) t (circle.radius * sin x) := by
      intro t x
      unfold Sphere.paramTo3d around
      ext
      · simp only [V3.add_x, V3.smul_x]; ring
      · simp only [V3.add_y, V3.smul_y]; ring
      · simp only [V3.add_z, V3.smul_z]; ring
    constructor
    · rintro ⟨a, b, a0, a1, b0, b1, rfl⟩
      obtain ⟨t0, t1⟩ := (angle_iff angle _ ha).mp ⟨a, a0, a1, rfl⟩
      obtain ⟨s, s0, s1, hx⟩ := (interval_iff phi arcAngle (-e) _ hal he').mp ⟨b, b0, b1, rfl⟩
      exact ⟨s, _, s0, s1, t0, t1, by rw [hrot, ← hx, hpar]⟩
    · rintro ⟨s, t, s0, s1, t0, t1, rfl⟩
      obtain ⟨a, a0, a1, hta⟩ := (angle_iff angle t ha).mpr ⟨t0, t1⟩
      obtain ⟨b, b0, b1, hx⟩ := (interval_iff phi arcAngle (-e) _ hal he').mpr ⟨s, s0, s1, rfl⟩
      exact ⟨a, b, a0, a1, b0, b1, by rw [hrot, hpar, ← hta, ← hx]⟩

/-- **C217** an arc whose centre and whose two ends are on the axis, as a half circle turned into a sphere, is a `TypeError`. -/
theorem C217_half_circle_counterexample (spherePhi : Sphere → V3 ℝ → ℝ) (torusPhi : Torus → V3 ℝ → ℝ) (circle : Circle3) (axisPoint axis : V3 ℝ) (arcAngle angle a b : ℝ)
    (hw : V3.dot axis axis = 1) (hc : ∃ q, circle.frame.origin = axisPoint + V3.smul q axis) :
    arcRevolution spherePhi torusPhi circle (circle.frame.origin + V3.smul a axis) (circle.frame.origin + V3.smul b axis) arcAngle axisPoint axis angle = .error .typeError := by
  obtain ⟨q, hq⟩ := hc
  have proj : ∀ t : ℝ, ∃ s, pointProjection3 (axisPoint + V3.smul t axis) axisPoint (axisPoint + axis) = some (axisPoint + V3.smul t axis, s) := by
    intro t
    have he : axisPoint + axis - axisPoint = axis := by ext <;> simp
    unfold pointProjection3
    dsimp only
    rw [he, V3.norm_pow_two, hw, if_neg one_ne_zero]
    have ht : V3.dot (axisPoint + V3.smul t axis - axisPoint) axis = t := by
      simp only [V3.dot, V3.add_x, V3.add_y, V3.add_z, V3.smul_x, V3.smul_y, V3.smul_z, V3.sub_x, V3.sub_y, V3.sub_z] at *
      linear_combination t * hw
    rw [ht, div_one]
    exact ⟨_, rfl⟩
  have add : ∀ t : ℝ, circle.frame.origin + V3.smul t axis = axisPoint + V3.smul (q + t) axis := by
    intro t
    rw [hq]
    ext
    · simp only [V3.add_x, V3.smul_x]; ring
    · simp only [V3.add_y, V3.smul_y]; ring
    · simp only [V3.add_z, V3.smul_z]; ring
  obtain ⟨s0, h0⟩ := proj q
  obtain ⟨s1, h1⟩ := proj (q + a)
  obtain ⟨s2, h2⟩ := proj (q + b)
  have zero : ∀ p : V3 ℝ, V3.norm (p - p) = 0 := by
    intro p
    unfold V3.norm
    simp
  have zero' : ∀ p : V3 ℝ, V3.pointDistance p p = 0 := fun p => by rw [norm_neg_sub', zero]
  unfold arcRevolution
  rw [add a, add b, hq, h0, h1, h2]
  dsimp only
  rw [if_pos (near_zero (zero' _)), if_pos ⟨near_zero (zero _), near_zero (zero _)⟩]

/-- The latitude of a point of a sphere. -/
noncomputable def latitude (s : Sphere) (p : V3 ℝ) : ℝ := arcsin (V3.dot (p - s.frame.origin) s.frame.basis.w / s.radius)

/-- C217 as expected by a user: the revolution of an arc of a circle in a plane with the axis, whose centre is on the axis, gives the points swept by the arc. -/
def C217_full_statement : Prop := ∀ (torusPhi : Torus → V3 ℝ → ℝ) (circle : Circle3) (start fin axisPoint axis : V3 ℝ) (angle arcAngle : ℝ),
  V3.dot axis axis = 1 → V3.dot circle.frame.basis.w circle.frame.basis.w = 1 →
  (∃ q, circle.frame.origin = axisPoint + V3.smul q axis) → V3.dot axis circle.frame.basis.w = 0 → 0 < circle.radius → OnCircle circle.frame.origin circle.frame.basis.w circle.radius start →
  0 < angle → 0 < arcAngle → fin = V3.rotation start circle.frame.origin circle.frame.basis.w arcAngle →
  ∃ f, arcRevolution latitude torusPhi circle start fin arcAngle axisPoint axis angle = .ok [f] ∧
    f.points = ArcSweptAround start circle.frame.origin circle.frame.basis.w arcAngle axisPoint axis angle

/-- **C217** false: the part of the sphere is on the wrong side of the start of the arc. -/
theorem C217_side_counterexample : ¬ C217_full_statement := by
  intro hfull
  have hp := Real.pi_pos
  obtain ⟨c, hc⟩ : ∃ c : Circle3, c = ⟨⟨⟨0, 0, 0⟩, ⟨⟨0, 0, 1⟩, ⟨1, 0, 0⟩, ⟨0, 1, 0⟩⟩⟩, 1⟩ := ⟨_, rfl⟩
  have hu : V3.dot (⟨1, 0, 0⟩ : V3 ℝ) ⟨1, 0, 0⟩ = 1 := by norm_num [V3.dot]
  have hw : V3.dot (⟨0, 0, 1⟩ : V3 ℝ) ⟨0, 0, 1⟩ = 1 := by norm_num [V3.dot]
  have ho : V3.dot (⟨1, 0, 0⟩ : V3 ℝ) ⟨0, 0, 1⟩ = 0 := by norm_num [V3.dot]
  have hfoot : ∃ q, c.frame.origin = (⟨0, 0, 0⟩ : V3 ℝ) + V3.smul q ⟨0, 0, 1⟩ := ⟨0, by rw [hc]; ext <;> simp⟩
  obtain ⟨f, hf, hpts⟩ := hfull (fun _ _ => 0) c ⟨1, 0, 0⟩ _ ⟨0, 0, 0⟩ ⟨0, 0, 1⟩ 1 (π / 2) hw (by rw [hc]; norm_num [V3.dot]) hfoot (by rw [hc]; norm_num [V3.dot]) (by rw [hc]; norm_num)
    (by rw [hc]; unfold OnCircle; norm_num [V3.dot]) one_pos (by positivity) rfl
  obtain ⟨g, hg, hpts'⟩ := C217_sphere_partial latitude (fun _ _ => 0) c (V3.rotation ⟨1, 0, 0⟩ c.frame.origin c.frame.basis.w (π / 2)) ⟨0, 0, 0⟩ ⟨0, 0, 1⟩ ⟨1, 0, 0⟩ 1 (π / 2) 0 1
    (by rw [hc]; norm_num) one_pos (by positivity) hw hu ho hfoot (Or.inl rfl) (by rw [hc]; ext <;> simp [V3.cross]) ⟨1, 0, 0⟩ (by rw [hc]; ext <;> simp)
    (by rw [hc]; unfold latitude; simp [V3.dot])
  rw [hf] at hg
  cases hg
  have hin : (⟨0, 0, 1⟩ : V3 ℝ) ∈ ArcSweptAround ⟨1, 0, 0⟩ c.frame.origin (-c.frame.basis.w) (π / 2) ⟨0, 0, 0⟩ ⟨0, 0, 1⟩ 1 := by
    refine ⟨π / 2, 0, by positivity, le_refl _, le_refl _, zero_le_one, ?_⟩
    rw [hc]
    unfold V3.rotation V3.rotationCS
    ext <;> simp [V3.dot, V3.cross]
  rw [← hpts', hpts] at hin
  obtain ⟨s, t, s0, s1, -, -, hq⟩ := hin
  have hz := congrArg V3.z hq
  rw [hc] at hz
  unfold V3.rotation V3.rotationCS at hz
  simp [V3.dot, V3.cross] at hz
  have hs : 0 ≤ sin s := sin_nonneg_of_nonneg_of_le_pi s0 (by linarith)
  nlinarith [sin_sq_add_cos_sq t]

/-- The hypotheses of C216 are met, with the angle of the start on the torus as `torusPhi`. -/
example : ∃ f, arcRevolution latitude (fun _ _ => 0) ⟨⟨⟨3, 0, 0⟩, ⟨⟨1, 0, 0⟩, ⟨0, 0, -1⟩, ⟨0, 1, 0⟩⟩⟩, 1⟩ ⟨4, 0, 0⟩ ⟨3, 0, -1⟩ (π / 2) ⟨0, 0, 5⟩ ⟨0, 0, 1⟩ 2 = .ok [f] ∧
    f.points = ArcSweptAround ⟨4, 0, 0⟩ ⟨3, 0, 0⟩ ⟨0, 1, 0⟩ (π / 2) ⟨0, 0, 5⟩ ⟨0, 0, 1⟩ 2 := by
  have hp := Real.pi_pos
  exact C216_revolution_partial latitude (fun _ _ => 0) ⟨⟨⟨3, 0, 0⟩, ⟨⟨1, 0, 0⟩, ⟨0, 0, -1⟩, ⟨0, 1, 0⟩⟩⟩, 1⟩ ⟨3, 0, -1⟩ ⟨0, 0, 5⟩ ⟨0, 0, 1⟩ ⟨0, 0, 0⟩ ⟨1, 0, 0⟩ 3 2 (π / 2) 0 1
    (by norm_num) (by norm_num) (by positivity) (by norm_num [V3.dot]) (by norm_num [V3.dot]) (by norm_num [V3.dot]) ⟨-5, by ext <;> simp⟩ (by ext <;> simp) (Or.inl rfl)
    (by ext <;> simp [V3.cross]) _ (by ext <;> norm_num) rfl

end Volmdlr.Surface
