import Verif.Arc.SegmentDistanceModel
import Verif.Surface.ArcExtrusionProps
import Verif.Arc.Arc3Props

/-!
# C220: distance of a circle of space to a line segment
-/

namespace Volmdlr.Arc

open Volmdlr.Angle Volmdlr.Surface Volmdlr.Solid Real

/-! ## Specification -/

/-- The points of a line segment. -/
def SegmentPoint (start fin p : V3 ℝ) : Prop := ∃ a : ℝ, 0 ≤ a ∧ a ≤ 1 ∧ p = start + V3.smul a (fin - start)

/-- The points of a circle of space. -/
def CirclePoint (c : Circle3) (p : V3 ℝ) : Prop := V3.pointDistance p c.frame.origin = c.radius ∧ V3.dot (p - c.frame.origin) c.frame.basis.w = 0

/-- A closest pair of a point of the segment and of a point of the circle. -/
def ClosestPair (c : Circle3) (start fin p q : V3 ℝ) : Prop :=
  SegmentPoint start fin p ∧ CirclePoint c q ∧ ∀ p' q', SegmentPoint start fin p' → CirclePoint c q' → V3.pointDistance p q ≤ V3.pointDistance p' q'

/-- An ideal `least_squares` on the box `[0, 1] × [0, 2π]`: the value is in the box, and the square of the residual is the least there. -/
def Solves (f : ℝ → ℝ → ℝ) (x : ℝ × ℝ) : Prop :=
  (0 ≤ x.1 ∧ x.1 ≤ 1 ∧ 0 ≤ x.2 ∧ x.2 ≤ 2 * π) ∧ ∀ a t, 0 ≤ a → a ≤ 1 → 0 ≤ t → t ≤ 2 * π → f x.1 x.2 ^ 2 ≤ f a t ^ 2

/-- The claim, for an ideal `least_squares`. -/
def SegmentDistanceClaim : Prop :=
  ∀ (solve : (ℝ → ℝ → ℝ) → ℝ × ℝ → ℝ × ℝ) (c : Circle3) (start fin : V3 ℝ), c.Good → start ≠ fin →
    (∀ x0, Solves (residual c.radius (fin - start) c.frame.basis.v c.frame.basis.u (c.frame.origin - start)) (solve (residual c.radius (fin - start) c.frame.basis.v c.frame.basis.u (c.frame.origin - start)) x0)) →
    ∃ p q, minimumDistancePoints solve c start fin = .ok (p, q) ∧ ClosestPair c start fin p q

/-! ## Proofs -/

lemma pointAtAbscissa_eq {c : Circle3} (hc : c.Good) (t : ℝ) : c.pointAtAbscissa (t * c.radius) = c.at t := by
  obtain ⟨uu, vv, ww, uv, uw, vw, hd⟩ := hc.direct
  have h := circlePoint_rotation c uu ww uw (direct_cross hc.direct).1.symm 0 t
  unfold Circle3.pointAtAbscissa
  rw [mul_div_cancel_right₀ _ hc.pos.ne']
  have e : circlePoint c 0 = c.frame.origin + V3.smul c.radius c.frame.basis.u := by
    unfold circlePoint
    ext <;> simp
  rw [← e, h, zero_add]
  rfl

lemma segmentAt_eq {start fin : V3 ℝ} (h : start ≠ fin) (a : ℝ) : segmentAt start fin (a * V3.pointDistance start fin) = .ok (start + V3.smul a (fin - start)) := by
  have hn : V3.norm (fin - start) ≠ 0 := by
    intro h0
    have h1 := V3.norm_pow_two (fin - start)
    rw [h0] at h1
    simp only [V3.dot, V3.sub_x, V3.sub_y, V3.sub_z] at h1
    have hx : fin.x - start.x = 0 := by nlinarith [sq_nonneg (fin.x - start.x), sq_nonneg (fin.y - start.y), sq_nonneg (fin.z - start.z)]
    have hy : fin.y - start.y = 0 := by nlinarith [sq_nonneg (fin.x - start.x), sq_nonneg (fin.y - start.y), sq_nonneg (fin.z - start.z)]
    have hz : fin.z - start.z = 0 := by nlinarith [sq_nonneg (fin.x - start.x), sq_nonneg (fin.y - start.y), sq_nonneg (fin.z - start.z)]
    exact h (V3.ext (by linarith) (by linarith) (by linarith))
  have hs : V3.pointDistance start fin = V3.norm (fin - start) := by
    unfold V3.pointDistance
    have h1 := V3.norm_pow_two (start - fin)
    have h2 := V3.norm_pow_two (fin - start)
    have : V3.dot (start - fin) (start - fin) = V3.dot (fin - start) (fin - start) := by
      simp only [V3.dot, V3.sub_x, V3.sub_y, V3.sub_z]; ring
    rw [this, ← h2] at h1
    exact (sq_eq_sq₀ (V3.norm_nonneg _) (V3.norm_nonneg _)).mp h1
  unfold segmentAt V3.unitVector
  rw [if_neg hn]
  simp only
  rw [hs]
  congr 1
  ext <;> simp <;> field_simp

/-- **C220** the residual is the square of the distance of the two points. -/
theorem C220_residual {c : Circle3} (hc : c.Good) (start fin : V3 ℝ) (a t : ℝ) :
    residual c.radius (fin - start) c.frame.basis.v c.frame.basis.u (c.frame.origin - start) a t = V3.pointDistance (start + V3.smul a (fin - start)) (c.at t) ^ 2 := by
  unfold V3.pointDistance
  rw [V3.norm_pow_two]
  unfold residual Circle3.at
  rw [sin_two_mul]
  simp only [V3.dot, V3.sub_x, V3.sub_y, V3.sub_z, V3.add_x, V3.add_y, V3.add_z, V3.smul_x, V3.smul_y, V3.smul_z]
  ring

lemma circlePoint_at {c : Circle3} (hc : c.Good) (t : ℝ) : CirclePoint c (c.at t) := by
  obtain ⟨uu, vv, ww, uv, uw, vw, hd⟩ := hc.direct
  constructor
  · unfold V3.pointDistance
    have h := V3.norm_pow_two (c.at t - c.frame.origin)
    have : V3.dot (c.at t - c.frame.origin) (c.at t - c.frame.origin) = c.radius ^ 2 := by
      unfold Circle3.at
      simp only [V3.dot, V3.sub_x, V3.sub_y, V3.sub_z, V3.add_x, V3.add_y, V3.add_z, V3.smul_x, V3.smul_y, V3.smul_z] at *
      linear_combination (c.radius * cos t) ^ 2 * uu + (c.radius * sin t) ^ 2 * vv + 2 * c.radius ^ 2 * cos t * sin t * uv + c.radius ^ 2 * (sin_sq_add_cos_sq t)
    rw [this] at h
    exact (sq_eq_sq₀ (V3.norm_nonneg _) hc.pos.le).mp h
  · unfold Circle3.at
    simp only [V3.dot, V3.sub_x, V3.sub_y, V3.sub_z, V3.add_x, V3.add_y, V3.add_z, V3.smul_x, V3.smul_y, V3.smul_z] at *
    linear_combination c.radius * cos t * uw + c.radius * sin t * vw

/-- The value of the method. -/
lemma minimumDistancePoints_eq (solve : (ℝ → ℝ → ℝ) → ℝ × ℝ → ℝ × ℝ) {c : Circle3} (hc : c.Good) {start fin : V3 ℝ} (h : start ≠ fin) :
    let f := residual c.radius (fin - start) c.frame.basis.v c.frame.basis.u (c.frame.origin - start)
    let pt := fun r : ℝ × ℝ => (start + V3.smul r.1 (fin - start), c.at r.2)
    let r0 := solve f (1 / 2, 2 * π / 2)
    let r1 := solve f (1 / 2, 0)
    let r2 := solve f (1 / 2, 2 * π)
    (open Classical in minimumDistancePoints solve c start fin = .ok (if V3.pointDistance (pt r2).1 (pt r2).2 < 1 then pt r2 else
      if V3.pointDistance (pt r1).1 (pt r1).2 < 1 then pt r1 else (start + V3.smul r0.1 (fin - start), c.at r1.2))) := by
  intro f pt r0 r1 r2
  obtain ⟨uu, vv, ww, uv, uw, vw, hd⟩ := hc.direct
  have e0 : c.pointAtAbscissa 0 - c.frame.origin = V3.smul c.radius c.frame.basis.u := by
    have := pointAtAbscissa_eq hc 0
    rw [zero_mul] at this
    rw [this]
    unfold Circle3.at
    ext <;> simp
  unfold minimumDistancePoints
  rw [e0, unit_smul uu hc.pos]
  simp only [(direct_cross hc.direct).1, vv]
  rw [segmentAt_eq h]
  simp only [List.foldlM_cons, List.foldlM_nil, segmentAt_eq h, pointAtAbscissa_eq hc]
  rfl

/-- **C220** the two points are always a point of the segment and a point of the circle, if `least_squares` respects its bounds. -/
theorem C220_points (solve : (ℝ → ℝ → ℝ) → ℝ × ℝ → ℝ × ℝ) {c : Circle3} (hc : c.Good) {start fin : V3 ℝ} (h : start ≠ fin) (hs : ∀ f x0, 0 ≤ (solve f x0).1 ∧ (solve f x0).1 ≤ 1) :
    ∃ p q, minimumDistancePoints solve c start fin = .ok (p, q) ∧ circleSegmentDistance solve c start fin = .ok (V3.pointDistance p q) ∧ SegmentPoint start fin p ∧ CirclePoint c q := by
  have e := minimumDistancePoints_eq solve hc h
  dsimp only at e
  have key : ∀ r : (V3 ℝ × V3 ℝ), minimumDistancePoints solve c start fin = .ok r → SegmentPoint start fin r.1 ∧ CirclePoint c r.2 →
      ∃ p q, minimumDistancePoints solve c start fin = .ok (p, q) ∧ circleSegmentDistance solve c start fin = .ok (V3.pointDistance p q) ∧ SegmentPoint start fin p ∧ CirclePoint c q := by
    rintro ⟨p, q⟩ hr hp
    exact ⟨p, q, hr, by unfold circleSegmentDistance; rw [hr]; rfl, hp⟩
  refine key _ e ?_
  split_ifs
  · exact ⟨⟨_, (hs _ _).1, (hs _ _).2, rfl⟩, circlePoint_at hc _⟩
  · exact ⟨⟨_, (hs _ _).1, (hs _ _).2, rfl⟩, circlePoint_at hc _⟩
  · exact ⟨⟨_, (hs _ _).1, (hs _ _).2, rfl⟩, circlePoint_at hc _⟩

/-- Every point of the circle is at an angle of the turn. -/
lemma circle_angle {c : Circle3} (hc : c.Good) {q : V3 ℝ} (hq : CirclePoint c q) : ∃ t, 0 ≤ t ∧ t ≤ 2 * π ∧ q = c.at t := by
  obtain ⟨h1, h2⟩ := hq
  obtain ⟨uu, vv, ww, uv, uw, vw, hd⟩ := hc.direct
  have hr := hc.pos
  have hdec := decompose uu ww uw (q - c.frame.origin)
  rw [(direct_cross hc.direct).1, h2] at hdec
  set A := V3.dot (q - c.frame.origin) c.frame.basis.u with hA
  set B := V3.dot (q - c.frame.origin) c.frame.basis.v with hB
  have hq : q = c.frame.origin + V3.smul A c.frame.basis.u + V3.smul B c.frame.basis.v := by
    have hx := congrArg V3.x hdec
    have hy := congrArg V3.y hdec
    have hz := congrArg V3.z hdec
    simp only [V3.sub_x, V3.sub_y, V3.sub_z, V3.add_x, V3.add_y, V3.add_z, V3.smul_x, V3.smul_y, V3.smul_z] at hx hy hz
    ext
    · simp only [V3.add_x, V3.smul_x]; linarith
    · simp only [V3.add_y, V3.smul_y]; linarith
    · simp only [V3.add_z, V3.smul_z]; linarith
  have hAB : A ^ 2 + B ^ 2 = c.radius ^ 2 := by
    rw [← h1]
    unfold V3.pointDistance
    rw [V3.norm_pow_two]
    clear_value A B
    rw [hq]
    simp only [V3.dot, V3.sub_x, V3.sub_y, V3.sub_z, V3.add_x, V3.add_y, V3.add_z, V3.smul_x, V3.smul_y, V3.smul_z] at *
    linear_combination -A ^ 2 * uu - B ^ 2 * vv - 2 * A * B * uv
  obtain ⟨r1, r2, r3, r4⟩ := raw_spec (u1 := A / c.radius) (u2 := B / c.radius) (by
    rw [div_pow, div_pow, ← add_div, div_eq_one_iff_eq (by positivity), hAB])
  refine ⟨_, r1, r2.le, ?_⟩
  unfold Circle3.at
  rw [r3, r4, mul_div_cancel₀ _ hr.ne', mul_div_cancel₀ _ hr.ne']
  exact hq

/-- A solution gives a closest pair. -/
lemma closest_of_solves {c : Circle3} (hc : c.Good) {start fin : V3 ℝ} {x : ℝ × ℝ}
    (hx : Solves (residual c.radius (fin - start) c.frame.basis.v c.frame.basis.u (c.frame.origin - start)) x) :
    ClosestPair c start fin (start + V3.smul x.1 (fin - start)) (c.at x.2) := by
  obtain ⟨⟨a0, a1, -, -⟩, hm⟩ := hx
  refine ⟨⟨x.1, a0, a1, rfl⟩, circlePoint_at hc _, ?_⟩
  rintro p' q' ⟨a, b0, b1, rfl⟩ hq
  obtain ⟨t, t0, t1, rfl⟩ := circle_angle hc hq
  have h := hm a t b0 b1 t0 t1
  rw [C220_residual hc, C220_residual hc, ← pow_mul, ← pow_mul] at h
  exact le_of_pow_le_pow_left₀ (by norm_num) (V3.norm_nonneg _) h

/-- **C220** (partial) with an ideal `least_squares`, the two points are a closest pair when they are nearer than one, or when the first two solutions are the same. -/
theorem C220_distance_partial (solve : (ℝ → ℝ → ℝ) → ℝ × ℝ → ℝ × ℝ) {c : Circle3} (hc : c.Good) {start fin : V3 ℝ} (h : start ≠ fin)
    (hs : ∀ x0, Solves (residual c.radius (fin - start) c.frame.basis.v c.frame.basis.u (c.frame.origin - start)) (solve (residual c.radius (fin - start) c.frame.basis.v c.frame.basis.u (c.frame.origin - start)) x0))
    (hne : (∃ p q, SegmentPoint start fin p ∧ CirclePoint c q ∧ V3.pointDistance p q < 1) ∨
      (∀ x0 x1, solve (residual c.radius (fin - start) c.frame.basis.v c.frame.basis.u (c.frame.origin - start)) x0 = solve (residual c.radius (fin - start) c.frame.basis.v c.frame.basis.u (c.frame.origin - start)) x1)) :
    ∃ p q, minimumDistancePoints solve c start fin = .ok (p, q) ∧ circleSegmentDistance solve c start fin = .ok (V3.pointDistance p q) ∧ ClosestPair c start fin p q := by
  have e := minimumDistancePoints_eq solve hc h
  dsimp only at e
  have key : ∀ r : (V3 ℝ × V3 ℝ), minimumDistancePoints solve c start fin = .ok r → ClosestPair c start fin r.1 r.2 →
      ∃ p q, minimumDistancePoints solve c start fin = .ok (p, q) ∧ circleSegmentDistance solve c start fin = .ok (V3.pointDistance p q) ∧ ClosestPair c start fin p q := by
    rintro ⟨p, q⟩ hr hp
    exact ⟨p, q, hr, by unfold circleSegmentDistance; rw [hr]; rfl, hp⟩
  refine key _ e ?_
  split_ifs with i1 i2
  · exact closest_of_solves hc (hs _)
  · exact closest_of_solves hc (hs _)
  · rcases hne with ⟨p, q, hp, hq, hd⟩ | hne
    · exact absurd (lt_of_le_of_lt ((closest_of_solves hc (hs _)).2.2 p q hp hq) hd) i1
    · dsimp only
      rw [hne (1 / 2, 0) (1 / 2, 2 * π / 2)]
      exact closest_of_solves hc (hs _)

/-- The unit circle of the plane `z = 0`. -/
def flatCircle : Circle3 := ⟨⟨⟨0, 0, 0⟩, ⟨⟨1, 0, 0⟩, ⟨0, 1, 0⟩, ⟨0, 0, 1⟩⟩⟩, 1⟩

lemma flatCircle_good : flatCircle.Good := ⟨by unfold DirectOrthonormal flatCircle; simp [V3.dot, V3.cross], by norm_num [flatCircle]⟩

lemma flat_residual (a t h : ℝ) : residual flatCircle.radius ((⟨1, 0, h⟩ : V3 ℝ) - ⟨-1, 0, h⟩) flatCircle.frame.basis.v flatCircle.frame.basis.u (flatCircle.frame.origin - ⟨-1, 0, h⟩) a t =
    (-1 + 2 * a - cos t) ^ 2 + sin t ^ 2 + h ^ 2 := by
  unfold residual flatCircle
  rw [sin_two_mul]
  simp only [V3.dot, V3.sub_x, V3.sub_y, V3.sub_z]
  ring

lemma flat_solves (h : ℝ) (x : ℝ × ℝ) (hx : (0 ≤ x.1 ∧ x.1 ≤ 1 ∧ 0 ≤ x.2 ∧ x.2 ≤ 2 * π)) (h1 : -1 + 2 * x.1 = cos x.2) (h2 : sin x.2 = 0) :
    Solves (residual flatCircle.radius ((⟨1, 0, h⟩ : V3 ℝ) - ⟨-1, 0, h⟩) flatCircle.frame.basis.v flatCircle.frame.basis.u (flatCircle.frame.origin - ⟨-1, 0, h⟩)) x := by
  refine ⟨hx, fun a t _ _ _ _ => ?_⟩
  rw [flat_residual, flat_residual, h1, h2]
  apply pow_le_pow_left₀ (by positivity)
  nlinarith [sq_nonneg (-1 + 2 * a - cos t), sq_nonneg (sin t)]

/-- **C220** the claim is false: at a distance of one or more, two equally good solutions are mixed. -/
theorem C220_distance_counterexample : ¬ SegmentDistanceClaim := by
  classical
  intro hcl
  have hp := Real.pi_pos
  set solve : (ℝ → ℝ → ℝ) → ℝ × ℝ → ℝ × ℝ := fun _ x0 => if x0.2 = 0 then (1, 0) else (0, π) with hsolve
  have hne : (⟨-1, 0, 2⟩ : V3 ℝ) ≠ ⟨1, 0, 2⟩ := by
    intro e
    have := congrArg V3.x e
    norm_num at this
  obtain ⟨p, q, h1, h2⟩ := hcl solve flatCircle ⟨-1, 0, 2⟩ ⟨1, 0, 2⟩ flatCircle_good hne (by
    intro x0
    simp only [hsolve]
    split_ifs
    · exact flat_solves 2 _ ⟨by norm_num, by norm_num, le_rfl, by positivity⟩ (by norm_num) (by simp)
    · exact flat_solves 2 _ ⟨le_rfl, by norm_num, hp.le, by linarith⟩ (by norm_num) (by simp))
  have e := minimumDistancePoints_eq solve flatCircle_good hne
  have hd : ∀ a t : ℝ, V3.pointDistance ((⟨-1, 0, 2⟩ : V3 ℝ) + V3.smul a (⟨1, 0, 2⟩ - ⟨-1, 0, 2⟩)) (flatCircle.at t) ^ 2 = (-1 + 2 * a - cos t) ^ 2 + sin t ^ 2 + 2 ^ 2 := by
    intro a t
    rw [← C220_residual flatCircle_good, flat_residual]
  have far : ∀ a t : ℝ, ¬ V3.pointDistance ((⟨-1, 0, 2⟩ : V3 ℝ) + V3.smul a (⟨1, 0, 2⟩ - ⟨-1, 0, 2⟩)) (flatCircle.at t) < 1 := by
    intro a t hlt
    have h3 := hd a t
    have h4 := V3.norm_nonneg ((⟨-1, 0, 2⟩ : V3 ℝ) + V3.smul a (⟨1, 0, 2⟩ - ⟨-1, 0, 2⟩) - flatCircle.at t)
    change 0 ≤ V3.pointDistance _ _ at h4
    nlinarith [sq_nonneg (-1 + 2 * a - cos t), sq_nonneg (sin t)]
  dsimp only at e
  rw [if_neg (far _ _), if_neg (far _ _), h1] at e
  simp only [hsolve, if_true] at e
  rw [if_neg (by positivity : ¬ 2 * π / 2 = 0)] at e
  simp only [Except.ok.injEq, Prod.mk.injEq] at e
  obtain ⟨rfl, rfl⟩ := e
  have h3 := h2.2.2 _ _ ⟨0, le_rfl, zero_le_one, rfl⟩ (circlePoint_at flatCircle_good π)
  have h4 := hd 0 0
  have h5 := hd 0 π
  rw [cos_zero, sin_zero] at h4
  rw [cos_pi, sin_pi] at h5
  have h6 := V3.norm_nonneg ((⟨-1, 0, 2⟩ : V3 ℝ) + V3.smul 0 (⟨1, 0, 2⟩ - ⟨-1, 0, 2⟩) - flatCircle.at 0)
  change 0 ≤ V3.pointDistance _ _ at h6
  have h7 := pow_le_pow_left₀ h6 h3 2
  rw [h4, h5] at h7
  norm_num at h7

/-- The hypotheses of C220 are met. -/
example : ∃ p q, minimumDistancePoints (fun _ _ => (1, 0)) flatCircle ⟨-1, 0, 5⟩ ⟨1, 0, 5⟩ = .ok (p, q) ∧
    circleSegmentDistance (fun _ _ => (1, 0)) flatCircle ⟨-1, 0, 5⟩ ⟨1, 0, 5⟩ = .ok (V3.pointDistance p q) ∧ ClosestPair flatCircle ⟨-1, 0, 5⟩ ⟨1, 0, 5⟩ p q :=
  C220_distance_partial (fun _ _ => (1, 0)) flatCircle_good (by intro e; have := congrArg V3.x e; norm_num at this)
    (fun _ => flat_solves 5 _ ⟨by norm_num, by norm_num, le_rfl, by positivity⟩ (by norm_num) (by simp)) (.inr fun _ _ => rfl)

end Volmdlr.Arc
