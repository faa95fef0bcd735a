import Verif.Profile.CentreProps

/-!
# C131: the second moments of area of a contour and of a circle
-/

namespace Volmdlr.Profile

open Real Volmdlr.Angle Volmdlr.Arc

/-! ## Second moments along an arc -/

/-- The second moment about the horizontal axis, along an arc, about any point. -/
theorem arc_yy {a : Arc2} {ψ σ : ℝ} (hR : 0 < a.circle.radius) (hlen : a.length = a.circle.radius * a.angle)
    (hpath : ∀ s, a.pointAtAbscissa s =
        ⟨a.circle.frame.origin.x + a.circle.radius * cos (ψ + σ * (s / a.circle.radius)),
         a.circle.frame.origin.y + a.circle.radius * sin (ψ + σ * (s / a.circle.radius))⟩) (q : V2 ℝ) (R d e : ℝ) (hRd : R = a.circle.radius)
    (hd : d = a.circle.frame.origin.x - q.x) (he : e = a.circle.frame.origin.y - q.y) (P : ℝ → ℝ)
    (hP : P = fun θ => e ^ 2 * (d * R * sin θ - e * R * cos θ + R ^ 2 * θ) +
      2 * e * R * (d * R * (sin θ ^ 2 / 2) + e * R * ((θ - sin θ * cos θ) / 2) - R ^ 2 * cos θ) +
      R ^ 2 * (d * R * (sin θ ^ 3 / 3) + e * R * (cos θ ^ 3 / 3 - cos θ) + R ^ 2 * ((θ - sin θ * cos θ) / 2))) :
    sweep (fun p => p.y ^ 2) 2 q (.arc a) = 1 / 4 * (P (ψ + σ * a.angle) - P ψ) := by
  rw [arc_sweep hR hlen hpath (fun p => p.y ^ 2) 2 q P (by dsimp only; fun_prop) ?_]
  · norm_num
  · intro θ
    rw [hP]
    have c1 := hasDerivAt_sin θ
    have c2 := hasDerivAt_cos θ
    have c3 := hasDerivAt_id θ
    have k1 := (((c1.const_mul (d * R)).sub (c2.const_mul (e * R))).add (c3.const_mul (R ^ 2))).const_mul (e ^ 2)
    have k2 := (((((c1.pow 2).div_const 2).const_mul (d * R)).add (((c3.sub (c1.mul c2)).div_const 2).const_mul (e * R))).sub (c2.const_mul (R ^ 2))).const_mul (2 * e * R)
    have k3 := (((((c1.pow 3).div_const 3).const_mul (d * R)).add ((((c2.pow 3).div_const 3).sub c2).const_mul (e * R))).add
      (((c3.sub (c1.mul c2)).div_const 2).const_mul (R ^ 2))).const_mul (R ^ 2)
    refine ((k1.add k2).add k3).congr_deriv ?_
    rw [← hRd]
    have e1 : a.circle.frame.origin.x + R * cos θ - q.x = d + R * cos θ := by rw [hd]; ring
    have e2 : a.circle.frame.origin.y + R * sin θ - q.y = e + R * sin θ := by rw [he]; ring
    rw [e1, e2]
    have hp := sin_sq_add_cos_sq θ
    push_cast
    generalize sin θ = s at *
    generalize cos θ = c at *
    grind

theorem arc_xx {a : Arc2} {ψ σ : ℝ} (hR : 0 < a.circle.radius) (hlen : a.length = a.circle.radius * a.angle)
    (hpath : ∀ s, a.pointAtAbscissa s =
        ⟨a.circle.frame.origin.x + a.circle.radius * cos (ψ + σ * (s / a.circle.radius)),
         a.circle.frame.origin.y + a.circle.radius * sin (ψ + σ * (s / a.circle.radius))⟩) (q : V2 ℝ) (R d e : ℝ) (hRd : R = a.circle.radius)
    (hd : d = a.circle.frame.origin.x - q.x) (he : e = a.circle.frame.origin.y - q.y) (P : ℝ → ℝ)
    (hP : P = fun θ => d ^ 2 * (d * R * sin θ - e * R * cos θ + R ^ 2 * θ) +
      2 * d * R * (d * R * ((θ + sin θ * cos θ) / 2) + e * R * (sin θ ^ 2 / 2) + R ^ 2 * sin θ) +
      R ^ 2 * (d * R * (sin θ - sin θ ^ 3 / 3) - e * R * (cos θ ^ 3 / 3) + R ^ 2 * ((θ + sin θ * cos θ) / 2))) :
    sweep (fun p => p.x ^ 2) 2 q (.arc a) = 1 / 4 * (P (ψ + σ * a.angle) - P ψ) := by
  rw [arc_sweep hR hlen hpath (fun p => p.x ^ 2) 2 q P (by dsimp only; fun_prop) ?_]
  · norm_num
  · intro θ
    rw [hP]
    have c1 := hasDerivAt_sin θ
    have c2 := hasDerivAt_cos θ
    have c3 := hasDerivAt_id θ
    have k1 := (((c1.const_mul (d * R)).sub (c2.const_mul (e * R))).add (c3.const_mul (R ^ 2))).const_mul (d ^ 2)
    have k2 := (((((c3.add (c1.mul c2)).div_const 2).const_mul (d * R)).add (((c1.pow 2).div_const 2).const_mul (e * R))).add (c1.const_mul (R ^ 2))).const_mul (2 * d * R)
    have k3 := ((((c1.sub ((c1.pow 3).div_const 3)).const_mul (d * R)).sub (((c2.pow 3).div_const 3).const_mul (e * R))).add
      (((c3.add (c1.mul c2)).div_const 2).const_mul (R ^ 2))).const_mul (R ^ 2)
    refine ((k1.add k2).add k3).congr_deriv ?_
    rw [← hRd]
    have e1 : a.circle.frame.origin.x + R * cos θ - q.x = d + R * cos θ := by rw [hd]; ring
    have e2 : a.circle.frame.origin.y + R * sin θ - q.y = e + R * sin θ := by rw [he]; ring
    rw [e1, e2]
    have hp := sin_sq_add_cos_sq θ
    push_cast
    generalize sin θ = s at *
    generalize cos θ = c at *
    grind

theorem arc_xy {a : Arc2} {ψ σ : ℝ} (hR : 0 < a.circle.radius) (hlen : a.length = a.circle.radius * a.angle)
    (hpath : ∀ s, a.pointAtAbscissa s =
        ⟨a.circle.frame.origin.x + a.circle.radius * cos (ψ + σ * (s / a.circle.radius)),
         a.circle.frame.origin.y + a.circle.radius * sin (ψ + σ * (s / a.circle.radius))⟩) (q : V2 ℝ) (R d e : ℝ) (hRd : R = a.circle.radius)
    (hd : d = a.circle.frame.origin.x - q.x) (he : e = a.circle.frame.origin.y - q.y) (P : ℝ → ℝ)
    (hP : P = fun θ => d * e * (d * R * sin θ - e * R * cos θ + R ^ 2 * θ) +
      d * R * (d * R * (sin θ ^ 2 / 2) + e * R * ((θ - sin θ * cos θ) / 2) - R ^ 2 * cos θ) +
      e * R * (d * R * ((θ + sin θ * cos θ) / 2) + e * R * (sin θ ^ 2 / 2) + R ^ 2 * sin θ) +
      R ^ 2 * (e * R * (sin θ ^ 3 / 3) - d * R * (cos θ ^ 3 / 3) + R ^ 2 * (sin θ ^ 2 / 2))) :
    sweep (fun p => p.x * p.y) 2 q (.arc a) = 1 / 4 * (P (ψ + σ * a.angle) - P ψ) := by
  rw [arc_sweep hR hlen hpath (fun p => p.x * p.y) 2 q P (by dsimp only; fun_prop) ?_]
  · norm_num
  · intro θ
    rw [hP]
    have c1 := hasDerivAt_sin θ
    have c2 := hasDerivAt_cos θ
    have c3 := hasDerivAt_id θ
    have k1 := (((c1.const_mul (d * R)).sub (c2.const_mul (e * R))).add (c3.const_mul (R ^ 2))).const_mul (d * e)
    have k2 := (((((c1.pow 2).div_const 2).const_mul (d * R)).add (((c3.sub (c1.mul c2)).div_const 2).const_mul (e * R))).sub (c2.const_mul (R ^ 2))).const_mul (d * R)
    have k3 := (((((c3.add (c1.mul c2)).div_const 2).const_mul (d * R)).add (((c1.pow 2).div_const 2).const_mul (e * R))).add (c1.const_mul (R ^ 2))).const_mul (e * R)
    have k4 := (((((c1.pow 3).div_const 3).const_mul (e * R)).sub (((c2.pow 3).div_const 3).const_mul (d * R))).add
      (((c1.pow 2).div_const 2).const_mul (R ^ 2))).const_mul (R ^ 2)
    refine (((k1.add k2).add k3).add k4).congr_deriv ?_
    rw [← hRd]
    have e1 : a.circle.frame.origin.x + R * cos θ - q.x = d + R * cos θ := by rw [hd]; ring
    have e2 : a.circle.frame.origin.y + R * sin θ - q.y = e + R * sin θ := by rw [he]; ring
    rw [e1, e2]
    have hp := sin_sq_add_cos_sq θ
    push_cast
    generalize sin θ = s at *
    generalize cos θ = c at *
    grind

/-! ## Circles -/

/-- The second moments of a disc, as line integrals along its two halves. -/
theorem disc_moments (o q : V2 ℝ) {r : ℝ} (hr : 0 < r) :
    integralOf (fun p => p.y ^ 2) 2 q (twoHalves o r 1) = π * r ^ 4 / 4 + π * r ^ 2 * (o.y - q.y) ^ 2 ∧
    integralOf (fun p => p.x ^ 2) 2 q (twoHalves o r 1) = π * r ^ 4 / 4 + π * r ^ 2 * (o.x - q.x) ^ 2 ∧
    integralOf (fun p => p.x * p.y) 2 q (twoHalves o r 1) = π * r ^ 2 * ((o.x - q.x) * (o.y - q.y)) := by
  have hs : (1 : ℝ) = 1 ∨ (1 : ℝ) = -1 := Or.inl rfl
  obtain ⟨t1, ψ1, p1, l1, q1, s1, f1⟩ := half_shape hs (firstHalf_good o hr hs) rfl
  obtain ⟨t2, ψ2, p2, l2, q2, s2, f2⟩ := half_shape hs (secondHalf_good o hr hs) rfl
  have a1 : (firstHalf o r 1).angle = π := by simp [firstHalf, Arc2.angle]
  have a2 : (secondHalf o r 1).angle = π := by simp only [secondHalf, Arc2.angle]; ring
  have e1 : ψ1 = 0 := by rw [p1]; simp [firstHalf]
  have e2 : ψ2 = π := by rw [p2]; simp [secondHalf]
  have c3 : π + 1 * π = 2 * π := by ring
  have z : (0 : ℝ) + 1 * π = π := by ring
  simp only [twoHalves, integralOf, List.map_cons, List.map_nil, List.sum_cons, List.sum_nil]
  refine ⟨?_, ?_, ?_⟩
  · rw [arc_yy hr l1 q1 q r (o.x - q.x) (o.y - q.y) rfl rfl rfl _ rfl, arc_yy hr l2 q2 q r (o.x - q.x) (o.y - q.y) rfl rfl rfl _ rfl, a1, a2, e1, e2, c3, z]
    simp only [sin_zero, cos_zero, sin_pi, cos_pi, sin_two_pi, cos_two_pi]
    ring
  · rw [arc_xx hr l1 q1 q r (o.x - q.x) (o.y - q.y) rfl rfl rfl _ rfl, arc_xx hr l2 q2 q r (o.x - q.x) (o.y - q.y) rfl rfl rfl _ rfl, a1, a2, e1, e2, c3, z]
    simp only [sin_zero, cos_zero, sin_pi, cos_pi, sin_two_pi, cos_two_pi]
    ring
  · rw [arc_xy hr l1 q1 q r (o.x - q.x) (o.y - q.y) rfl rfl rfl _ rfl, arc_xy hr l2 q2 q r (o.x - q.x) (o.y - q.y) rfl rfl rfl _ rfl, a1, a2, e1, e2, c3, z]
    simp only [sin_zero, cos_zero, sin_pi, cos_pi, sin_two_pi, cos_two_pi]
    ring

/-- **C131** (full statement, false) the second moments of area of a circle about a point are those of the disc. -/
def C131_circle_full_statement : Prop :=
  ∀ (o point : V2 ℝ) (r : ℝ), 0 < r → circleMoments (disc o r 1) point =
    (integralOf (fun p => p.y ^ 2) 2 point (twoHalves o r 1), integralOf (fun p => p.x ^ 2) 2 point (twoHalves o r 1),
      integralOf (fun p => p.x * p.y) 2 point (twoHalves o r 1))

/-- **C131** (partial) the moments about the two axes are right; the product of inertia is when the point is on an axis of the circle. -/
theorem C131_circle_partial (o point : V2 ℝ) {r : ℝ} (hr : 0 < r) :
    (circleMoments (disc o r 1) point).1 = integralOf (fun p => p.y ^ 2) 2 point (twoHalves o r 1) ∧
    (circleMoments (disc o r 1) point).2.1 = integralOf (fun p => p.x ^ 2) 2 point (twoHalves o r 1) ∧
    (o.x = point.x ∨ o.y = point.y → (circleMoments (disc o r 1) point).2.2 = integralOf (fun p => p.x * p.y) 2 point (twoHalves o r 1)) := by
  obtain ⟨h1, h2, h3⟩ := disc_moments o point hr
  rw [h1, h2, h3]
  refine ⟨rfl, rfl, ?_⟩
  intro h
  simp only [circleMoments, huygens2d, disc]
  rcases h with h | h <;> rw [h] <;> ring

/-- **C131** and out of the axes it has the wrong sign. -/
theorem C131_circle_sign (o point : V2 ℝ) {r : ℝ} (hr : 0 < r) :
    (circleMoments (disc o r 1) point).2.2 = -integralOf (fun p => p.x * p.y) 2 point (twoHalves o r 1) := by
  rw [(disc_moments o point hr).2.2]
  simp only [circleMoments, huygens2d, disc]
  ring

/-- **C131** counterexample: for the unit circle of centre (1, 1), about the origin, the code gives `-π` instead of `π`. -/
theorem C131_circle_counterexample : (circleMoments (disc ⟨1, 1⟩ 1 1) ⟨0, 0⟩).2.2 = -π ∧ ¬C131_circle_full_statement := by
  have h1 : (circleMoments (disc ⟨1, 1⟩ 1 1) ⟨0, 0⟩).2.2 = -π := by
    simp [circleMoments, huygens2d, disc]
  refine ⟨h1, fun h => ?_⟩
  have h2 := congrArg (fun m => m.2.2) (h ⟨1, 1⟩ ⟨0, 0⟩ 1 one_pos)
  simp only at h2
  rw [h1, (disc_moments _ _ one_pos).2.2] at h2
  have := pi_pos
  norm_num at h2
  linarith

/-! ## Contours -/

/-- The arcs are on circles of centre `point`, with the axes of the plane. -/
def CentredArcs (contour : List Edge) (point : V2 ℝ) : Prop :=
  ∀ a, .arc a ∈ contour → a.circle.frame.origin = point ∧ a.circle.frame.basis.u = ⟨1, 0⟩

/-- The triangle of an arc, with the sign of `_triangle_moment_inertia` removed. -/
theorem triangle_abs (a : Arc2) (x y z t k : ℝ) (hx : x = a.start.x - a.circle.frame.origin.x) (hy : y = a.start.y - a.circle.frame.origin.y)
    (hz : z = a.fin.x - a.circle.frame.origin.x) (ht : t = a.fin.y - a.circle.frame.origin.y) (hk : k = x * t - z * y) :
    triangleMoments a = ((y ^ 2 + y * t + t ^ 2) * |k| / 12, (x ^ 2 + x * z + z ^ 2) * |k| / 12, (x * t + 2 * x * y + 2 * z * t + z * y) * |k| / 24) := by
  unfold triangleMoments
  simp only [V2.sub_x, V2.sub_y]
  rw [← hx, ← hy, ← hz, ← ht, ← hk]
  have hA : 0 ≤ y ^ 2 + y * t + t ^ 2 := by nlinarith [sq_nonneg (y + t), sq_nonneg (y - t)]
  have h0 : y ^ 2 + y * t + t ^ 2 = 0 → k = 0 := by
    intro h
    have hy0 : y = 0 := by nlinarith [sq_nonneg (y + 2 * t), sq_nonneg y, sq_nonneg t]
    have ht0 : t = 0 := by nlinarith [sq_nonneg (t + 2 * y), sq_nonneg y, sq_nonneg t]
    rw [hk, hy0, ht0]; ring
  rcases lt_or_ge k 0 with hneg | hpos
  · have hA' : 0 < y ^ 2 + y * t + t ^ 2 := lt_of_le_of_ne hA (fun h => by have := h0 h.symm; linarith)
    rw [abs_of_neg hneg, if_pos (by have := mul_neg_of_pos_of_neg hA' hneg; linarith)]
    refine Prod.ext ?_ (Prod.ext ?_ ?_) <;> dsimp only <;> ring
  · rw [abs_of_nonneg hpos, if_neg (not_lt.2 (by positivity))]

/-- What an arc adds to the second moments about the centre of its circle: the triangle of its chord, and `straight_line_second_moment_area`. -/
theorem arc_second {a : Arc2} (h : GoodArc a) (hu : a.circle.frame.basis.u = ⟨1, 0⟩) :
    sweep (fun p => p.y ^ 2) 2 a.circle.frame.origin (.arc a) = sweep (fun p => p.y ^ 2) 2 a.circle.frame.origin (.seg a.start a.fin) +
      ((Edge.arc a).straightLineMoments a.circle.frame.origin).1 ∧
    sweep (fun p => p.x ^ 2) 2 a.circle.frame.origin (.arc a) = sweep (fun p => p.x ^ 2) 2 a.circle.frame.origin (.seg a.start a.fin) +
      ((Edge.arc a).straightLineMoments a.circle.frame.origin).2.1 ∧
    (a.circle.IsTrigo → sweep (fun p => p.x * p.y) 2 a.circle.frame.origin (.arc a) =
      sweep (fun p => p.x * p.y) 2 a.circle.frame.origin (.seg a.start a.fin) + ((Edge.arc a).straightLineMoments a.circle.frame.origin).2.2) := by
  obtain ⟨ψ, σ, hs, ht, h0, h1, hR, hlen, hpath, hstart, hfin, hψ⟩ := arc_shape h
  have hψ := hψ hu
  obtain ⟨R, hRd⟩ : ∃ R, R = a.circle.radius := ⟨_, rfl⟩
  obtain ⟨o, ho⟩ : ∃ o, o = a.circle.frame.origin := ⟨_, rfl⟩
  have hyy := arc_yy hR hlen hpath o R 0 0 hRd (by rw [ho]; ring) (by rw [ho]; ring) _ rfl
  have hxx := arc_xx hR hlen hpath o R 0 0 hRd (by rw [ho]; ring) (by rw [ho]; ring) _ rfl
  have hxy := arc_xy hR hlen hpath o R 0 0 hRd (by rw [ho]; ring) (by rw [ho]; ring) _ rfl
  rw [← ho]
  rw [hyy, hxx, hxy, seg_yy, seg_xx, seg_xy]
  have hae : a.angleEnd = a.angleStart + a.angle := by unfold Arc2.angle; ring
  have x1 : a.start.x - o.x = R * cos ψ := by rw [hstart, ← ho, ← hRd]; dsimp only; ring
  have y1 : a.start.y - o.y = R * sin ψ := by rw [hstart, ← ho, ← hRd]; dsimp only; ring
  have x2 : a.fin.x - o.x = R * cos (ψ + σ * a.angle) := by rw [hfin, ← ho, ← hRd]; dsimp only; ring
  have y2 : a.fin.y - o.y = R * sin (ψ + σ * a.angle) := by rw [hfin, ← ho, ← hRd]; dsimp only; ring
  have hk : R * cos ψ * (R * sin (ψ + σ * a.angle)) - R * cos (ψ + σ * a.angle) * (R * sin ψ) = R ^ 2 * (σ * sin a.angle) := by
    have : sin (σ * a.angle) = σ * sin a.angle := by rcases hs with e | e <;> rw [e] <;> simp
    rw [← this]
    have e : sin (σ * a.angle) = sin (ψ + σ * a.angle) * cos ψ - cos (ψ + σ * a.angle) * sin ψ := by rw [← sin_sub]; ring_nf
    rw [e]; ring
  have hcr : V2.cross (a.start - o) (a.fin - o) = R ^ 2 * (σ * sin a.angle) := by
    simp only [V2.cross, V2.sub_x, V2.sub_y, x1, x2, y1, y2]
    rw [← hk]; ring
  have htri := triangle_abs a (R * cos ψ) (R * sin ψ) (R * cos (ψ + σ * a.angle)) (R * sin (ψ + σ * a.angle)) (R ^ 2 * (σ * sin a.angle))
    (by rw [← ho, x1]) (by rw [← ho, y1]) (by rw [← ho, x2]) (by rw [← ho, y2]) hk.symm
  have hR0 : 0 < R := by rw [hRd]; exact hR
  have hmom : (Edge.arc a).straightLineMoments o = combineMoments a (sectorMoments a) (triangleMoments a) := by
    simp only [Edge.straightLineMoments, huygens2d, ← ho, sub_self]
    refine Prod.ext ?_ (Prod.ext ?_ ?_) <;> dsimp only <;> ring
  rw [hmom, hcr, x1, x2, y1, y2, htri]
  unfold sectorMoments
  rw [if_neg (by rw [hae]; linarith), hae, ← hRd]
  dsimp only
  have habs : |R ^ 2 * (σ * sin a.angle)| = R ^ 2 * |sin a.angle| := by
    rw [abs_mul, abs_mul, abs_of_pos (by positivity : 0 < R ^ 2)]
    rcases hs with e | e <;> rw [e] <;> simp
  rw [habs]
  have dbl : ∀ t : ℝ, sin (2 * t) = 2 * sin t * cos t := fun t => sin_two_mul t
  rw [dbl, dbl]
  -- angles with the sign of the circle
  have t1 : a.angleStart = σ * ψ := by rw [hψ]; rcases hs with e | e <;> rw [e] <;> ring
  have t2 : a.angleStart + a.angle = σ * (ψ + σ * a.angle) := by rw [hψ]; rcases hs with e | e <;> rw [e] <;> ring
  have hsn : ∀ t, sin (σ * t) = σ * sin t := by intro t; rcases hs with e | e <;> rw [e] <;> simp
  have hcs : ∀ t, cos (σ * t) = cos t := by intro t; rcases hs with e | e <;> rw [e] <;> simp
  have hd : a.angleStart + a.angle - a.angleStart = a.angle := by ring
  rw [hd, t2, t1, hsn, hsn, hcs, hcs]
  unfold combineMoments
  have q1 := sin_sq_add_cos_sq ψ
  have q2 := sin_sq_add_cos_sq (ψ + σ * a.angle)
  generalize hθ : ψ + σ * a.angle = θ at *
  have hθ' : σ * a.angle = θ - ψ := by rw [← hθ]; ring
  have hang : a.angle = σ * (θ - ψ) := by rw [← hθ']; rcases hs with e | e <;> rw [e] <;> ring
  by_cases hlt : a.angle < π
  · have hsin : |sin a.angle| = sin a.angle := abs_of_nonneg (sin_nonneg_of_nonneg_of_le_pi h0.le hlt.le)
    rw [if_pos hlt, hsin]
    generalize sin a.angle = S at *
    rcases hs with e | e
    · rw [if_pos (ht.2 e)]
      rw [e] at hang
      rw [hang, e]
      dsimp only
      refine ⟨by ring, by ring, fun _ => ?_⟩
      linear_combination (R ^ 4 / 8) * q2 - (R ^ 4 / 8) * q1
    · rw [if_neg (fun hc => by have := ht.1 hc; rw [e] at this; norm_num at this)]
      rw [e] at hang
      rw [hang, e]
      dsimp only
      refine ⟨by ring, by ring, fun hc => ?_⟩
      have := ht.1 hc; rw [e] at this; norm_num at this
  · have hsin : |sin a.angle| = -sin a.angle := by
      have h3 : sin a.angle ≤ 0 := by
        have := sin_nonneg_of_nonneg_of_le_pi (x := 2 * π - a.angle) (by linarith) (by linarith [not_lt.1 hlt])
        rw [sin_two_pi_sub] at this; linarith
      exact abs_of_nonpos h3
    rw [if_neg hlt, hsin]
    generalize sin a.angle = S at *
    rcases hs with e | e
    · rw [if_pos (ht.2 e)]
      rw [e] at hang
      rw [hang, e]
      dsimp only
      refine ⟨by ring, by ring, fun _ => ?_⟩
      linear_combination (R ^ 4 / 8) * q2 - (R ^ 4 / 8) * q1
    · rw [if_neg (fun hc => by have := ht.1 hc; rw [e] at this; norm_num at this)]
      rw [e] at hang
      rw [hang, e]
      dsimp only
      refine ⟨by ring, by ring, fun hc => ?_⟩
      have := ht.1 hc; rw [e] at this; norm_num at this

theorem foldl_add_sum3 {α : Type*} (f g h : α → ℝ) (l : List α) (m : ℝ × ℝ × ℝ) :
    l.foldl (fun (acc : ℝ × ℝ × ℝ) (e : α) => (acc.1 + f e, acc.2.1 + g e, acc.2.2 + h e)) m =
      (m.1 + (l.map f).sum, m.2.1 + (l.map g).sum, m.2.2 + (l.map h).sum) := by
  induction l generalizing m with
  | nil => simp
  | cons a l ih =>
    rw [List.foldl_cons, ih]
    simp only [List.map_cons, List.sum_cons, add_assoc]

/-- The moments of the polygon of the starts have the sign of its direction. -/
def MomentSign (contour : List Edge) (point : V2 ℝ) : Prop :=
  ∀ s, orientation contour = some s → ((rawMoments (edgePolygon contour) point).1 < 0 ↔ s = -1)

/-- **C131** (full statement, false) the second moments of area of a contour about a point are those of what it bounds. -/
def C131_contour_full_statement : Prop :=
  ∀ (contour : List Edge) (point : V2 ℝ), IsContour contour → MomentSign contour point →
    (∀ s, orientation contour = some s → 0 < s * integralOf (fun _ => 1) 0 ⟨0, 0⟩ contour) →
    ∀ m, contourMoments contour point = .ok m →
      m.1 = (SignType.sign (integralOf (fun _ => 1) 0 ⟨0, 0⟩ contour) : ℝ) * integralOf (fun p => p.y ^ 2) 2 point contour ∧
      m.2.1 = (SignType.sign (integralOf (fun _ => 1) 0 ⟨0, 0⟩ contour) : ℝ) * integralOf (fun p => p.x ^ 2) 2 point contour ∧
      m.2.2 = (SignType.sign (integralOf (fun _ => 1) 0 ⟨0, 0⟩ contour) : ℝ) * integralOf (fun p => p.x * p.y) 2 point contour

/-- **C131** (partial) they are, about the centre of the arcs, when the circles have the axes of the plane; the product of inertia when the arcs are
counter-clockwise. -/
theorem C131_contour_partial {contour : List Edge} {point : V2 ℝ} (h : IsContour contour) (hc : CentredArcs contour point) (hm : MomentSign contour point)
    {s : ℝ} (hs : s = 1 ∨ s = -1) (hor : orientation contour = some s)
    (hagree : 0 < s * integralOf (fun _ => 1) 0 ⟨0, 0⟩ contour) :
    ∃ m, contourMoments contour point = .ok m ∧
      m.1 = (SignType.sign (integralOf (fun _ => 1) 0 ⟨0, 0⟩ contour) : ℝ) * integralOf (fun p => p.y ^ 2) 2 point contour ∧
      m.2.1 = (SignType.sign (integralOf (fun _ => 1) 0 ⟨0, 0⟩ contour) : ℝ) * integralOf (fun p => p.x ^ 2) 2 point contour ∧
      ((∀ a, .arc a ∈ contour → a.circle.IsTrigo) →
        m.2.2 = (SignType.sign (integralOf (fun _ => 1) 0 ⟨0, 0⟩ contour) : ℝ) * integralOf (fun p => p.x * p.y) 2 point contour) := by
  have hsign : (SignType.sign (integralOf (fun _ => 1) 0 ⟨0, 0⟩ contour) : ℝ) = s := by
    rcases hs with e | e
    · rw [e, one_mul] at hagree; rw [sign_pos hagree, e]; rfl
    · rw [e, neg_one_mul, Left.neg_pos_iff] at hagree; rw [sign_neg hagree, e]; simp
  rw [hsign]
  rw [contourMoments, hor]
  dsimp only
  rw [foldl_add_sum3]
  refine ⟨_, rfl, ?_⟩
  have hpoly : secondMomentArea (edgePolygon contour) point =
      (s * ((rawMoments (edgePolygon contour) point).1 / 12), s * ((rawMoments (edgePolygon contour) point).2.1 / 12),
        s * ((rawMoments (edgePolygon contour) point).2.2 / 24)) := by
    rw [secondMoment_eq]
    dsimp only
    rcases hs with e | e
    · rw [if_neg (fun hn => by have := (hm s hor).1 hn; rw [e] at this; norm_num at this), e]
      simp only [one_mul]
    · rw [if_pos ((hm s hor).2 e), e]
      refine Prod.ext ?_ (Prod.ext ?_ ?_) <;> dsimp only <;> ring
  rw [hpoly]
  dsimp only
  -- the chords
  have ch : ∀ (p : V2 ℝ → ℝ) (f : V2 ℝ → V2 ℝ → ℝ) (k : ℝ), (∀ a b, sweep p 2 point (.seg a b) = k * f a b) →
      (contour.map fun e => sweep p 2 point (.seg e.start e.fin)).sum = k * cyclicSum f (edgePolygon contour) := by
    intro p f k hf
    have e1 : (contour.map fun e => sweep p 2 point (.seg e.start e.fin)) = contour.map fun e => k * f e.start e.fin :=
      List.map_congr_left fun e _ => hf _ _
    rw [e1, List.sum_map_mul_left, sum_chords f h.closed, edgePolygon_eq h.apart]
  have split : ∀ (p : V2 ℝ → ℝ) (g : Edge → ℝ), (∀ e ∈ contour, sweep p 2 point e = sweep p 2 point (.seg e.start e.fin) + g e) →
      integralOf p 2 point contour = (contour.map fun e => sweep p 2 point (.seg e.start e.fin)).sum + (contour.map g).sum := by
    intro p g hg
    unfold integralOf
    rw [List.map_congr_left hg, List.sum_map_add]
  have he : ∀ e ∈ contour, sweep (fun p => p.y ^ 2) 2 point e = sweep (fun p => p.y ^ 2) 2 point (.seg e.start e.fin) + (e.straightLineMoments point).1 ∧
      sweep (fun p => p.x ^ 2) 2 point e = sweep (fun p => p.x ^ 2) 2 point (.seg e.start e.fin) + (e.straightLineMoments point).2.1 ∧
      ((∀ a, .arc a ∈ contour → a.circle.IsTrigo) →
        sweep (fun p => p.x * p.y) 2 point e = sweep (fun p => p.x * p.y) 2 point (.seg e.start e.fin) + (e.straightLineMoments point).2.2) := by
    intro e hmem
    cases e with
    | seg a b => simp [Edge.straightLineMoments, Edge.start, Edge.fin]
    | arc a =>
      obtain ⟨ho, hu⟩ := hc a hmem
      obtain ⟨h1, h2, h3⟩ := arc_second (h.arcs a hmem) hu
      rw [ho] at h1 h2 h3
      exact ⟨h1, h2, fun hall => h3 (hall a hmem)⟩
  refine ⟨?_, ?_, fun hall => ?_⟩
  · rw [split _ _ fun e hmem => (he e hmem).1, List.sum_map_mul_left,
      ch _ (fun p q : V2 ℝ => ((p.y - point.y) ^ 2 + (p.y - point.y) * (q.y - point.y) + (q.y - point.y) ^ 2) *
        ((p.x - point.x) * (q.y - point.y) - (q.x - point.x) * (p.y - point.y))) (1 / 12)]
    · unfold rawMoments; dsimp only; ring
    · intro a b; rw [seg_yy]; simp only [V2.cross, V2.sub_x, V2.sub_y]; ring
  · rw [split _ _ fun e hmem => (he e hmem).2.1, List.sum_map_mul_left,
      ch _ (fun p q : V2 ℝ => ((p.x - point.x) ^ 2 + (p.x - point.x) * (q.x - point.x) + (q.x - point.x) ^ 2) *
        ((p.x - point.x) * (q.y - point.y) - (q.x - point.x) * (p.y - point.y))) (1 / 12)]
    · unfold rawMoments; dsimp only; ring
    · intro a b; rw [seg_xx]; simp only [V2.cross, V2.sub_x, V2.sub_y]; ring
  · rw [split _ _ fun e hmem => (he e hmem).2.2 hall, List.sum_map_mul_left,
      ch _ (fun p q : V2 ℝ => ((p.x - point.x) * (q.y - point.y) + 2 * (p.x - point.x) * (p.y - point.y) +
        2 * (q.x - point.x) * (q.y - point.y) + (q.x - point.x) * (p.y - point.y)) *
        ((p.x - point.x) * (q.y - point.y) - (q.x - point.x) * (p.y - point.y))) (1 / 24)]
    · unfold rawMoments; dsimp only; ring
    · intro a b; rw [seg_xy]; simp only [V2.cross, V2.sub_x, V2.sub_y]; ring

/-! ## Concrete contours -/

/-- A half disc. -/
noncomputable def halfMoon (o : V2 ℝ) : List Edge := [.arc (firstHalf o 1 1), .seg ⟨o.x - 1, o.y⟩ ⟨o.x + 1, o.y⟩]

theorem halfMoon_contour (o : V2 ℝ) : IsContour (halfMoon o) := by
  refine ⟨?_, ?_, ?_⟩
  · simp [halfMoon, Edge.fin, Edge.start, firstHalf, List.rotate]
  · have e : (halfMoon o).map Edge.start = [⟨o.x + 1, o.y⟩, ⟨o.x - 1, o.y⟩] := by simp [halfMoon, Edge.start, firstHalf]
    rw [e]
    exact List.isChain_cons_cons.2 ⟨far_apart (half_dist o le_rfl), List.isChain_singleton _⟩
  · intro a ha
    simp only [halfMoon, List.mem_cons, Edge.arc.injEq, reduceCtorEq, List.not_mem_nil, or_false] at ha
    rw [ha]
    exact firstHalf_good _ one_pos (Or.inl rfl)

theorem halfMoon_polygon (o : V2 ℝ) : edgePolygon (halfMoon o) = [⟨o.x + 1, o.y⟩, ⟨o.x - 1, o.y⟩] := by
  rw [edgePolygon_eq (halfMoon_contour o).apart]
  simp [halfMoon, Edge.start, firstHalf]

theorem halfMoon_orientation (o : V2 ℝ) : orientation (halfMoon o) = some 1 := by
  unfold orientation
  rw [halfMoon_polygon]
  simp [Hull.isTrigo]

theorem halfMoon_area (o q : V2 ℝ) : integralOf (fun _ => 1) 0 q (halfMoon o) = π / 2 := by
  rw [area_decomposition (halfMoon_contour o), halfMoon_polygon]
  have h1 : signedArea [(⟨o.x + 1, o.y⟩ : V2 ℝ), ⟨o.x - 1, o.y⟩] = 0 := by simp [signedArea, cyclicSum, chainSum, crossPQ]; ring
  rw [h1]
  simp only [halfMoon, List.map_cons, List.map_nil, Edge.straightLineArea, List.sum_cons, List.sum_nil]
  rw [(twoHalves_sla o (Or.inl rfl)).1]
  ring

theorem halfMoon_raw (o q : V2 ℝ) : rawMoments (edgePolygon (halfMoon o)) q = (0, 0, 0) := by
  rw [halfMoon_polygon]
  unfold rawMoments
  simp only [cyclicSum, chainSum, List.singleton_append]
  refine Prod.ext ?_ (Prod.ext ?_ ?_) <;> dsimp only <;> ring

theorem halfMoon_sign (o q : V2 ℝ) : MomentSign (halfMoon o) q := by
  intro s hor
  rw [halfMoon_orientation] at hor
  rw [halfMoon_raw, ← Option.some.inj hor]
  norm_num

theorem halfMoon_agree (o : V2 ℝ) (s : ℝ) (hor : orientation (halfMoon o) = some s) : 0 < s * integralOf (fun _ => 1) 0 ⟨0, 0⟩ (halfMoon o) := by
  rw [halfMoon_orientation] at hor
  rw [← Option.some.inj hor, halfMoon_area]
  have := pi_pos
  linarith

theorem halfMoon_yy (o q : V2 ℝ) : integralOf (fun p => p.y ^ 2) 2 q (halfMoon o) = π / 8 + π / 2 * (o.y - q.y) ^ 2 + 4 / 3 * (o.y - q.y) := by
  have hs : (1 : ℝ) = 1 ∨ (1 : ℝ) = -1 := Or.inl rfl
  obtain ⟨t1, ψ1, p1, l1, q1, s1, f1⟩ := half_shape hs (firstHalf_good o one_pos hs) rfl
  have a1 : (firstHalf o 1 1).angle = π := by simp [firstHalf, Arc2.angle]
  have e1 : ψ1 = 0 := by rw [p1]; simp [firstHalf]
  have z : (0 : ℝ) + 1 * π = π := by ring
  simp only [halfMoon, integralOf, List.map_cons, List.map_nil, List.sum_cons, List.sum_nil]
  rw [arc_yy one_pos l1 q1 q 1 (o.x - q.x) (o.y - q.y) rfl rfl rfl _ rfl, seg_yy, a1, e1, z]
  simp only [sin_zero, cos_zero, sin_pi, cos_pi, V2.cross, V2.sub_x, V2.sub_y]
  ring

/-- A concrete case: the half disc of centre (3, 4) about its centre. -/
example : ∃ m, contourMoments (halfMoon ⟨3, 4⟩) ⟨3, 4⟩ = .ok m ∧ m.1 = π / 8 := by
  have hc : CentredArcs (halfMoon ⟨3, 4⟩) ⟨3, 4⟩ := by
    intro a ha
    simp only [halfMoon, List.mem_cons, Edge.arc.injEq, reduceCtorEq, List.not_mem_nil, or_false] at ha
    rw [ha]
    exact ⟨rfl, rfl⟩
  obtain ⟨m, hm, h1, -⟩ := C131_contour_partial (halfMoon_contour _) hc (halfMoon_sign _ _) (Or.inl rfl) (halfMoon_orientation _)
    (halfMoon_agree _ 1 (halfMoon_orientation _))
  refine ⟨m, hm, ?_⟩
  rw [h1, halfMoon_area, sign_pos (by positivity), halfMoon_yy]
  simp

/-- **C131** counterexample: the half disc of centre (0, 1) about the origin: the transport is made from the centre of the circle as if it were the centre
of mass, and `4 / 3` is missing. -/
theorem C131_contour_counterexample :
    (∃ m, contourMoments (halfMoon ⟨0, 1⟩) ⟨0, 0⟩ = .ok m ∧ m.1 = π / 8 + π / 2) ∧
    integralOf (fun p => p.y ^ 2) 2 ⟨0, 0⟩ (halfMoon ⟨0, 1⟩) = π / 8 + π / 2 + 4 / 3 ∧ ¬C131_contour_full_statement := by
  have hyy : integralOf (fun p => p.y ^ 2) 2 ⟨0, 0⟩ (halfMoon ⟨0, 1⟩) = π / 8 + π / 2 + 4 / 3 := by
    rw [halfMoon_yy]; norm_num
  have hcode : ∃ m, contourMoments (halfMoon ⟨0, 1⟩) ⟨0, 0⟩ = .ok m ∧ m.1 = π / 8 + π / 2 := by
    rw [contourMoments, halfMoon_orientation]
    dsimp only
    rw [foldl_add_sum3, secondMoment_eq, halfMoon_raw]
    refine ⟨_, rfl, ?_⟩
    have hc : CentredArcs (halfMoon ⟨0, 1⟩) ⟨0, 1⟩ := by
      intro a ha
      simp only [halfMoon, List.mem_cons, Edge.arc.injEq, reduceCtorEq, List.not_mem_nil, or_false] at ha
      rw [ha]
      exact ⟨rfl, rfl⟩
    have ht : (disc ⟨0, 1⟩ 1 1).IsTrigo := by simp [Circle2.IsTrigo, disc, V2.cross]
    have hsla := (twoHalves_sla ⟨0, 1⟩ (r := 1) (σ := 1) (Or.inl rfl)).1
    simp only [halfMoon, List.map_cons, List.map_nil, List.sum_cons, List.sum_nil, Edge.straightLineMoments, huygens2d, hsla]
    unfold combineMoments
    have a1 : (firstHalf ⟨0, 1⟩ 1 1).angle = π := by simp [firstHalf, Arc2.angle]
    have ht' : (firstHalf ⟨0, 1⟩ 1 1).circle.IsTrigo := ht
    have hna : ¬(firstHalf ⟨0, 1⟩ 1 1).angle < π := by rw [a1]; exact lt_irrefl _
    rw [if_neg hna, if_pos ht']
    have hpi := pi_pos
    simp [sectorMoments, triangleMoments, firstHalf, disc, not_lt.2 hpi.le]
    ring
  refine ⟨hcode, hyy, fun h => ?_⟩
  obtain ⟨m, hm, hm1⟩ := hcode
  have := (h _ _ (halfMoon_contour _) (halfMoon_sign _ _) (halfMoon_agree _) m hm).1
  rw [hm1, hyy, halfMoon_area, sign_pos (by positivity)] at this
  simp at this

end Volmdlr.Profile
