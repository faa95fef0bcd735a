import Verif.Profile.AreaProps
import Verif.Segment.Props
import Mathlib.Tactic.Linarith

/-!
# C130: the centre of mass of a contour of line segments and arcs
-/

namespace Volmdlr.Profile

open Real Volmdlr.Angle Volmdlr.Arc

/-! ## First moments along an arc -/

/-- What an arc adds to the first moments: the triangle of its chord, and the part between the arc and the chord. -/
theorem arc_first {a : Arc2} {ψ σ : ℝ} (hs : σ = 1 ∨ σ = -1) (ht : a.circle.IsTrigo ↔ σ = 1) (hR : 0 < a.circle.radius)
    (hlen : a.length = a.circle.radius * a.angle)
    (hpath : ∀ s, a.pointAtAbscissa s =
        ⟨a.circle.frame.origin.x + a.circle.radius * cos (ψ + σ * (s / a.circle.radius)),
         a.circle.frame.origin.y + a.circle.radius * sin (ψ + σ * (s / a.circle.radius))⟩)
    (hstart : a.start = ⟨a.circle.frame.origin.x + a.circle.radius * cos ψ, a.circle.frame.origin.y + a.circle.radius * sin ψ⟩)
    (hfin : a.fin = ⟨a.circle.frame.origin.x + a.circle.radius * cos (ψ + σ * a.angle), a.circle.frame.origin.y + a.circle.radius * sin (ψ + σ * a.angle)⟩) :
    sweep V2.x 1 ⟨0, 0⟩ (.arc a) = momX a.start a.fin / 6 + (a.straightLineArea * a.circle.frame.origin.x +
      2 / 3 * a.circle.radius ^ 3 * sin (σ * (a.angle / 2)) ^ 3 * cos (ψ + σ * (a.angle / 2))) ∧
    sweep V2.y 1 ⟨0, 0⟩ (.arc a) = momY a.start a.fin / 6 + (a.straightLineArea * a.circle.frame.origin.y +
      2 / 3 * a.circle.radius ^ 3 * sin (σ * (a.angle / 2)) ^ 3 * sin (ψ + σ * (a.angle / 2))) := by
  rw [arc_straight_area hs ht]
  obtain ⟨δ, hδ⟩ : ∃ δ, δ = σ * (a.angle / 2) := ⟨_, rfl⟩
  obtain ⟨μ, hμ⟩ : ∃ μ, μ = ψ + δ := ⟨_, rfl⟩
  have e1 : ψ = μ - δ := by rw [hμ]; ring
  have e2 : ψ + σ * a.angle = μ + δ := by rw [hμ, hδ]; ring
  have e3 : σ * a.angle = 2 * δ := by rw [hδ]; ring
  have hx := arc_sweep hR hlen hpath V2.x 1 ⟨0, 0⟩ (fun θ => a.circle.frame.origin.x ^ 2 * a.circle.radius * sin θ -
    a.circle.frame.origin.x * a.circle.frame.origin.y * a.circle.radius * cos θ + a.circle.frame.origin.x * a.circle.radius ^ 2 * θ +
    a.circle.frame.origin.x * a.circle.radius ^ 2 * ((θ + sin θ * cos θ) / 2) + a.circle.frame.origin.y * a.circle.radius ^ 2 * (sin θ ^ 2 / 2) +
    a.circle.radius ^ 3 * sin θ) (by dsimp only; fun_prop) (by
      intro θ
      have d1 := (hasDerivAt_sin θ).const_mul (a.circle.frame.origin.x ^ 2 * a.circle.radius)
      have d2 := (hasDerivAt_cos θ).const_mul (a.circle.frame.origin.x * a.circle.frame.origin.y * a.circle.radius)
      have d3 := (hasDerivAt_id θ).const_mul (a.circle.frame.origin.x * a.circle.radius ^ 2)
      have d4 := (((hasDerivAt_id θ).add ((hasDerivAt_sin θ).mul (hasDerivAt_cos θ))).div_const 2).const_mul (a.circle.frame.origin.x * a.circle.radius ^ 2)
      have d5 := (((hasDerivAt_sin θ).pow 2).div_const 2).const_mul (a.circle.frame.origin.y * a.circle.radius ^ 2)
      have d6 := (hasDerivAt_sin θ).const_mul (a.circle.radius ^ 3)
      refine (((((d1.sub d2).add d3).add d4).add d5).add d6).congr_deriv ?_
      have := sin_sq_add_cos_sq θ
      simp only [sub_zero]
      push_cast
      grind)
  have hy := arc_sweep hR hlen hpath V2.y 1 ⟨0, 0⟩ (fun θ => -(a.circle.frame.origin.y ^ 2 * a.circle.radius * cos θ) +
    a.circle.frame.origin.x * a.circle.frame.origin.y * a.circle.radius * sin θ + a.circle.frame.origin.y * a.circle.radius ^ 2 * θ +
    a.circle.frame.origin.y * a.circle.radius ^ 2 * ((θ - sin θ * cos θ) / 2) + a.circle.frame.origin.x * a.circle.radius ^ 2 * (sin θ ^ 2 / 2) -
    a.circle.radius ^ 3 * cos θ) (by dsimp only; fun_prop) (by
      intro θ
      have d1 := ((hasDerivAt_cos θ).const_mul (a.circle.frame.origin.y ^ 2 * a.circle.radius)).neg
      have d2 := (hasDerivAt_sin θ).const_mul (a.circle.frame.origin.x * a.circle.frame.origin.y * a.circle.radius)
      have d3 := (hasDerivAt_id θ).const_mul (a.circle.frame.origin.y * a.circle.radius ^ 2)
      have d4 := (((hasDerivAt_id θ).sub ((hasDerivAt_sin θ).mul (hasDerivAt_cos θ))).div_const 2).const_mul (a.circle.frame.origin.y * a.circle.radius ^ 2)
      have d5 := (((hasDerivAt_sin θ).pow 2).div_const 2).const_mul (a.circle.frame.origin.x * a.circle.radius ^ 2)
      have d6 := (hasDerivAt_cos θ).const_mul (a.circle.radius ^ 3)
      refine (((((d1.add d2).add d3).add d4).add d5).sub d6).congr_deriv ?_
      have := sin_sq_add_cos_sq θ
      simp only [sub_zero]
      push_cast
      grind)
  rw [hx, hy, hstart, hfin, ← hδ, ← hμ, e2, e3, sin_two_mul]
  unfold momX momY crossPQ
  dsimp only
  rw [e1]
  simp only [sin_add, cos_add, sin_sub, cos_sub]
  have p1 := sin_sq_add_cos_sq μ
  have p2 := sin_sq_add_cos_sq δ
  generalize sin μ = sm at *
  generalize cos μ = cm at *
  generalize sin δ = sd at *
  generalize cos δ = cd at *
  push_cast
  constructor
  · grind
  · grind

/-! ## The centre of mass of the part between an arc and its chord -/

theorem dist_along {o m : V2 ℝ} (hm : m.x ^ 2 + m.y ^ 2 = 1) (k : ℝ) : V2.pointDistance ⟨o.x + k * m.x, o.y + k * m.y⟩ o = |k| := by
  unfold V2.pointDistance V2.norm
  rw [← sqrt_sq_eq_abs]
  congr 1
  simp only [V2.sub_x, V2.sub_y]
  linear_combination k ^ 2 * hm

theorem unit_of_ray {o m : V2 ℝ} (hm : m.x ^ 2 + m.y ^ 2 = 1) {r : ℝ} (hr : 0 < r) :
    unitOf ((⟨o.x + r * m.x, o.y + r * m.y⟩ : V2 ℝ) - o) = .ok m := by
  have hn : V2.norm ((⟨o.x + r * m.x, o.y + r * m.y⟩ : V2 ℝ) - o) = r := by
    have := dist_along (o := o) hm r
    rw [abs_of_pos hr] at this
    exact this
  unfold unitOf V2.unitVector
  rw [hn, if_neg hr.ne']
  dsimp only
  congr 1
  ext
  · simp only [V2.sub_x]; field_simp; ring
  · simp only [V2.sub_y]; field_simp; ring

theorem centre_algebra {σ R D A S C o m : ℝ} (hR : 0 < R) (hD : 0 < D) (hA : 0 < A) (hAD : A = D + 2 * S * C) (h : S ^ 2 + C ^ 2 = 1) :
    σ * (R ^ 2 / 2 * D) * (((o + m * (4 / (3 * A) * R * S)) * (R ^ 2 * A / 2) - (o + m * (2 / 3 * (R * C))) * (R * C * (R * S))) * (1 / (R ^ 2 / 2 * D))) =
      σ * (R ^ 2 / 2 * D) * o + 2 / 3 * R ^ 3 * (σ * S ^ 3) * m := by
  have hK : R ^ 2 / 2 * D ≠ 0 := by positivity
  generalize hKd : R ^ 2 / 2 * D = K at hK ⊢
  have e1 : (o + m * (4 / (3 * A) * R * S)) * (R ^ 2 * A / 2) = o * (R ^ 2 * A / 2) + m * (2 / 3 * R ^ 3 * S) := by field_simp; ring
  rw [e1]
  have e2 : ∀ X, σ * K * (X * (1 / K)) = σ * X := by intro X; field_simp
  rw [e2, hAD]
  linear_combination (-σ * o) * hKd * (-1) + (2 / 3 * σ * R ^ 3 * S * m) * (h * (-1)) * (-1) * (-1)

/-- `straight_line_center_of_mass` of an arc, whatever its angle. -/
theorem arc_centre {a : Arc2} {ψ σ : ℝ} (hs : σ = 1 ∨ σ = -1) (ht : a.circle.IsTrigo ↔ σ = 1) (hA : 0 < a.angle) (hA2 : a.angle ≤ 2 * π) (hR : 0 < a.circle.radius)
    (hlen : a.length = a.circle.radius * a.angle)
    (hpath : ∀ s, a.pointAtAbscissa s =
        ⟨a.circle.frame.origin.x + a.circle.radius * cos (ψ + σ * (s / a.circle.radius)),
         a.circle.frame.origin.y + a.circle.radius * sin (ψ + σ * (s / a.circle.radius))⟩)
    (hstart : a.start = ⟨a.circle.frame.origin.x + a.circle.radius * cos ψ, a.circle.frame.origin.y + a.circle.radius * sin ψ⟩)
    (hfin : a.fin = ⟨a.circle.frame.origin.x + a.circle.radius * cos (ψ + σ * a.angle), a.circle.frame.origin.y + a.circle.radius * sin (ψ + σ * a.angle)⟩)
    (hchord : 1 / 10 ^ 15 < V2.pointDistance a.start a.fin) :
    ∃ g, arcStraightCentre a = .ok g ∧
      a.straightLineArea * g.x = a.straightLineArea * a.circle.frame.origin.x +
        2 / 3 * a.circle.radius ^ 3 * sin (σ * (a.angle / 2)) ^ 3 * cos (ψ + σ * (a.angle / 2)) ∧
      a.straightLineArea * g.y = a.straightLineArea * a.circle.frame.origin.y +
        2 / 3 * a.circle.radius ^ 3 * sin (σ * (a.angle / 2)) ^ 3 * sin (ψ + σ * (a.angle / 2)) := by
  obtain ⟨S, hS⟩ : ∃ S, S = sin (a.angle / 2) := ⟨_, rfl⟩
  obtain ⟨C, hC⟩ : ∃ C, C = cos (a.angle / 2) := ⟨_, rfl⟩
  obtain ⟨μ, hμ⟩ : ∃ μ, μ = ψ + σ * (a.angle / 2) := ⟨_, rfl⟩
  have hSC : S ^ 2 + C ^ 2 = 1 := by rw [hS, hC]; exact sin_sq_add_cos_sq _
  have hm : cos μ ^ 2 + sin μ ^ 2 = 1 := cos_sq_add_sin_sq μ
  have hσ2 : σ * σ = 1 := by rcases hs with e | e <;> rw [e] <;> norm_num
  have hS0 : 0 ≤ S := by rw [hS]; exact sin_nonneg_of_nonneg_of_le_pi (by linarith) (by linarith)
  have hsσ : sin (σ * (a.angle / 2)) = σ * S := by rcases hs with e | e <;> rw [e, hS] <;> simp
  have hcσ : cos (σ * (a.angle / 2)) = C := by rcases hs with e | e <;> rw [e, hC] <;> simp
  obtain ⟨o, ho⟩ : ∃ o, o = a.circle.frame.origin := ⟨_, rfl⟩
  obtain ⟨R, hRd⟩ : ∃ R, R = a.circle.radius := ⟨_, rfl⟩
  rw [← ho, ← hRd] at hstart hfin
  rw [← hRd] at hR hlen
  have hstart' : a.start = ⟨o.x + R * (cos μ * C + σ * (sin μ * S)), o.y + R * (sin μ * C - σ * (cos μ * S))⟩ := by
    rw [hstart, show ψ = μ - σ * (a.angle / 2) by rw [hμ]; ring, cos_sub, sin_sub, hsσ, hcσ]
    ext <;> simp only <;> ring
  have hfin' : a.fin = ⟨o.x + R * (cos μ * C - σ * (sin μ * S)), o.y + R * (sin μ * C + σ * (cos μ * S))⟩ := by
    rw [hfin, show ψ + σ * a.angle = μ + σ * (a.angle / 2) by rw [hμ]; ring, cos_add, sin_add, hsσ, hcσ]
    ext <;> simp only <;> ring
  have hmid : arcMiddle a = ⟨o.x + R * (⟨cos μ, sin μ⟩ : V2 ℝ).x, o.y + R * (⟨cos μ, sin μ⟩ : V2 ℝ).y⟩ := by
    unfold arcMiddle
    rw [hpath, ← ho, ← hRd, hlen, show ψ + σ * (R * a.angle / 2 / R) = μ by rw [hμ]; field_simp]
  have hdist : V2.pointDistance a.start a.fin = 2 * R * S := by
    unfold V2.pointDistance V2.norm
    rw [hstart', hfin', ← sqrt_sq (by positivity : 0 ≤ 2 * R * S)]
    congr 1
    simp only [V2.sub_x, V2.sub_y]
    linear_combination (4 * R ^ 2 * S ^ 2 * (cos μ ^ 2 + sin μ ^ 2)) * hσ2 + 4 * R ^ 2 * S ^ 2 * hm
  have hSpos : 0 < S := by
    rcases hS0.lt_or_eq with h | h
    · exact h
    · rw [hdist, ← h] at hchord; norm_num at hchord
  have hAsin : 0 < a.angle - sin a.angle := by have := sin_lt hA; linarith
  have hsla : a.straightLineArea = σ * (R ^ 2 / 2 * (a.angle - sin a.angle)) := by
    rw [arc_straight_area hs ht, ← hRd]
    rcases hs with e | e <;> rw [e]
    · rw [one_mul, one_mul]
    · rw [neg_one_mul, sin_neg]; ring
  have habs : |a.straightLineArea| = R ^ 2 / 2 * (a.angle - sin a.angle) := by
    rw [hsla, abs_mul, abs_of_pos (by positivity : 0 < R ^ 2 / 2 * (a.angle - sin a.angle))]
    rcases hs with e | e <;> rw [e] <;> simp
  have h2 : sin a.angle = 2 * S * C := by rw [hS, hC, ← sin_two_mul]; ring_nf
  have hcubeσ : (σ * S) ^ 3 = σ * S ^ 3 := by linear_combination (σ * S ^ 3) * hσ2
  have hsec : sin (a.angle * (1 / 2)) = S := by rw [hS]; ring_nf
  have hunit := unit_of_ray (o := o) (m := ⟨cos μ, sin μ⟩) hm hR
  rw [← ho, ← hRd, ← hμ, hsσ, hcubeσ]
  unfold arcStraightCentre
  rw [hmid, ← ho, hunit]
  change ∃ g, (if a.angle = π then Except.ok (sectorCentre a ⟨cos μ, sin μ⟩) else
      match lineIntersection o (o + if a.angle ≥ π then -(⟨cos μ, sin μ⟩ : V2 ℝ) else ⟨cos μ, sin μ⟩) a.start a.fin with
      | none => Except.error PyErr.typeError
      | some r => Except.ok (segmentCentre a ⟨cos μ, sin μ⟩ (if a.angle ≥ π then -(⟨cos μ, sin μ⟩ : V2 ℝ) else ⟨cos μ, sin μ⟩) r.1)) = Except.ok g ∧ _
  by_cases hpi : a.angle = π
  · rw [if_pos hpi]
    refine ⟨_, rfl, ?_⟩
    have hC0 : C = 0 := by rw [hC, hpi, cos_pi_div_two]
    have hS1 : S = 1 := by rw [hS, hpi, sin_pi_div_two]
    rw [hsla, h2, hC0, hpi]
    unfold sectorCentre
    rw [hsec, hS1, ← ho, ← hRd, hpi]
    have := pi_pos
    constructor
    · simp only [V2.add_x, V2.smul]; field_simp; ring
    · simp only [V2.add_y, V2.smul]; field_simp; ring
  · rw [if_neg hpi]
    obtain ⟨τ, hτ, hτ'⟩ : ∃ τ : ℝ, (τ = 1 ∨ τ = -1) ∧ (if a.angle ≥ π then -(⟨cos μ, sin μ⟩ : V2 ℝ) else ⟨cos μ, sin μ⟩) = ⟨τ * cos μ, τ * sin μ⟩ := by
      split_ifs
      · exact ⟨-1, Or.inr rfl, by ext <;> simp⟩
      · exact ⟨1, Or.inl rfl, by ext <;> simp⟩
    have hτ2 : τ * τ = 1 := by rcases hτ with e | e <;> rw [e] <;> norm_num
    have hcr : |V2.cross (o + (⟨τ * cos μ, τ * sin μ⟩ : V2 ℝ) - o) (a.fin - a.start)| = 2 * R * S := by
      have : V2.cross (o + (⟨τ * cos μ, τ * sin μ⟩ : V2 ℝ) - o) (a.fin - a.start) = τ * σ * (2 * R * S) := by
        rw [hstart', hfin']
        simp only [V2.cross, V2.sub_x, V2.sub_y, V2.add_x, V2.add_y]
        linear_combination (2 * τ * σ * R * S) * hm
      rw [this, abs_mul, abs_mul, abs_of_pos (by positivity : 0 < 2 * R * S)]
      rcases hτ with e | e <;> rcases hs with f | f <;> rw [e, f] <;> simp
    rcases C09_lineIntersection o (o + (⟨τ * cos μ, τ * sin μ⟩ : V2 ℝ)) a.start a.fin with ⟨h, -⟩ | ⟨-, p, t, u, hli, -, -, huniq⟩
    · rw [hcr, ← hdist] at h
      linarith
    · have hp : p = ⟨o.x + (R * C) * cos μ, o.y + (R * C) * sin μ⟩ := by
        symm
        refine huniq _ ⟨τ * (R * C), ?_⟩ ⟨1 / 2, ?_⟩
        · constructor
          · simp only [V2.add_x]; linear_combination (-(R * C * cos μ)) * hτ2
          · simp only [V2.add_y]; linear_combination (-(R * C * sin μ)) * hτ2
        · rw [hstart', hfin']
          constructor
          · ring
          · ring
      rw [hτ', hli]
      refine ⟨_, rfl, ?_⟩
      have hheight : V2.pointDistance p o = R * |C| := by
        rw [hp]
        have := dist_along (o := o) (m := ⟨cos μ, sin μ⟩) hm (R * C)
        rw [this, abs_mul, abs_of_pos hR]
      have hhalf : V2.pointDistance p a.start = R * S := by
        unfold V2.pointDistance V2.norm
        rw [hp, hstart', ← sqrt_sq (by positivity : 0 ≤ R * S)]
        congr 1
        simp only [V2.sub_x, V2.sub_y]
        linear_combination (R ^ 2 * S ^ 2 * (cos μ ^ 2 + sin μ ^ 2)) * hσ2 + R ^ 2 * S ^ 2 * hm
      unfold segmentCentre
      rw [← ho, hheight, hhalf, habs]
      unfold sectorCentre sectorArea
      rw [hsec, ← ho, ← hRd, hsla, h2]
      rw [h2] at hAsin
      have hA0 := hA.ne'
      obtain ⟨D, hD⟩ : ∃ D, D = a.angle - 2 * S * C := ⟨_, rfl⟩
      rw [← hD] at hAsin ⊢
      have hang : a.angle = D + 2 * S * C := by rw [hD]; ring
      by_cases hlt : a.angle < π
      · have hτ1 : τ * cos μ = cos μ ∧ τ * sin μ = sin μ := by
          rw [if_neg (by linarith)] at hτ'
          exact ⟨(congrArg V2.x hτ').symm, (congrArg V2.y hτ').symm⟩
        have hCpos : 0 ≤ C := by rw [hC]; exact cos_nonneg_of_neg_pi_div_two_le_of_le (by linarith) (by linarith)
        rw [if_pos hlt, hτ1.1, hτ1.2, abs_of_nonneg hCpos]
        constructor
        · simp only [V2.add_x, V2.sub_x, V2.smul]
          exact centre_algebra hR hAsin hA hang hSC
        · simp only [V2.add_y, V2.sub_y, V2.smul]
          exact centre_algebra hR hAsin hA hang hSC
      · have hgt : π < a.angle := lt_of_le_of_ne (not_lt.1 hlt) (Ne.symm hpi)
        have hτ1 : τ * cos μ = -cos μ ∧ τ * sin μ = -sin μ := by
          rw [if_pos hgt.le] at hτ'
          exact ⟨(congrArg V2.x hτ').symm, (congrArg V2.y hτ').symm⟩
        have hCneg : C ≤ 0 := by rw [hC]; exact cos_nonpos_of_pi_div_two_le_of_le (by linarith) (by linarith)
        rw [if_neg hlt, hτ1.1, hτ1.2, abs_of_nonpos hCneg]
        constructor
        · simp only [V2.add_x, V2.smul]
          rw [← centre_algebra (σ := σ) (o := o.x) (m := cos μ) hR hAsin hA hang hSC]
          ring
        · simp only [V2.add_y, V2.smul]
          rw [← centre_algebra (σ := σ) (o := o.y) (m := sin μ) hR hAsin hA hang hSC]
          ring

/-! ## The contour -/

/-- The chords of the arcs are longer than the tolerance of the intersection of lines. -/
def LongChords (contour : List Edge) : Prop := ∀ a, .arc a ∈ contour → 1 / 10 ^ 15 < V2.pointDistance a.start a.fin

/-- The polygon of the starts is not flat, unless it has less than three points. -/
def NotFlat (contour : List Edge) : Prop := (edgePolygon contour).length < 3 ∨ 1 / 10 ^ 12 < |signedArea (edgePolygon contour)|

/-- What each primitive adds to the first moments of the polygon. -/
theorem edge_first {contour : List Edge} (h : IsContour contour) (hl : LongChords contour) {e : Edge} (he : e ∈ contour) :
    ∃ g, e.straightLineCentre = .ok g ∧ sweep V2.x 1 ⟨0, 0⟩ e = momX e.start e.fin / 6 + e.straightLineArea * g.x ∧
      sweep V2.y 1 ⟨0, 0⟩ e = momY e.start e.fin / 6 + e.straightLineArea * g.y := by
  cases e with
  | seg a b =>
    refine ⟨_, rfl, ?_, ?_⟩
    · rw [seg_x]; simp only [Edge.straightLineArea, Edge.start, Edge.fin, momX, crossPQ, V2.cross, V2.sub_x, V2.sub_y]; ring
    · rw [seg_y]; simp only [Edge.straightLineArea, Edge.start, Edge.fin, momY, crossPQ, V2.cross, V2.sub_x, V2.sub_y]; ring
  | arc a =>
    obtain ⟨ψ, σ, hs, ht, h0, h1, hR, hlen, hpath, hstart, hfin, -⟩ := arc_shape (h.arcs a he)
    obtain ⟨g, hg, gx, gy⟩ := arc_centre hs ht h0 h1 hR hlen hpath hstart hfin (hl a he)
    obtain ⟨fx, fy⟩ := arc_first hs ht hR hlen hpath hstart hfin
    refine ⟨g, hg, ?_, ?_⟩
    · rw [fx, ← gx]; rfl
    · rw [fy, ← gy]; rfl

theorem centre_turns {contour : List Edge} (h : IsContour contour) (hl : LongChords contour) (s : ℝ) :
    ∀ (l : List Edge) (c : V2 ℝ), (∀ e ∈ l, e ∈ contour) → centreTurns s c l = .ok
      ⟨c.x + s * ((l.map (sweep V2.x 1 ⟨0, 0⟩)).sum - (l.map fun e => momX e.start e.fin / 6).sum),
       c.y + s * ((l.map (sweep V2.y 1 ⟨0, 0⟩)).sum - (l.map fun e => momY e.start e.fin / 6).sum)⟩ := by
  intro l
  induction l with
  | nil => intro c _; simp [centreTurns]
  | cons e l ih =>
    intro c hm
    obtain ⟨g, hg, gx, gy⟩ := edge_first h hl (hm e List.mem_cons_self)
    rw [centreTurns, hg]
    change centreTurns s (c + V2.smul (s * e.straightLineArea) g) l = _
    rw [ih _ (fun e he => hm e (List.mem_cons_of_mem _ he))]
    congr 1
    ext
    · simp only [List.map_cons, List.sum_cons, V2.add_x, V2.smul, gx]; ring
    · simp only [List.map_cons, List.sum_cons, V2.add_y, V2.smul, gy]; ring

theorem polygon_first (l : List (V2 ℝ)) (hl : l.length < 3 ∨ 1 / 10 ^ 12 < |signedArea l|) {s : ℝ} (hs : |signedArea l| = s * signedArea l) :
    ∃ g, polygonCenterOfMass l = .ok g ∧ polygonArea l * g.x = s * (cyclicSum momX l / 6) ∧ polygonArea l * g.y = s * (cyclicSum momY l / 6) := by
  rw [C47_area_shoelace]
  match l, hl, hs with
  | [], _, _ => exact ⟨_, rfl, by simp [signedArea, cyclicSum], by simp [signedArea, cyclicSum]⟩
  | [p], _, _ =>
    refine ⟨_, rfl, ?_, ?_⟩
    · simp [signedArea, cyclicSum, chainSum, momX, crossPQ, mul_comm]
    · simp [signedArea, cyclicSum, chainSum, momY, crossPQ, mul_comm]
  | [p, q], _, _ =>
    have h0 : signedArea [p, q] = 0 := by simp [signedArea, cyclicSum, chainSum, crossPQ]; ring
    refine ⟨_, rfl, ?_, ?_⟩
    · rw [h0]; simp [cyclicSum, chainSum, momX, crossPQ]; right; ring
    · rw [h0]; simp [cyclicSum, chainSum, momY, crossPQ]; right; ring
  | a :: b :: c :: t, hl, hs =>
    have h1 := hl.resolve_left (by simp)
    have hne : signedArea (a :: b :: c :: t) ≠ 0 := by
      intro h0
      rw [h0, abs_zero] at h1
      norm_num at h1
    refine ⟨_, (C50_center_formula _ (by simp)).2 h1, ?_, ?_⟩
    · rw [hs]; dsimp only; field_simp
    · rw [hs]; dsimp only; field_simp

/-- The first moments and the area, with the sign of the polygon of the starts. -/
theorem centre_general {contour : List Edge} (h : IsContour contour) (hl : LongChords contour) (hf : NotFlat contour) {s : ℝ}
    (hor : orientation contour = some s) (hsg : |signedArea (edgePolygon contour)| = s * signedArea (edgePolygon contour))
    (hA : integralOf (fun _ => 1) 0 ⟨0, 0⟩ contour ≠ 0) :
    contourCentre contour = .ok
      ⟨s * integralOf V2.x 1 ⟨0, 0⟩ contour / |integralOf (fun _ => 1) 0 ⟨0, 0⟩ contour|,
       s * integralOf V2.y 1 ⟨0, 0⟩ contour / |integralOf (fun _ => 1) 0 ⟨0, 0⟩ contour|⟩ := by
  have ho : Oriented contour := by
    unfold orientation at hor
    cases hb : Hull.isTrigo (edgePolygon contour) with
    | none => rw [hb] at hor; simp at hor
    | some b =>
      rw [hb] at hor
      refine ⟨b, hb, fun e => ?_, fun e => ?_⟩
      · subst e
        have : s = 1 := by simpa using hor.symm
        rw [this, one_mul] at hsg
        rw [← hsg]; exact abs_nonneg _
      · subst e
        have : s = -1 := by simpa using hor.symm
        rw [this, neg_one_mul] at hsg
        have := abs_nonneg (signedArea (edgePolygon contour))
        linarith
  obtain ⟨g, hg, gx, gy⟩ := polygon_first _ hf hsg
  rw [contourCentre, hg]
  change (match orientation contour with
    | none => Except.error PyErr.zeroDivision
    | some trigo =>
      (centreTurns trigo (V2.smul (polygonArea (edgePolygon contour)) g) contour).bind fun c =>
        (contourArea contour).bind fun area => if area = 0 then .error .zeroDivision else .ok (V2.smul (1 / area) c)) = _
  rw [hor]
  dsimp only
  rw [centre_turns h hl s contour _ (fun _ he => he), C129_area h ho]
  change (if |integralOf (fun _ => 1) 0 ⟨0, 0⟩ contour| = 0 then _ else _) = _
  rw [if_neg (abs_ne_zero.2 hA)]
  congr 1
  have cx := sum_chords (fun p q => momX p q / 6) h.closed
  have cy := sum_chords (fun p q => momY p q / 6) h.closed
  have ex : ∀ f : V2 ℝ → V2 ℝ → ℝ, cyclicSum (fun p q => f p q / 6) (contour.map Edge.start) = cyclicSum f (contour.map Edge.start) / 6 := by
    intro f
    have : cyclicSum (fun p q => f p q / 6) (contour.map Edge.start) = cyclicSum (fun p q => 1 / 6 * f p q) (contour.map Edge.start) := by
      apply cyclicSum_congr; intro p r; ring
    rw [this, cyclicSum_smul]; ring
  rw [cx, cy, ex, ex]
  rw [edgePolygon_eq h.apart] at gx gy ⊢
  ext
  · simp only [V2.smul, integralOf]
    rw [mul_comm g.x, gx]; ring
  · simp only [V2.smul, integralOf]
    rw [mul_comm g.y, gy]; ring

/-- **C130** (full statement, false) the centre of mass of a contour is its first moments divided by its area. -/
def C130_centre_full_statement : Prop :=
  ∀ contour : List Edge, IsContour contour → Oriented contour → LongChords contour → NotFlat contour →
    integralOf (fun _ => 1) 0 ⟨0, 0⟩ contour ≠ 0 →
    contourCentre contour = .ok ⟨integralOf V2.x 1 ⟨0, 0⟩ contour / integralOf (fun _ => 1) 0 ⟨0, 0⟩ contour,
      integralOf V2.y 1 ⟨0, 0⟩ contour / integralOf (fun _ => 1) 0 ⟨0, 0⟩ contour⟩

/-- **C130** (partial) it is when the contour turns the same way as the polygon of the starts of its primitives. -/
theorem C130_centre_partial {contour : List Edge} (h : IsContour contour) (hl : LongChords contour) (hf : NotFlat contour) (ho : Oriented contour)
    (hagree : ∀ s, orientation contour = some s → 0 < s * integralOf (fun _ => 1) 0 ⟨0, 0⟩ contour) :
    contourCentre contour = .ok ⟨integralOf V2.x 1 ⟨0, 0⟩ contour / integralOf (fun _ => 1) 0 ⟨0, 0⟩ contour,
      integralOf V2.y 1 ⟨0, 0⟩ contour / integralOf (fun _ => 1) 0 ⟨0, 0⟩ contour⟩ := by
  obtain ⟨s, hs, hor, hsg⟩ := ho.spec
  have hpos := hagree s hor
  have hA : integralOf (fun _ => 1) 0 ⟨0, 0⟩ contour ≠ 0 := by
    intro h0; rw [h0, mul_zero] at hpos; exact lt_irrefl _ hpos
  rw [centre_general h hl hf hor hsg hA]
  congr 1
  rcases hs with e | e
  · rw [e, one_mul] at hpos
    rw [e, one_mul, one_mul, abs_of_pos hpos]
  · rw [e, neg_one_mul, Left.neg_pos_iff] at hpos
    rw [e, neg_one_mul, neg_one_mul, abs_of_neg hpos, neg_div_neg_eq, neg_div_neg_eq]

/-- **C130** and otherwise the result is the point opposite to the centre of mass, with respect to the origin. -/
theorem C130_opposite {contour : List Edge} (h : IsContour contour) (hl : LongChords contour) (hf : NotFlat contour) (ho : Oriented contour)
    (hagree : ∀ s, orientation contour = some s → s * integralOf (fun _ => 1) 0 ⟨0, 0⟩ contour < 0) :
    contourCentre contour = .ok ⟨-(integralOf V2.x 1 ⟨0, 0⟩ contour / integralOf (fun _ => 1) 0 ⟨0, 0⟩ contour),
      -(integralOf V2.y 1 ⟨0, 0⟩ contour / integralOf (fun _ => 1) 0 ⟨0, 0⟩ contour)⟩ := by
  obtain ⟨s, hs, hor, hsg⟩ := ho.spec
  have hneg := hagree s hor
  have hA : integralOf (fun _ => 1) 0 ⟨0, 0⟩ contour ≠ 0 := by
    intro h0; rw [h0, mul_zero] at hneg; exact lt_irrefl _ hneg
  rw [centre_general h hl hf hor hsg hA]
  congr 1
  rcases hs with e | e
  · rw [e, one_mul] at hneg
    rw [e, one_mul, one_mul, abs_of_neg hneg, div_neg, div_neg]
  · rw [e, neg_one_mul, Left.neg_neg_iff] at hneg
    rw [e, neg_one_mul, neg_one_mul, abs_of_pos hneg, neg_div, neg_div]

/-! ## Concrete contours -/

/-- A disc as two halves. -/
noncomputable def twoHalves (o : V2 ℝ) (r σ : ℝ) : List Edge := [.arc (firstHalf o r σ), .arc (secondHalf o r σ)]

theorem half_dist (o : V2 ℝ) {r : ℝ} (hr : 1 ≤ r) : 1 < (o.x - r - (o.x + r)) ^ 2 + (o.y - o.y) ^ 2 := by nlinarith

theorem twoHalves_contour (o : V2 ℝ) {r σ : ℝ} (hr : 1 ≤ r) (hs : σ = 1 ∨ σ = -1) : IsContour (twoHalves o r σ) := by
  refine ⟨?_, ?_, ?_⟩
  · simp [twoHalves, Edge.fin, Edge.start, firstHalf, secondHalf, List.rotate]
  · have e : (twoHalves o r σ).map Edge.start = [⟨o.x + r, o.y⟩, ⟨o.x - r, o.y⟩] := by simp [twoHalves, Edge.start, firstHalf, secondHalf]
    rw [e]
    exact List.isChain_cons_cons.2 ⟨far_apart (half_dist o hr), List.isChain_singleton _⟩
  · intro a ha
    simp only [twoHalves, List.mem_cons, Edge.arc.injEq, List.not_mem_nil, or_false] at ha
    rcases ha with ha | ha <;> rw [ha]
    · exact firstHalf_good _ (by linarith) hs
    · exact secondHalf_good _ (by linarith) hs

theorem twoHalves_polygon (o : V2 ℝ) {r σ : ℝ} (hr : 1 ≤ r) (hs : σ = 1 ∨ σ = -1) :
    edgePolygon (twoHalves o r σ) = [⟨o.x + r, o.y⟩, ⟨o.x - r, o.y⟩] := by
  rw [edgePolygon_eq (twoHalves_contour o hr hs).apart]
  simp [twoHalves, Edge.start, firstHalf, secondHalf]

theorem twoHalves_signed (o : V2 ℝ) {r σ : ℝ} (hr : 1 ≤ r) (hs : σ = 1 ∨ σ = -1) : signedArea (edgePolygon (twoHalves o r σ)) = 0 := by
  rw [twoHalves_polygon o hr hs]
  simp [signedArea, cyclicSum, chainSum, crossPQ]
  ring

theorem twoHalves_orientation (o : V2 ℝ) {r σ : ℝ} (hr : 1 ≤ r) (hs : σ = 1 ∨ σ = -1) : orientation (twoHalves o r σ) = some 1 := by
  unfold orientation
  rw [twoHalves_polygon o hr hs]
  simp [Hull.isTrigo]

theorem twoHalves_oriented (o : V2 ℝ) {r σ : ℝ} (hr : 1 ≤ r) (hs : σ = 1 ∨ σ = -1) : Oriented (twoHalves o r σ) := by
  refine ⟨true, ?_, fun _ => (twoHalves_signed o hr hs).ge, fun h => by simp at h⟩
  rw [twoHalves_polygon o hr hs]
  simp [Hull.isTrigo]

theorem twoHalves_chords (o : V2 ℝ) {r σ : ℝ} (hr : 1 ≤ r) : LongChords (twoHalves o r σ) := by
  have hd : ∀ p q : V2 ℝ, 1 < (p.x - q.x) ^ 2 + (p.y - q.y) ^ 2 → 1 / 10 ^ 15 < V2.pointDistance p q := by
    intro p q h
    have : 1 < V2.pointDistance p q := by
      unfold V2.pointDistance V2.norm
      rw [Real.lt_sqrt zero_le_one]
      simp only [V2.sub_x, V2.sub_y]
      nlinarith
    refine lt_trans ?_ this
    norm_num
  intro a ha
  simp only [twoHalves, List.mem_cons, Edge.arc.injEq, List.not_mem_nil, or_false] at ha
  rcases ha with ha | ha <;> rw [ha] <;> apply hd <;> simp only [firstHalf, secondHalf] <;> nlinarith

theorem twoHalves_sla (o : V2 ℝ) {r σ : ℝ} (hs : σ = 1 ∨ σ = -1) :
    (firstHalf o r σ).straightLineArea = σ * π * r ^ 2 / 2 ∧ (secondHalf o r σ).straightLineArea = σ * π * r ^ 2 / 2 := by
  have ht : (disc o r σ).IsTrigo ↔ σ = 1 := by
    unfold Circle2.IsTrigo disc V2.cross
    rcases hs with e | e <;> rw [e] <;> norm_num
  have hsin : sin (σ * π) = 0 := by rcases hs with e | e <;> rw [e] <;> simp
  constructor
  · rw [arc_straight_area (a := firstHalf o r σ) hs ht]
    have : (firstHalf o r σ).angle = π := by simp [firstHalf, Arc2.angle]
    rw [this, hsin]; simp only [firstHalf, disc]; ring
  · rw [arc_straight_area (a := secondHalf o r σ) hs ht]
    have : (secondHalf o r σ).angle = π := by simp only [secondHalf, Arc2.angle]; ring
    rw [this, hsin]; simp only [secondHalf, disc]; ring

theorem twoHalves_area (o q : V2 ℝ) {r σ : ℝ} (hr : 1 ≤ r) (hs : σ = 1 ∨ σ = -1) :
    integralOf (fun _ => 1) 0 q (twoHalves o r σ) = σ * (π * r ^ 2) := by
  rw [area_decomposition (twoHalves_contour o hr hs), twoHalves_signed o hr hs]
  simp only [twoHalves, List.map_cons, List.map_nil, Edge.straightLineArea, List.sum_cons, List.sum_nil]
  rw [(twoHalves_sla o hs).1, (twoHalves_sla o hs).2]
  ring

theorem half_shape {a : Arc2} {o : V2 ℝ} {r σ : ℝ} (hs : σ = 1 ∨ σ = -1) (hg : GoodArc a) (hc : a.circle = disc o r σ) :
    (a.circle.IsTrigo ↔ σ = 1) ∧ ∃ ψ, ψ = σ * a.angleStart ∧ a.length = a.circle.radius * a.angle ∧
      (∀ s, a.pointAtAbscissa s =
        ⟨a.circle.frame.origin.x + a.circle.radius * cos (ψ + σ * (s / a.circle.radius)),
         a.circle.frame.origin.y + a.circle.radius * sin (ψ + σ * (s / a.circle.radius))⟩) ∧
      a.start = ⟨a.circle.frame.origin.x + a.circle.radius * cos ψ, a.circle.frame.origin.y + a.circle.radius * sin ψ⟩ ∧
      a.fin = ⟨a.circle.frame.origin.x + a.circle.radius * cos (ψ + σ * a.angle), a.circle.frame.origin.y + a.circle.radius * sin (ψ + σ * a.angle)⟩ := by
  have ht : a.circle.IsTrigo ↔ σ = 1 := by
    rw [hc]
    unfold Circle2.IsTrigo disc V2.cross
    rcases hs with e | e <;> rw [e] <;> norm_num
  obtain ⟨ψ, σ', hs', ht', -, -, hR, hlen, hpath, hstart, hfin, hψ⟩ := arc_shape hg
  have : σ' = σ := by
    rcases hs with e | e <;> rcases hs' with f | f
    · rw [e, f]
    · have := ht'.1 (ht.2 e); rw [f] at this; norm_num at this
    · have := ht.1 (ht'.2 f); rw [e] at this; norm_num at this
    · rw [e, f]
  subst this
  exact ⟨ht, ψ, hψ (by rw [hc]; rfl), hlen, hpath, hstart, hfin⟩

theorem twoHalves_first (o : V2 ℝ) {r σ : ℝ} (hr : 1 ≤ r) (hs : σ = 1 ∨ σ = -1) :
    integralOf V2.x 1 ⟨0, 0⟩ (twoHalves o r σ) = σ * (π * r ^ 2) * o.x ∧ integralOf V2.y 1 ⟨0, 0⟩ (twoHalves o r σ) = σ * (π * r ^ 2) * o.y := by
  have hr0 : 0 < r := by linarith
  obtain ⟨t1, ψ1, p1, l1, q1, s1, f1⟩ := half_shape hs (firstHalf_good o hr0 hs) rfl
  obtain ⟨t2, ψ2, p2, l2, q2, s2, f2⟩ := half_shape hs (secondHalf_good o hr0 hs) rfl
  obtain ⟨x1, y1⟩ := arc_first hs t1 hr0 l1 q1 s1 f1
  obtain ⟨x2, y2⟩ := arc_first hs t2 hr0 l2 q2 s2 f2
  have a1 : (firstHalf o r σ).angle = π := by simp [firstHalf, Arc2.angle]
  have a2 : (secondHalf o r σ).angle = π := by simp only [secondHalf, Arc2.angle]; ring
  have e1 : ψ1 = 0 := by rw [p1]; simp [firstHalf]
  have e2 : ψ2 = σ * π := p2
  simp only [twoHalves, integralOf, List.map_cons, List.map_nil, List.sum_cons, List.sum_nil]
  rw [x1, x2, y1, y2, a1, a2, e1, e2, (twoHalves_sla o hs).1, (twoHalves_sla o hs).2]
  simp only [firstHalf, secondHalf, disc, momX, momY, crossPQ]
  have c1 : cos (0 + σ * (π / 2)) = 0 := by rcases hs with e | e <;> rw [e] <;> simp [neg_mul, cos_neg]
  have c2 : cos (σ * π + σ * (π / 2)) = 0 := by
    rw [cos_add]; rcases hs with e | e <;> rw [e] <;> simp [neg_mul, cos_neg, sin_neg]
  have c3 : sin (σ * π + σ * (π / 2)) = -sin (0 + σ * (π / 2)) := by
    rw [sin_add]; rcases hs with e | e <;> rw [e] <;> simp [neg_mul, cos_neg, sin_neg]
  rw [c1, c2, c3]
  constructor <;> ring

/-- **C130** counterexample: the disc of centre (2, 0), as two clockwise halves, has the centre of mass (-2, 0) for the code. -/
theorem C130_counterexample : contourCentre (twoHalves ⟨2, 0⟩ 1 (-1)) = .ok ⟨-2, 0⟩ ∧ ¬C130_centre_full_statement := by
  have hs : (-1 : ℝ) = 1 ∨ (-1 : ℝ) = -1 := Or.inr rfl
  have hA := twoHalves_area ⟨2, 0⟩ ⟨0, 0⟩ le_rfl hs
  obtain ⟨hx, hy⟩ := twoHalves_first ⟨2, 0⟩ le_rfl hs
  have hpi := pi_pos
  have hf : NotFlat (twoHalves ⟨2, 0⟩ 1 (-1)) := Or.inl (by rw [twoHalves_polygon _ le_rfl hs]; simp)
  have hres : contourCentre (twoHalves ⟨2, 0⟩ 1 (-1)) = .ok ⟨-2, 0⟩ := by
    rw [C130_opposite (twoHalves_contour _ le_rfl hs) (twoHalves_chords _ le_rfl) hf (twoHalves_oriented _ le_rfl hs)]
    · rw [hA, hx, hy]
      congr 1
      ext
      · simp only; field_simp
      · simp
    · intro s hor
      rw [twoHalves_orientation _ le_rfl hs] at hor
      rw [← Option.some.inj hor, hA]
      nlinarith
  refine ⟨hres, fun hfull => ?_⟩
  have := hfull _ (twoHalves_contour _ le_rfl hs) (twoHalves_oriented _ le_rfl hs) (twoHalves_chords _ le_rfl) hf (by rw [hA]; nlinarith)
  rw [hres, hA, hx, hy] at this
  have h2 := congrArg V2.x (Except.ok.inj this)
  simp only at h2
  field_simp at h2
  norm_num at h2

/-- A concrete case: the disc of centre (3, 4), as two counter-clockwise halves. -/
example : contourCentre (twoHalves ⟨3, 4⟩ 2 1) = .ok ⟨3, 4⟩ := by
  have hs : (1 : ℝ) = 1 ∨ (1 : ℝ) = -1 := Or.inl rfl
  have hr : (1 : ℝ) ≤ 2 := by norm_num
  have hA := twoHalves_area ⟨3, 4⟩ ⟨0, 0⟩ hr hs
  obtain ⟨hx, hy⟩ := twoHalves_first ⟨3, 4⟩ hr hs
  have hpi := pi_pos
  rw [C130_centre_partial (twoHalves_contour _ hr hs) (twoHalves_chords _ hr) (Or.inl (by rw [twoHalves_polygon _ hr hs]; simp))
    (twoHalves_oriented _ hr hs)]
  · rw [hA, hx, hy]
    congr 1
    ext
    · simp only; field_simp
    · simp only; field_simp
  · intro s hor
    rw [twoHalves_orientation _ hr hs] at hor
    rw [← Option.some.inj hor, hA]
    nlinarith

end Volmdlr.Profile
