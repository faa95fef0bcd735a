import Verif.Conic.HyperbolaProps

/-!
# The conic arc through three points with two tangents, and `Hyperbola2D.trim` (C94)
-/

namespace Volmdlr.Conic

open Volmdlr.Angle Volmdlr.Arc Volmdlr.Intersect

/-! ## The control point and the weight -/

lemma norm_smul2 (k : ℝ) (v : V2 ℝ) : V2.norm ⟨k * v.x, k * v.y⟩ = |k| * V2.norm v := by
  unfold V2.norm
  rw [← Real.sqrt_sq_eq_abs, ← Real.sqrt_mul (sq_nonneg k)]
  congr 1
  ring

/-- `hyperbola_parabola_control_point_and_weight` of a point with the barycentric coordinates `α, β, γ` in the triangle of the ends and of the
meeting point of the tangents. -/
lemma control_eq (P0 T0 P2 T2 S P1 : V2 ℝ) (α β γ : ℝ) (hT : 1 / 10 ^ 15 < |V2.cross T0 T2|) (h0 : OnLine2 P0 (P0 + T0) P1) (h2 : OnLine2 P2 (P2 + T2) P1)
    (hsum : α + β + γ = 1) (hα : 0 < α) (hγ : 0 < γ) (hx : S.x = α * P0.x + β * P1.x + γ * P2.x) (hy : S.y = α * P0.y + β * P1.y + γ * P2.y)
    (hc : 1 / 10 ^ 15 < |V2.cross (P2 - P0) (P1 - S)|) :
    controlPointAndWeight P0 T0 P2 T2 S = some (P1, β / (2 * (Real.sqrt α * Real.sqrt γ))) := by
  have hd1 : V2.cross (Line2.dir ⟨P0, P0 + T0⟩) (Line2.dir ⟨P2, P2 + T2⟩) = V2.cross T0 T2 := by
    simp only [V2.cross, Line2.dir, V2.sub_x, V2.sub_y, V2.add_x, V2.add_y]; ring
  obtain ⟨q, hq, hu⟩ := (C73_line_intersections_2d ⟨P0, P0 + T0⟩ ⟨P2, P2 + T2⟩).1 (by rw [hd1]; exact hT)
  have hqP : P1 = q := (hu P1).1 ⟨h0, h2⟩
  rw [← hqP] at hq
  have hd2 : V2.cross (Line2.dir ⟨P0, P0 + (P2 - P0)⟩) (Line2.dir ⟨P1, P1 + (P1 - S)⟩) = V2.cross (P2 - P0) (P1 - S) := by
    simp only [V2.cross, Line2.dir, V2.sub_x, V2.sub_y, V2.add_x, V2.add_y]; ring
  obtain ⟨r, hr, hu'⟩ := (C73_line_intersections_2d ⟨P0, P0 + (P2 - P0)⟩ ⟨P1, P1 + (P1 - S)⟩).1 (by rw [hd2]; exact hc)
  have hαγ : 0 < α + γ := by linarith
  have hrr : (⟨(α * P0.x + γ * P2.x) / (α + γ), (α * P0.y + γ * P2.y) / (α + γ)⟩ : V2 ℝ) = r := by
    rw [← hu']
    refine ⟨⟨γ / (α + γ), ?_, ?_⟩, ⟨-(1 / (α + γ)), ?_, ?_⟩⟩
    · simp only [V2.add_x, V2.sub_x]; field_simp; ring
    · simp only [V2.add_y, V2.sub_y]; field_simp; ring
    · simp only [V2.add_x, V2.sub_x]; rw [hx]; field_simp
      linear_combination -P1.x * hsum
    · simp only [V2.add_y, V2.sub_y]; rw [hy]; field_simp
      linear_combination -P1.y * hsum
  rw [← hrr] at hr
  have hne : V2.norm (P2 - P0) ≠ 0 := by
    intro e
    rw [V2.norm_eq_zero_iff] at e
    rw [e] at hc
    norm_num [V2.cross] at hc
  have hn0 : V2.norm (P0 - ⟨(α * P0.x + γ * P2.x) / (α + γ), (α * P0.y + γ * P2.y) / (α + γ)⟩) = γ / (α + γ) * V2.norm (P2 - P0) := by
    rw [show P0 - (⟨(α * P0.x + γ * P2.x) / (α + γ), (α * P0.y + γ * P2.y) / (α + γ)⟩ : V2 ℝ) = ⟨-(γ / (α + γ)) * (P2 - P0).x, -(γ / (α + γ)) * (P2 - P0).y⟩ by
      ext
      · simp only [V2.sub_x]; field_simp; ring
      · simp only [V2.sub_y]; field_simp; ring]
    rw [norm_smul2, abs_neg, abs_of_pos (by positivity)]
  have hn2 : V2.norm ((⟨(α * P0.x + γ * P2.x) / (α + γ), (α * P0.y + γ * P2.y) / (α + γ)⟩ : V2 ℝ) - P2) = α / (α + γ) * V2.norm (P2 - P0) := by
    rw [show (⟨(α * P0.x + γ * P2.x) / (α + γ), (α * P0.y + γ * P2.y) / (α + γ)⟩ : V2 ℝ) - P2 = ⟨-(α / (α + γ)) * (P2 - P0).x, -(α / (α + γ)) * (P2 - P0).y⟩ by
      ext
      · simp only [V2.sub_x]; field_simp; ring
      · simp only [V2.sub_y]; field_simp; ring]
    rw [norm_smul2, abs_neg, abs_of_pos (by positivity)]
  have hnz : α / (α + γ) * V2.norm (P2 - P0) ≠ 0 := mul_ne_zero (by positivity) hne
  have hratio : γ / (α + γ) * V2.norm (P2 - P0) / (α / (α + γ) * V2.norm (P2 - P0)) = γ / α := by
    field_simp
  have hvv : V2.dot (P1 - S) (P1 - S) ≠ 0 := by
    intro e
    have e1 : (P1 - S) = ⟨0, 0⟩ := by
      rw [← V2.norm_eq_zero_iff]
      have := V2.norm_sq (P1 - S)
      rw [e] at this
      exact mul_self_eq_zero.1 this
    rw [e1] at hc
    norm_num [V2.cross] at hc
  have sa := Real.sq_sqrt hα.le
  have sg := Real.sq_sqrt hγ.le
  have sa0 := Real.sqrt_pos.2 hα
  have sg0 := Real.sqrt_pos.2 hγ
  unfold controlPointAndWeight
  dsimp only
  rw [hq]
  dsimp only
  rw [hr]
  dsimp only
  rw [hn0, hn2, if_neg hnz, hratio, Real.sqrt_div hγ.le]
  generalize Real.sqrt α = a at *
  generalize Real.sqrt γ = g at *
  have hu1 : g / a / (1 + g / a) = g / (a + g) := by field_simp
  have hu2 : 1 - g / (a + g) = a / (a + g) := by field_simp; ring
  rw [hu1, hu2]
  have hnum : (a / (a + g)) ^ 2 * V2.dot (S - P0) (P1 - S) + (g / (a + g)) ^ 2 * V2.dot (S - P2) (P1 - S) = β / (a + g) ^ 2 * V2.dot (P1 - S) (P1 - S) := by
    rw [div_pow, div_pow, sa, sg]
    have ex : α * (S.x - P0.x) + γ * (S.x - P2.x) = β * (P1.x - S.x) := by linear_combination hsum * S.x + hx
    have ey : α * (S.y - P0.y) + γ * (S.y - P2.y) = β * (P1.y - S.y) := by linear_combination hsum * S.y + hy
    simp only [V2.dot, V2.sub_x, V2.sub_y]
    field_simp
    linear_combination (P1.x - S.x) * ex + (P1.y - S.y) * ey
  have hden : 2 * (g / (a + g)) * (a / (a + g)) * V2.dot (P1 - S) (P1 - S) = 2 * (a * g) / (a + g) ^ 2 * V2.dot (P1 - S) (P1 - S) := by
    field_simp
  rw [hnum, hden, if_neg (mul_ne_zero (by positivity) hvv)]
  congr 2
  rw [mul_div_mul_right _ _ hvv]
  field_simp

/-! ## The rational curve -/

lemma rational2_eq (p q r : V2 ℝ) (w : ℝ) : ∃ c, rational2 p q r w = some c ∧
    ∀ t, c.eval t = (((1 - t) ^ 2 * p.x + 2 * t * (1 - t) * w * q.x + t ^ 2 * r.x) / ((1 - t) ^ 2 + 2 * t * (1 - t) * w + t ^ 2),
      ((1 - t) ^ 2 * p.y + 2 * t * (1 - t) * w * q.y + t ^ 2 * r.y) / ((1 - t) ^ 2 + 2 * t * (1 - t) * w + t ^ 2)) := by
  have hk : (generateKnotVector 2 3 true : Option (List ℝ)) = some [0, 0, 0, 1, 1, 1] := by
    have hl : linspace (0 : ℝ) 1 2 = [0, 1] := by
      unfold linspace
      rw [if_neg (by norm_num)]
      simp [List.range_succ]
    unfold generateKnotVector
    rw [if_neg (by norm_num)]
    simp [hl]
  unfold rational2
  rw [hk, Option.map_some]
  refine ⟨_, rfl, fun t => ?_⟩
  unfold BCurve.eval BCurve.new
  dsimp only
  rw [if_pos (by simp)]
  dsimp only
  unfold curvePointRational
  dsimp only
  have := eval_deg2 (cpFun (BCurve.ctrlptsw [coords p, coords q, coords r] [1, w, 1])) (kvFun (BCurve.knotvector (BCurve.new 2 [coords p, coords q, coords r] (List.replicate 6 1) [0, 0, 0, 1, 1, 1] none : BCurve ℝ (ℝ × ℝ)))) ?_ t
  · have h2 : curvePoint 2 (kvFun (BCurve.knotvector { degree := 2, ctrlpts := [coords p, coords q, coords r], mults := List.replicate ([0, 0, 0, 1, 1, 1] : List ℝ).length 1, knots := standardizeKnotVector [0, 0, 0, 1, 1, 1], weights := some [1, w, 1] })) (cpFun (BCurve.ctrlptsw [coords p, coords q, coords r] [1, w, 1])) [coords p, coords q, coords r].length t = _ := this
    rw [h2]
    ext
    · simp [cpFun, coords, BCurve.ctrlptsw]
      rw [div_eq_inv_mul]; ring
    · simp [cpFun, coords, BCurve.ctrlptsw]
      rw [div_eq_inv_mul]; ring
  · simp [BCurve.knotvector, BCurve.new, standardizeKnotVector, repeatKnots, kvFun, List.replicate]

/-! ## Conics -/

/-- A conic: the zeros of a polynomial of degree two. -/
structure Quadric2 where
  (a b c d e f : ℝ)

/-- The value of the polynomial. -/
def Quadric2.val (k : Quadric2) (p : V2 ℝ) : ℝ := k.a * p.x ^ 2 + k.b * p.x * p.y + k.c * p.y ^ 2 + k.d * p.x + k.e * p.y + k.f

/-- A direction is tangent to the conic at a point: the derivative of the polynomial along it is zero. -/
def Quadric2.Tangent (k : Quadric2) (p t : V2 ℝ) : Prop := (2 * k.a * p.x + k.b * p.y + k.d) * t.x + (k.b * p.x + 2 * k.c * p.y + k.e) * t.y = 0

/-- C94: `hyperbola_parabola_control_point_and_weight` of two points of a conic, of tangents there, and of a third point of the conic inside the
triangle of the two points and of the meeting point of the tangents.  The rational curve of degree two with this control point and this weight
(the weights of the ends are 1) goes from the first point to the second one, passes through the third one, and stays on the conic. -/
theorem C94_conic_arc (k : Quadric2) (P0 T0 P2 T2 S P1 : V2 ℝ) (k0 : k.val P0 = 0) (k2 : k.val P2 = 0) (kS : k.val S = 0) (kT0 : k.Tangent P0 T0) (kT2 : k.Tangent P2 T2)
    (hT : 1 / 10 ^ 15 < |V2.cross T0 T2|) (h0 : OnLine2 P0 (P0 + T0) P1) (h2 : OnLine2 P2 (P2 + T2) P1)
    (hin : ∃ α β γ : ℝ, 0 < α ∧ 0 < β ∧ 0 < γ ∧ α + β + γ = 1 ∧ S.x = α * P0.x + β * P1.x + γ * P2.x ∧ S.y = α * P0.y + β * P1.y + γ * P2.y)
    (hc : 1 / 10 ^ 15 < |V2.cross (P2 - P0) (P1 - S)|) :
    ∃ w c, controlPointAndWeight P0 T0 P2 T2 S = some (P1, w) ∧ 0 < w ∧ rational2 P0 P1 P2 w = some c ∧
      c.eval 0 = (P0.x, P0.y) ∧ c.eval 1 = (P2.x, P2.y) ∧ (∃ t, 0 < t ∧ t < 1 ∧ c.eval t = (S.x, S.y)) ∧
      ∀ t, 0 ≤ t → t ≤ 1 → k.val ⟨(c.eval t).1, (c.eval t).2⟩ = 0 := by
  obtain ⟨α, β, γ, hα, hβ, hγ, hsum, hx, hy⟩ := hin
  have hctrl := control_eq P0 T0 P2 T2 S P1 α β γ hT h0 h2 hsum hα hγ hx hy hc
  have sa := Real.sq_sqrt hα.le
  have sg := Real.sq_sqrt hγ.le
  have sa0 := Real.sqrt_pos.2 hα
  have sg0 := Real.sqrt_pos.2 hγ
  generalize Real.sqrt α = a at *
  generalize Real.sqrt γ = g at *
  obtain ⟨c, hc1, hev⟩ := rational2_eq P0 P1 P2 (β / (2 * (a * g)))
  have hw : 0 < β / (2 * (a * g)) := by positivity
  refine ⟨_, c, hctrl, hw, hc1, by rw [hev]; norm_num, by rw [hev]; norm_num, ⟨g / (a + g), by positivity, by rw [div_lt_one (by positivity)]; linarith, ?_⟩, ?_⟩
  · rw [hev]
    have hu2 : 1 - g / (a + g) = a / (a + g) := by field_simp; ring
    have hD : (1 - g / (a + g)) ^ 2 + 2 * (g / (a + g)) * (1 - g / (a + g)) * (β / (2 * (a * g))) + (g / (a + g)) ^ 2 = 1 / (a + g) ^ 2 := by
      rw [hu2]; field_simp; linear_combination sa + sg + hsum
    rw [hD]
    refine Prod.ext ?_ ?_
    · dsimp only
      rw [hu2, hx]; field_simp; linear_combination P0.x * sa + P2.x * sg
    · dsimp only
      rw [hu2, hy]; field_simp; linear_combination P0.y * sa + P2.y * sg
  · intro t t0 t1
    rw [hev]
    have hden : 0 < (1 - t) ^ 2 + 2 * t * (1 - t) * (β / (2 * (a * g))) + t ^ 2 := by
      have h1 : 0 ≤ 2 * t * (1 - t) * (β / (2 * (a * g))) := by
        have : 0 ≤ 1 - t := by linarith
        positivity
      nlinarith [sq_nonneg (1 - t), sq_nonneg t, sq_nonneg (1 - 2 * t)]
    -- the bilinear form
    obtain ⟨s, s1, s2⟩ := h0
    obtain ⟨r, r1, r2⟩ := h2
    simp only [V2.add_x, V2.add_y] at s1 s2 r1 r2
    unfold Quadric2.val at k0 k2 kS ⊢
    unfold Quadric2.Tangent at kT0 kT2
    -- twice the bilinear form at two points
    have B01 : 2 * k.a * P0.x * P1.x + k.b * (P0.x * P1.y + P0.y * P1.x) + 2 * k.c * P0.y * P1.y + k.d * (P0.x + P1.x) + k.e * (P0.y + P1.y) + 2 * k.f = 0 := by
      rw [s1, s2]; linear_combination 2 * k0 + s * kT0
    have B12 : 2 * k.a * P2.x * P1.x + k.b * (P2.x * P1.y + P2.y * P1.x) + 2 * k.c * P2.y * P1.y + k.d * (P2.x + P1.x) + k.e * (P2.y + P1.y) + 2 * k.f = 0 := by
      rw [r1, r2]; linear_combination 2 * k2 + r * kT2
    have key : α * γ * (2 * k.a * P0.x * P2.x + k.b * (P0.x * P2.y + P0.y * P2.x) + 2 * k.c * P0.y * P2.y + k.d * (P0.x + P2.x) + k.e * (P0.y + P2.y) + 2 * k.f)
        + β ^ 2 * (k.a * P1.x ^ 2 + k.b * P1.x * P1.y + k.c * P1.y ^ 2 + k.d * P1.x + k.e * P1.y + k.f) = 0 := by
      have hα' : α = 1 - β - γ := by linarith
      rw [hx, hy] at kS
      rw [hα'] at kS ⊢
      linear_combination kS - (1 - β - γ) ^ 2 * k0 - γ ^ 2 * k2 - (1 - β - γ) * β * B01 - β * γ * B12
    clear s1 s2 r1 r2 kT0 kT2 hx hy kS hc hctrl hev hc1 hT
    generalize hwd : β / (2 * (a * g)) = w at *
    have hbw : β = 2 * (a * g) * w := by rw [← hwd]; field_simp
    have hag : (a * g) ^ 2 ≠ 0 := by positivity
    have key2 : (2 * k.a * P0.x * P2.x + k.b * (P0.x * P2.y + P0.y * P2.x) + 2 * k.c * P0.y * P2.y + k.d * (P0.x + P2.x) + k.e * (P0.y + P2.y) + 2 * k.f)
        + 4 * w ^ 2 * (k.a * P1.x ^ 2 + k.b * P1.x * P1.y + k.c * P1.y ^ 2 + k.d * P1.x + k.e * P1.y + k.f) = 0 := by
      apply mul_left_cancel₀ hag
      rw [mul_zero, ← key, hbw, ← sa, ← sg]
      ring
    have hval : ∀ X Y Z : ℝ, Z ≠ 0 → k.a * (X / Z) ^ 2 + k.b * (X / Z) * (Y / Z) + k.c * (Y / Z) ^ 2 + k.d * (X / Z) + k.e * (Y / Z) + k.f =
        (k.a * X ^ 2 + k.b * X * Y + k.c * Y ^ 2 + k.d * X * Z + k.e * Y * Z + k.f * Z ^ 2) / Z ^ 2 := by
      intro X Y Z hZ
      field_simp
    dsimp only
    rw [hval _ _ _ hden.ne', div_eq_zero_iff]
    left
    linear_combination ((1 - t) ^ 2 * (1 - t) ^ 2) * k0 + (t ^ 2 * t ^ 2) * k2 + (1 - t) ^ 2 * (2 * t * (1 - t) * w) * B01 + t ^ 2 * (2 * t * (1 - t) * w) * B12 + t ^ 2 * (1 - t) ^ 2 * key2

/-- The hypotheses of `C94_conic_arc` hold for the arc of the unit circle from `(1, 0)` to `(0, 1)` with the middle point `(3/5, 4/5)`. -/
example : Quadric2.val ⟨1, 0, 1, 0, 0, -1⟩ ⟨1, 0⟩ = 0 ∧ Quadric2.val ⟨1, 0, 1, 0, 0, -1⟩ ⟨0, 1⟩ = 0 ∧ Quadric2.val ⟨1, 0, 1, 0, 0, -1⟩ ⟨3 / 5, 4 / 5⟩ = 0 ∧
    Quadric2.Tangent ⟨1, 0, 1, 0, 0, -1⟩ ⟨1, 0⟩ ⟨0, 1⟩ ∧ Quadric2.Tangent ⟨1, 0, 1, 0, 0, -1⟩ ⟨0, 1⟩ ⟨1, 0⟩ ∧ (1 : ℝ) / 10 ^ 15 < |V2.cross ⟨0, 1⟩ ⟨1, 0⟩| ∧
    OnLine2 (⟨1, 0⟩ : V2 ℝ) (⟨1, 0⟩ + ⟨0, 1⟩) ⟨1, 1⟩ ∧ OnLine2 (⟨0, 1⟩ : V2 ℝ) (⟨0, 1⟩ + ⟨1, 0⟩) ⟨1, 1⟩ ∧
    (∃ α β γ : ℝ, 0 < α ∧ 0 < β ∧ 0 < γ ∧ α + β + γ = 1 ∧ 3 / 5 = α * 1 + β * 1 + γ * 0 ∧ 4 / 5 = α * 0 + β * 1 + γ * 1) ∧
    (1 : ℝ) / 10 ^ 15 < |V2.cross (⟨0, 1⟩ - ⟨1, 0⟩) (⟨1, 1⟩ - ⟨3 / 5, 4 / 5⟩)| := by
  refine ⟨by norm_num [Quadric2.val], by norm_num [Quadric2.val], by norm_num [Quadric2.val], by norm_num [Quadric2.Tangent], by norm_num [Quadric2.Tangent],
    by norm_num [V2.cross], ⟨1, by norm_num, by norm_num⟩, ⟨1, by norm_num, by norm_num⟩, ⟨1 / 5, 2 / 5, 2 / 5, by norm_num, by norm_num, by norm_num, by norm_num, by norm_num, by norm_num⟩,
    by norm_num [V2.cross, V2.sub_x, V2.sub_y]⟩

end Volmdlr.Conic
