import Verif.Arc.Model
import Mathlib.Tactic.Ring
import Mathlib.Tactic.LinearCombination
import Mathlib.Tactic.FieldSimp
import Mathlib.Tactic.Linarith

/-!
# C78: tangent, normal and curvature of a B-spline curve

`d0`, `d1`, `d2` are the entries of `derivatives(u, order)` (C76: the point and its derivatives).
-/

namespace Volmdlr

open Volmdlr.Angle Volmdlr.Arc

/-- edges.py:1591-1605 `BSplineCurve.tangent` (3D); `none` is `ZeroDivisionError`. -/
noncomputable def bsTangent3 (d1 : V3 ℝ) (normalize : Bool) : Option (V3 ℝ) :=
  if normalize then V3.unitVector d1 else some d1
/-- edges.py:1591-1605 `BSplineCurve.tangent` (2D). -/
noncomputable def bsTangent2 (d1 : V2 ℝ) (normalize : Bool) : Option (V2 ℝ) :=
  if normalize then V2.unitVector d1 else some d1
/-- edges.py:2213-2217 `BSplineCurve2D.normal`: the unit tangent is rotated by a quarter turn about the point of the
curve. -/
noncomputable def bsNormal2 (d0 d1 : V2 ℝ) : Option (V2 ℝ) :=
  (V2.unitVector d1).map fun t => V2.rotation t d0 (1 / 2 * Real.pi)
/-- edges.py:5012-5031 `BSplineCurve3D.normal`: `points` are the first three distinct points among those evaluated at
`0, 0.1, …, 0.9` (the first one at `0`); an error when there are fewer than three. -/
noncomputable def bsNormal3 (points : List (V3 ℝ)) (d1 : V3 ℝ) : Option (V3 ℝ) :=
  match points with
  | [p0, p1, p2] => V3.unitVector (V3.cross (V3.cross (p1 - p0) (p2 - p0)) d1)
  | _ => none
open Classical in
/-- edges.py:5343-5358 `BSplineCurve3D.curvature`, the returned curvature. -/
noncomputable def bsCurvature (d1 d2 : V3 ℝ) : ℝ :=
  let denom := V3.cross d1 d2
  if isClose3 d1 ⟨0, 0, 0⟩ (1 / 10 ^ 6) ∨ isClose3 d2 ⟨0, 0, 0⟩ (1 / 10 ^ 6) ∨ V3.norm denom = 0 then 0
  else
    let r_c := V3.norm d1 ^ 3 / V3.norm denom
    1 / r_c

theorem v3norm_sq (u : V3 ℝ) : V3.norm u ^ 2 = u.x * u.x + u.y * u.y + u.z * u.z :=
  Real.sq_sqrt (by nlinarith [sq_nonneg u.x, sq_nonneg u.y, sq_nonneg u.z])
theorem v3norm_nonneg (u : V3 ℝ) : 0 ≤ V3.norm u := Real.sqrt_nonneg _
theorem v2norm_sq (u : V2 ℝ) : V2.norm u ^ 2 = u.x * u.x + u.y * u.y :=
  Real.sq_sqrt (by nlinarith [sq_nonneg u.x, sq_nonneg u.y])
theorem v3norm_eq (u : V3 ℝ) (c : ℝ) (hc : 0 ≤ c) (h : u.x * u.x + u.y * u.y + u.z * u.z = c ^ 2) : V3.norm u = c := by
  unfold V3.norm; rw [h]; exact Real.sqrt_sq hc

/-- **C78** the normalised tangent is a unit vector with the direction and the sense of the derivative; it is
refused exactly when the derivative is zero. -/
theorem C78_tangent (d1 : V3 ℝ) :
    (∀ t, bsTangent3 d1 true = some t → V3.norm t = 1 ∧ V3.smul (V3.norm d1) t = d1) ∧
    (bsTangent3 d1 true = none ↔ d1 = ⟨0, 0, 0⟩) ∧ bsTangent3 d1 false = some d1 := by
  refine ⟨?_, ?_, rfl⟩
  · intro t ht
    simp only [bsTangent3, if_true, V3.unitVector] at ht
    split at ht
    · exact absurd ht (by simp)
    · rename_i hn
      have ht := (Option.some.inj ht).symm
      have hs := v3norm_sq d1
      generalize V3.norm d1 = n at *
      subst ht
      constructor
      · apply v3norm_eq _ 1 zero_le_one
        dsimp only
        field_simp
        linarith
      · simp only [V3.smul]
        ext <;> dsimp only <;> field_simp
  · simp only [bsTangent3, if_true, V3.unitVector]
    have hs := v3norm_sq d1
    constructor
    · intro h
      split at h
      · rename_i hn
        rw [hn] at hs
        have h1 : d1.x = 0 := by nlinarith [sq_nonneg d1.x, sq_nonneg d1.y, sq_nonneg d1.z]
        have h2 : d1.y = 0 := by nlinarith [sq_nonneg d1.x, sq_nonneg d1.y, sq_nonneg d1.z]
        have h3 : d1.z = 0 := by nlinarith [sq_nonneg d1.x, sq_nonneg d1.y, sq_nonneg d1.z]
        ext <;> assumption
      · exact absurd h (by simp)
    · rintro rfl
      rw [if_pos]
      simp [V3.norm]

/-- Specification: a normal vector of the curve in the plane. -/
def C78_normal2_full_statement : Prop := ∀ d0 d1 n : V2 ℝ, bsNormal2 d0 d1 = some n → V2.dot n d1 = 0

/-- **C78** `BSplineCurve2D.normal` is not normal to the curve: the horizontal segment through `(1, 0)` gets the
vector `(1, 0)`. -/
theorem C78_normal2_counterexample : ¬ C78_normal2_full_statement := by
  intro h
  have h1 := h ⟨1, 0⟩ ⟨1, 0⟩ ⟨1, 0⟩ (by
    have hn : V2.norm (⟨1, 0⟩ : V2 ℝ) = 1 := by simp [V2.norm]
    simp only [bsNormal2, V2.unitVector, hn, one_ne_zero, if_false, Option.map_some]
    simp [V2.rotation, V2.rotationCS])
  simp [V2.dot] at h1

/-- **C78** what `BSplineCurve2D.normal` is: the unit normal to the left of the tangent, displaced by the difference
between the point and the point turned by a quarter turn about the origin.  It is the unit normal exactly when the
curve is at the origin. -/
theorem C78_normal2_partial (d0 d1 n : V2 ℝ) (h : bsNormal2 d0 d1 = some n) :
    n = ⟨-(d1.y / V2.norm d1) + d0.x + d0.y, d1.x / V2.norm d1 + d0.y - d0.x⟩ ∧
    ((V2.norm n = 1 ∧ V2.dot n d1 = 0 ∧ 0 < V2.cross d1 n) ↔ d0 = ⟨0, 0⟩) := by
  simp only [bsNormal2, V2.unitVector] at h
  split at h
  · exact absurd h (by simp)
  · rename_i hn
    have h := (Option.some.inj h).symm
    have hc : Real.cos (1 / 2 * Real.pi) = 0 := by rw [show (1 : ℝ) / 2 * Real.pi = Real.pi / 2 by ring, Real.cos_pi_div_two]
    have hs : Real.sin (1 / 2 * Real.pi) = 1 := by rw [show (1 : ℝ) / 2 * Real.pi = Real.pi / 2 by ring, Real.sin_pi_div_two]
    simp only [V2.rotation, V2.rotationCS, hc, hs, V2.sub_x, V2.sub_y] at h
    have hn0 : 0 ≤ V2.norm d1 := Real.sqrt_nonneg _
    have hsq := v2norm_sq d1
    have e : n = ⟨-(d1.y / V2.norm d1) + d0.x + d0.y, d1.x / V2.norm d1 + d0.y - d0.x⟩ := by
      rw [h]; ext <;> dsimp only <;> ring
    refine ⟨e, ?_⟩
    have hsn := v2norm_sq n
    generalize V2.norm d1 = m at *
    clear h
    have hm : 0 < m := lt_of_le_of_ne hn0 (Ne.symm hn)
    obtain ⟨a, ha⟩ : ∃ a, a = d1.x / m := ⟨_, rfl⟩
    obtain ⟨b, hb⟩ : ∃ b, b = d1.y / m := ⟨_, rfl⟩
    have ha' : d1.x = a * m := by rw [ha]; field_simp
    have hb' : d1.y = b * m := by rw [hb]; field_simp
    have hab : a ^ 2 + b ^ 2 = 1 := by
      rw [ha', hb'] at hsq
      have : m ^ 2 * (a ^ 2 + b ^ 2 - 1) = 0 := by linear_combination -hsq
      rcases mul_eq_zero.1 this with h | h
      · exact absurd h (by positivity)
      · linarith
    rw [← ha, ← hb] at e
    simp only [V2.dot, V2.cross]
    constructor
    · rintro ⟨h1, h2, h3⟩
      rw [h1] at hsn
      rw [e] at h2 h3 hsn
      dsimp only at h2 h3 hsn
      rw [ha', hb'] at h2 h3
      -- n = k * (-b, a) with k > 0 and |n| = 1
      have h2' : (-b + d0.x + d0.y) * a + (a + d0.y - d0.x) * b = 0 := by
        have : m * ((-b + d0.x + d0.y) * a + (a + d0.y - d0.x) * b) = 0 := by linear_combination h2
        rcases mul_eq_zero.1 this with h | h
        · exact absurd h (by positivity)
        · exact h
      have h3' : 0 < a * (a + d0.y - d0.x) - b * (-b + d0.x + d0.y) := by
        by_contra hcon
        have : m * (a * (a + d0.y - d0.x) - b * (-b + d0.x + d0.y)) ≤ 0 :=
          mul_nonpos_of_nonneg_of_nonpos hm.le (not_lt.1 hcon)
        nlinarith
      have hk : (a * (a + d0.y - d0.x) - b * (-b + d0.x + d0.y)) ^ 2 = 1 := by
        have : (a * (a + d0.y - d0.x) - b * (-b + d0.x + d0.y)) ^ 2 + ((-b + d0.x + d0.y) * a + (a + d0.y - d0.x) * b) ^ 2 =
            (a ^ 2 + b ^ 2) * ((-b + d0.x + d0.y) * (-b + d0.x + d0.y) + (a + d0.y - d0.x) * (a + d0.y - d0.x)) := by ring
        rw [h2', hab, ← hsn] at this
        linarith
      have hk1 : a * (a + d0.y - d0.x) - b * (-b + d0.x + d0.y) = 1 := by nlinarith
      -- so n = (-b, a)
      have e1 : d0.x + d0.y = 0 := by linear_combination a * h2' - b * hk1 - (d0.x + d0.y) * hab + b * hab
      have e2 : d0.y - d0.x = 0 := by linear_combination b * h2' + a * hk1 - (d0.y - d0.x) * hab - a * hab
      ext <;> dsimp only <;> linarith
    · intro h0
      rw [h0] at e
      simp only [add_zero, sub_zero] at e
      rw [e] at hsn ⊢
      dsimp only at hsn ⊢
      refine ⟨?_, ?_, ?_⟩
      · unfold V2.norm
        dsimp only
        rw [show -b * -b + a * a = 1 by linear_combination hab, Real.sqrt_one]
      · rw [ha', hb']; ring
      · rw [ha', hb']
        have : a * m * a - b * m * -b = m := by linear_combination m * hab
        rw [this]; exact hm
example : ∃ n, bsNormal2 ⟨0, 0⟩ ⟨3, 4⟩ = some n := by
  have : V2.norm (⟨3, 4⟩ : V2 ℝ) = 5 := by
    unfold V2.norm; rw [show (3 : ℝ) * 3 + 4 * 4 = 5 ^ 2 by norm_num]; exact Real.sqrt_sq (by norm_num)
  simp [bsNormal2, V2.unitVector, this]

/-- **C78** `BSplineCurve3D.normal`, when it returns: a unit vector, perpendicular to the tangent, and in the plane of
the three sampled points (perpendicular to its normal). -/
theorem C78_normal3 (points : List (V3 ℝ)) (d1 n : V3 ℝ) (h : bsNormal3 points d1 = some n) :
    ∃ p0 p1 p2, points = [p0, p1, p2] ∧ V3.norm n = 1 ∧ V3.dot n d1 = 0 ∧
      V3.dot n (V3.cross (p1 - p0) (p2 - p0)) = 0 := by
  unfold bsNormal3 at h
  split at h
  · rename_i p0 p1 p2
    refine ⟨p0, p1, p2, rfl, ?_⟩
    generalize V3.cross (p1 - p0) (p2 - p0) = m at *
    have ht := (C78_tangent (V3.cross m d1)).1 n (by simpa [bsTangent3] using h)
    obtain ⟨h1, h2⟩ := ht
    refine ⟨h1, ?_, ?_⟩
    · simp only [V3.unitVector] at h
      split at h
      · exact absurd h (by simp)
      · have h := (Option.some.inj h).symm
        rw [h]
        generalize V3.norm (V3.cross m d1) = k at *
        simp only [V3.dot, V3.cross]
        ring
    · simp only [V3.unitVector] at h
      split at h
      · exact absurd h (by simp)
      · have h := (Option.some.inj h).symm
        rw [h]
        generalize V3.norm (V3.cross m d1) = k at *
        simp only [V3.dot, V3.cross]
        ring
  · exact absurd h (by simp)
example : bsNormal3 [⟨0, 0, 0⟩, ⟨1, 0, 0⟩, ⟨0, 1, 0⟩] ⟨1, 0, 0⟩ = some ⟨0, 1, 0⟩ := by
  simp [bsNormal3, V3.unitVector, V3.cross, V3.norm]

/-- Specification: the derivatives at a parameter of a curve that runs through an arc-length parametrised curve (tangent
`g1` of length one, second derivative `g2` perpendicular to it) with the speed `a` and the acceleration `b` (chain
rule).  The curvature is then the length of `g2`. -/
structure ChainRule (g1 g2 : V3 ℝ) (a b : ℝ) (d1 d2 : V3 ℝ) : Prop where
  unit : V3.norm g1 = 1
  perp : V3.dot g1 g2 = 0
  first : d1 = V3.smul a g1
  second : d2 = V3.smul b g1 + V3.smul (a ^ 2) g2

/-- Full claim: the curvature does not depend on the parametrisation. -/
def C78_curvature_full_statement : Prop :=
  ∀ (g1 g2 d1 d2 : V3 ℝ) (a b : ℝ), a ≠ 0 → ChainRule g1 g2 a b d1 d2 → bsCurvature d1 d2 = V3.norm g2

theorem isClose3_zero (u : V3 ℝ) : isClose3 u ⟨0, 0, 0⟩ (1 / 10 ^ 6) ↔ V3.norm u ≤ 1 / 10 ^ 6 := by
  have hd : V3.pointDistance u ⟨0, 0, 0⟩ = V3.norm u := by simp [V3.pointDistance, V3.norm]
  have h0 := v3norm_nonneg u
  unfold isClose3 mathIsClose
  rw [hd, sub_zero, abs_zero, abs_of_nonneg h0, max_eq_left h0]
  constructor
  · intro h
    rcases le_max_iff.1 h with h | h
    · have : V3.norm u ≤ 0 := by norm_num at h ⊢; linarith
      linarith [show (0 : ℝ) ≤ 1 / 10 ^ 6 by norm_num]
    · exact h
  · intro h; exact le_max_of_le_right h

theorem curvature_norms {g1 g2 d1 d2 : V3 ℝ} {a b : ℝ} (h : ChainRule g1 g2 a b d1 d2) :
    V3.norm d1 = |a| ∧ V3.norm (V3.cross d1 d2) = |a| ^ 3 * V3.norm g2 := by
  obtain ⟨h1, h2, rfl, rfl⟩ := h
  have hs := v3norm_sq g1
  rw [h1] at hs
  have hg := v3norm_sq g2
  have hg0 := v3norm_nonneg g2
  simp only [V3.dot] at h2
  constructor
  · apply v3norm_eq _ _ (abs_nonneg a)
    simp only [V3.smul, sq_abs]
    linear_combination (-a ^ 2) * hs
  · apply v3norm_eq _ _ (by positivity)
    have : (|a| ^ 3 * V3.norm g2) ^ 2 = a ^ 6 * V3.norm g2 ^ 2 := by
      rw [mul_pow, ← pow_mul, show 3 * 2 = 2 * 3 by norm_num, pow_mul, sq_abs]; ring
    rw [this, hg]
    simp only [V3.smul, V3.cross, V3.add_x, V3.add_y, V3.add_z]
    -- Lagrange identity
    have lag : (g1.y * g2.z - g1.z * g2.y) ^ 2 + (g1.z * g2.x - g1.x * g2.z) ^ 2 + (g1.x * g2.y - g1.y * g2.x) ^ 2 =
        (g1.x * g1.x + g1.y * g1.y + g1.z * g1.z) * (g2.x * g2.x + g2.y * g2.y + g2.z * g2.z) -
        (g1.x * g2.x + g1.y * g2.y + g1.z * g2.z) ^ 2 := by ring
    rw [h2, ← hs] at lag
    linear_combination a ^ 6 * lag

/-- **C78** the computed curvature is the curvature (independent of the parametrisation) unless the first or the second
derivative is shorter than the tolerance `10⁻⁶`. -/
theorem C78_curvature_partial (g1 g2 d1 d2 : V3 ℝ) (a b : ℝ) (h : ChainRule g1 g2 a b d1 d2)
    (h1 : 1 / 10 ^ 6 < V3.norm d1) (h2 : 1 / 10 ^ 6 < V3.norm d2) : bsCurvature d1 d2 = V3.norm g2 := by
  obtain ⟨e1, e2⟩ := curvature_norms h
  have ha : 0 < |a| := by rw [← e1]; exact lt_trans (by norm_num) h1
  unfold bsCurvature
  dsimp only
  rw [isClose3_zero, isClose3_zero]
  split
  · rename_i hh
    rcases hh with hh | hh | hh
    · exact absurd hh (not_le.2 h1)
    · exact absurd hh (not_le.2 h2)
    · rw [e2] at hh
      rcases mul_eq_zero.1 hh with hh | hh
      · exact absurd hh (by positivity)
      · exact hh.symm
  · rename_i hh
    push Not at hh
    rw [e1, e2]
    have hg : V3.norm g2 ≠ 0 := by
      intro h0; apply hh.2.2; rw [e2, h0, mul_zero]
    field_simp
/-- A circle of radius two run through at speed one (curvature one half). -/
example : ChainRule ⟨1, 0, 0⟩ ⟨0, 1 / 2, 0⟩ 3 5 ⟨3, 0, 0⟩ ⟨5, 9 / 2, 0⟩ := by
  refine ⟨by simp [V3.norm], by simp [V3.dot], by simp [V3.smul], ?_⟩
  ext <;> simp [V3.smul] <;> norm_num

/-- **C78** with a slow parametrisation the curvature is lost: a circle of radius one run through at the speed `10⁻⁶`
gets curvature zero. -/
theorem C78_curvature_counterexample : ¬ C78_curvature_full_statement := by
  intro h
  have h1 := h ⟨1, 0, 0⟩ ⟨0, 1, 0⟩ ⟨1 / 10 ^ 6, 0, 0⟩ ⟨0, 1 / 10 ^ 12, 0⟩ (1 / 10 ^ 6) 0 (by norm_num) (by
    refine ⟨by simp [V3.norm], by simp [V3.dot], by simp [V3.smul], ?_⟩
    ext <;> simp [V3.smul] <;> norm_num)
  have h2 : V3.norm (⟨0, 1, 0⟩ : V3 ℝ) = 1 := by simp [V3.norm]
  have h3 : V3.norm (⟨1 / 10 ^ 6, 0, 0⟩ : V3 ℝ) = 1 / 10 ^ 6 := by
    apply v3norm_eq _ _ (by norm_num); norm_num
  rw [h2] at h1
  unfold bsCurvature at h1
  rw [if_pos (Or.inl ((isClose3_zero _).2 (by rw [h3])))] at h1
  norm_num at h1

end Volmdlr
