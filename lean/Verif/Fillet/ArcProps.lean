import Verif.Fillet.Model
import Verif.Frame.Props
import Verif.Segment.Props

/-!
# C83: the arc of a rounded corner
-/

namespace Volmdlr.Fillet

open Real Volmdlr.Angle Volmdlr.Arc

/-! ## Specification -/

/-- The arc from `s` through `m` to `e` rounds the corner `a o b` with radius `r`: `s` and `e` are on the half lines from the
corner to `a` and to `b`, and there is a circle of radius `r`, tangent to `oa` at `s` and to `ob` at `e`, whose point nearest
to the corner is `m` (the point of the open segment from the corner to the centre at distance `r` from the centre). -/
def IsFillet2 (a o b : V2 ℝ) (r : ℝ) (s m e : V2 ℝ) : Prop :=
  ∃ C : V2 ℝ, (∃ t > 0, s = o + V2.smul t (a - o)) ∧ (∃ t > 0, e = o + V2.smul t (b - o)) ∧
    V2.dot (C - s) (a - o) = 0 ∧ V2.dot (C - e) (b - o) = 0 ∧
    V2.pointDistance C s = r ∧ V2.pointDistance C e = r ∧ V2.pointDistance C m = r ∧
    ∃ t, 0 < t ∧ t < 1 ∧ m = o + V2.smul t (C - o)

/-- The same in space; the centre is in the plane of the corner. -/
def IsFillet3 (a o b : V3 ℝ) (r : ℝ) (s m e : V3 ℝ) : Prop :=
  ∃ C : V3 ℝ, (∃ x y : ℝ, C = o + V3.smul x (a - o) + V3.smul y (b - o)) ∧
    (∃ t > 0, s = o + V3.smul t (a - o)) ∧ (∃ t > 0, e = o + V3.smul t (b - o)) ∧
    V3.dot (C - s) (a - o) = 0 ∧ V3.dot (C - e) (b - o) = 0 ∧
    V3.pointDistance C s = r ∧ V3.pointDistance C e = r ∧ V3.pointDistance C m = r ∧
    ∃ t, 0 < t ∧ t < 1 ∧ m = o + V3.smul t (C - o)

/-! ## Trigonometry of the half angle -/

theorem half_angle (c : ℝ) (h1 : -1 < c) (h2 : c < 1) :
    let α := arccos c / 2
    0 < α ∧ α < π / 2 ∧ 0 < sin α ∧ 0 < cos α ∧ 2 * cos α ^ 2 = 1 + c ∧ 2 * sin α ^ 2 = 1 - c ∧ tan α ≠ 0 := by
  dsimp only
  have ha : 0 < arccos c := arccos_pos.mpr h2
  have hb : arccos c < π := lt_of_le_of_ne (arccos_le_pi c) (by
    intro h; rw [arccos_eq_pi] at h; linarith)
  have hs : 0 < sin (arccos c / 2) := sin_pos_of_pos_of_lt_pi (by linarith) (by linarith)
  have hc : 0 < cos (arccos c / 2) := cos_pos_of_mem_Ioo ⟨by linarith, by linarith⟩
  have e := cos_sq (arccos c / 2)
  rw [mul_div_cancel₀ _ (two_ne_zero), cos_arccos h1.le h2.le] at e
  have e2 := sin_sq_add_cos_sq (arccos c / 2)
  refine ⟨by linarith, by linarith, hs, hc, by linarith, by linarith, ?_⟩
  rw [tan_eq_sin_div_cos]; positivity

theorem pd2_eq (p q : V2 ℝ) : V2.pointDistance p q = √((p.x - q.x) ^ 2 + (p.y - q.y) ^ 2) := by
  unfold V2.pointDistance V2.norm
  congr 1
  simp only [V2.sub_x, V2.sub_y]; ring

theorem pd3_eq (p q : V3 ℝ) : V3.pointDistance p q = √((p.x - q.x) ^ 2 + (p.y - q.y) ^ 2 + (p.z - q.z) ^ 2) := by
  unfold V3.pointDistance V3.norm
  congr 1
  simp only [V3.sub_x, V3.sub_y, V3.sub_z]; ring

/-! ## In the plane -/

theorem V2.norm_sq' (u : V2 ℝ) : V2.norm u ^ 2 = V2.dot u u := by
  unfold V2.norm V2.dot
  rw [sq_sqrt (by nlinarith [mul_self_nonneg u.x, mul_self_nonneg u.y])]

theorem V2.norm_pos' {u : V2 ℝ} (h : u ≠ ⟨0, 0⟩) : 0 < V2.norm u := by
  unfold V2.norm
  apply sqrt_pos.mpr
  by_contra hc
  apply h
  have hx := mul_self_nonneg u.x
  have hy := mul_self_nonneg u.y
  ext
  · exact mul_self_eq_zero.mp (by linarith)
  · exact mul_self_eq_zero.mp (by linarith)

theorem cos_arg2 (a o b : V2 ℝ) :
    -(V2.norm (a - b) ^ 2 - V2.norm (a - o) ^ 2 - V2.norm (b - o) ^ 2) = 2 * V2.dot (a - o) (b - o) := by
  simp only [V2.norm_sq', V2.dot, V2.sub_x, V2.sub_y]; ring

/-- The corner seen with unit vectors. -/
theorem corner2 (u1 u2 : V2 ℝ) (h1 : V2.dot u1 u1 = 1) (h2 : V2.dot u2 u2 = 1) (hs : V2.cross u1 u2 ≠ 0) :
    -1 < V2.dot u1 u2 ∧ V2.dot u1 u2 < 1 := by
  have hsq : V2.dot u1 u2 ^ 2 + V2.cross u1 u2 ^ 2 = 1 := by
    simp only [V2.dot, V2.cross] at *
    linear_combination (u2.x * u2.x + u2.y * u2.y) * h1 + h2
  have : 0 < V2.cross u1 u2 ^ 2 := by positivity
  constructor <;> nlinarith

/-- The exact geometry of a rounded corner with unit vectors `u1`, `u2`. -/
theorem fillet_core2 (o u1 u2 w v1 : V2 ℝ) (r S C : ℝ) (h1 : V2.dot u1 u1 = 1) (h2 : V2.dot u2 u2 = 1)
    (hS : 0 < S) (hC : 0 < C) (hr : 0 < r) (hC2 : 2 * C ^ 2 = 1 + V2.dot u1 u2) (hS2 : 2 * S ^ 2 = 1 - V2.dot u1 u2)
    (hw : u1 + u2 = V2.smul (2 * C) w) (hv : v1 = V2.normalVector u1 ∨ v1 = -V2.normalVector u1) (hpos : 0 ≤ V2.dot v1 w) :
    (o + V2.smul (r * C / S) u1) + V2.smul r v1 = o + V2.smul (r / S) w ∧ V2.dot w w = 1 ∧ V2.dot w u1 = C ∧ V2.dot w u2 = C := by
  have hx := congrArg V2.x hw
  have hy := congrArg V2.y hw
  simp only [V2.add_x, V2.add_y, V2.smul_x, V2.smul_y] at hx hy
  have hwu1 : V2.dot w u1 = C := by
    have : 2 * C * V2.dot w u1 = 2 * C * C := by
      simp only [V2.dot] at *
      linear_combination -u1.x * hx - u1.y * hy + h1 - hC2
    exact mul_left_cancel₀ (by positivity) this
  have hwu2 : V2.dot w u2 = C := by
    have : 2 * C * V2.dot w u2 = 2 * C * C := by
      simp only [V2.dot] at *
      linear_combination -u2.x * hx - u2.y * hy + h2 - hC2
    exact mul_left_cancel₀ (by positivity) this
  have hww : V2.dot w w = 1 := by
    have : 2 * C * V2.dot w w = 2 * C * 1 := by
      have e : 2 * C * V2.dot w w = V2.dot w u1 + V2.dot w u2 := by
        simp only [V2.dot] at *
        linear_combination -w.x * hx - w.y * hy
      rw [e, hwu1, hwu2]; ring
    exact mul_left_cancel₀ (by positivity) this
  -- the component along the normal is `S`
  have hSC : S ^ 2 + C ^ 2 = 1 := by linarith
  have hvw : V2.dot v1 w = S := by
    have hsq : V2.dot v1 w ^ 2 = S ^ 2 := by
      have : V2.dot v1 w ^ 2 + V2.dot w u1 ^ 2 = 1 := by
        rcases hv with rfl | rfl <;> simp only [V2.dot, V2.normalVector, V2.neg_x, V2.neg_y] at * <;>
        linear_combination (w.x * w.x + w.y * w.y) * h1 + hww
      rw [hwu1] at this; linarith
    nlinarith
  have hdec : w = V2.smul C u1 + V2.smul S v1 := by
    rcases hv with rfl | rfl
    · simp only [V2.dot, V2.normalVector] at *
      ext <;> simp only [V2.add_x, V2.add_y, V2.smul_x, V2.smul_y]
      · linear_combination -w.x * h1 + u1.x * hwu1 - u1.y * hvw
      · linear_combination -w.y * h1 + u1.y * hwu1 + u1.x * hvw
    · simp only [V2.dot, V2.normalVector, V2.neg_x, V2.neg_y] at *
      ext <;> simp only [V2.add_x, V2.add_y, V2.smul_x, V2.smul_y, V2.neg_x, V2.neg_y]
      · linear_combination -w.x * h1 + u1.x * hwu1 + u1.y * hvw
      · linear_combination -w.y * h1 + u1.y * hwu1 - u1.x * hvw
  refine ⟨?_, hww, hwu1, hwu2⟩
  rw [hdec]
  have hS0 := hS.ne'
  ext <;> simp only [V2.add_x, V2.add_y, V2.smul_x, V2.smul_y] <;> field_simp <;> ring

/-- What a user expects: for every proper corner (three points not aligned) and every positive radius `arc_features` gives a
fillet. -/
def C83_fillet2_full_statement : Prop :=
  ∀ (a o b : V2 ℝ) (r : ℝ), 0 < r → V2.cross (a - o) (b - o) ≠ 0 →
    ∃ f, arcFeatures2 a o b r = .ok f ∧ IsFillet2 a o b r f.start f.interior f.fin

/-- Everything that does not depend on the threshold on `u1 + u2`. -/
theorem arcFeatures2_eq (a o b : V2 ℝ) (r : ℝ) (hr : 0 < r) (hx : V2.cross (a - o) (b - o) ≠ 0) :
    ∃ (u1 u2 w : V2 ℝ) (S C : ℝ) (f : Feat (V2 ℝ)), arcFeatures2 a o b r = .ok f ∧
      0 < V2.norm (a - o) ∧ 0 < V2.norm (b - o) ∧
      a - o = V2.smul (V2.norm (a - o)) u1 ∧ b - o = V2.smul (V2.norm (b - o)) u2 ∧
      V2.dot u1 u1 = 1 ∧ V2.dot u2 u2 = 1 ∧ 0 < S ∧ 0 < C ∧ S ^ 2 + C ^ 2 = 1 ∧
      u1 + u2 = V2.smul (2 * C) w ∧ V2.dot w w = 1 ∧ V2.dot w u1 = C ∧ V2.dot w u2 = C ∧
      f.start = o + V2.smul (r * C / S) u1 ∧ f.fin = o + V2.smul (r * C / S) u2 ∧
      f.dist = r * C / S ∧ S = sin f.alpha ∧ C = cos f.alpha ∧ 0 < f.alpha ∧ f.alpha < π / 2 ∧
      f.interior = (o + V2.smul (r / S) w) - V2.smul r
        (open Classical in if isClose2 (u1 + u2) ⟨0, 0⟩ (1 / 10 ^ 6) then u1 + u2 else w) := by
  have ha : a - o ≠ ⟨0, 0⟩ := by intro h; rw [h] at hx; simp [V2.cross] at hx
  have hb : b - o ≠ ⟨0, 0⟩ := by intro h; rw [h] at hx; simp [V2.cross] at hx
  have ha' := V2.norm_pos' ha
  have hb' := V2.norm_pos' hb
  have na := V2.norm_sq' (a - o)
  have nb := V2.norm_sq' (b - o)
  have hcos := cos_arg2 a o b
  obtain ⟨d1, hd1⟩ : ∃ d, d = V2.norm (a - o) := ⟨_, rfl⟩
  obtain ⟨d2, hd2⟩ : ∃ d, d = V2.norm (b - o) := ⟨_, rfl⟩
  rw [← hd1] at ha' na
  rw [← hd2] at hb' nb
  obtain ⟨u1, hu1⟩ : ∃ u, u = V2.smul (1 / d1) (a - o) := ⟨_, rfl⟩
  obtain ⟨u2, hu2⟩ : ∃ u, u = V2.smul (1 / d2) (b - o) := ⟨_, rfl⟩
  have e1 : a - o = V2.smul d1 u1 := by
    rw [hu1]; ext <;> simp <;> field_simp
  have e2 : b - o = V2.smul d2 u2 := by
    rw [hu2]; ext <;> simp <;> field_simp
  have h1 : V2.dot u1 u1 = 1 := by
    rw [e1] at na
    have : d1 ^ 2 * V2.dot u1 u1 = d1 ^ 2 * 1 := by
      simp only [V2.dot, V2.smul_x, V2.smul_y] at na ⊢; linarith
    exact mul_left_cancel₀ (by positivity) this
  have h2 : V2.dot u2 u2 = 1 := by
    rw [e2] at nb
    have : d2 ^ 2 * V2.dot u2 u2 = d2 ^ 2 * 1 := by
      simp only [V2.dot, V2.smul_x, V2.smul_y] at nb ⊢; linarith
    exact mul_left_cancel₀ (by positivity) this
  have hs : V2.cross u1 u2 ≠ 0 := by
    intro h; apply hx
    rw [e1, e2]
    have : V2.cross (V2.smul d1 u1) (V2.smul d2 u2) = d1 * d2 * V2.cross u1 u2 := by
      simp only [V2.cross, V2.smul_x, V2.smul_y]; ring
    rw [this, h, mul_zero]
  obtain ⟨c1, c2⟩ := corner2 u1 u2 h1 h2 hs
  obtain ⟨a0, a1, aS, aC, aC2, aS2, at0⟩ := half_angle _ c1 c2
  have harg : -(V2.norm (a - b) ^ 2 - d1 ^ 2 - d2 ^ 2) / (2 * d1 * d2) = V2.dot u1 u2 := by
    rw [hd1, hd2, hcos, ← hd1, ← hd2, e1, e2]
    simp only [V2.dot, V2.smul_x, V2.smul_y]
    field_simp
  obtain ⟨α, hα⟩ : ∃ α, α = arccos (V2.dot u1 u2) / 2 := ⟨_, rfl⟩
  rw [← hα] at a0 a1 aS aC aC2 aS2 at0
  have hdist : r / tan α = r * cos α / sin α := by rw [tan_eq_sin_div_cos]; field_simp
  -- the bisector
  obtain ⟨w, hw⟩ : ∃ w, w = V2.smul (1 / (2 * cos α)) (u1 + u2) := ⟨_, rfl⟩
  have hw' : u1 + u2 = V2.smul (2 * cos α) w := by
    rw [hw]; ext <;> simp <;> field_simp
  have hnorm : V2.norm (u1 + u2) = 2 * cos α := by
    have : V2.norm (u1 + u2) ^ 2 = (2 * cos α) ^ 2 := by
      rw [V2.norm_sq']
      simp only [V2.dot, V2.add_x, V2.add_y] at *
      linear_combination h1 + h2 - 2 * aC2
    have hn : 0 ≤ V2.norm (u1 + u2) := sqrt_nonneg _
    nlinarith
  have huw : V2.unitVector (u1 + u2) = some w := by
    unfold V2.unitVector
    rw [hnorm, if_neg (by positivity), hw]
    congr 1
    ext <;> simp <;> ring
  have hun : V2.unitVector (V2.normalVector u1) = some (V2.normalVector u1) := by
    have : V2.norm (V2.normalVector u1) = 1 := by
      unfold V2.norm V2.normalVector
      rw [show (-u1.y) * (-u1.y) + u1.x * u1.x = 1 by simp only [V2.dot] at h1; linarith, sqrt_one]
    unfold V2.unitVector
    rw [this, if_neg one_ne_zero]
    congr 1
    ext <;> simp
  have hnw : V2.dot (V2.normalVector u1) w ≠ 0 := by
    intro h
    apply hs
    have : V2.dot (V2.normalVector u1) (u1 + u2) = V2.cross u1 u2 := by
      simp only [V2.dot, V2.normalVector, V2.cross, V2.add_x, V2.add_y]; ring
    rw [← this, hw']
    have : V2.dot (V2.normalVector u1) (V2.smul (2 * cos α) w) = 2 * cos α * V2.dot (V2.normalVector u1) w := by
      simp only [V2.dot, V2.smul_x, V2.smul_y]; ring
    rw [this, h, mul_zero]
  obtain ⟨v1, hv1⟩ : ∃ v, v = if V2.dot (V2.normalVector u1) w < 0 then -(V2.normalVector u1) else V2.normalVector u1 := ⟨_, rfl⟩
  have hv1c : v1 = V2.normalVector u1 ∨ v1 = -V2.normalVector u1 := by rw [hv1]; split <;> simp
  have hv1p : 0 ≤ V2.dot v1 w := by
    rw [hv1]; split
    · rename_i h
      have : V2.dot (-(V2.normalVector u1)) w = -V2.dot (V2.normalVector u1) w := by
        simp only [V2.dot, V2.neg_x, V2.neg_y]; ring
      rw [this]; linarith
    · rename_i h; exact not_lt.mp h
  obtain ⟨hctr, hww, hwu1, hwu2⟩ := fillet_core2 o u1 u2 w v1 r (sin α) (cos α) h1 h2 aS aC hr aC2 aS2 hw' hv1c hv1p
  have hsgn : ∀ k : ℝ, 0 < k → (V2.dot (V2.normalVector u1) (V2.smul k w) < 0 ↔ V2.dot (V2.normalVector u1) w < 0) := by
    intro k hk
    have : V2.dot (V2.normalVector u1) (V2.smul k w) = k * V2.dot (V2.normalVector u1) w := by
      simp only [V2.dot, V2.smul_x, V2.smul_y]; ring
    rw [this]
    constructor
    · intro h; by_contra hc; nlinarith
    · intro h; nlinarith
  refine ⟨u1, u2, w, sin α, cos α, ⟨o + V2.smul (r / tan α) u1, (o + V2.smul (r / sin α) w) - V2.smul r
    (open Classical in if isClose2 (u1 + u2) ⟨0, 0⟩ (1 / 10 ^ 6) then u1 + u2 else w), o + V2.smul (r / tan α) u2, r / tan α, α⟩,
    ?_, hd1 ▸ ha', hd2 ▸ hb', hd1 ▸ e1, hd2 ▸ e2, h1, h2, aS, aC, sin_sq_add_cos_sq α, hw', hww, hwu1, hwu2, ?_, ?_, ?_, rfl, rfl,
    a0, a1, rfl⟩
  · unfold arcFeatures2
    simp only [← hd1, ← hd2, harg, ← hα]
    rw [if_neg (by positivity), if_neg at0]
    simp only [← hu1, ← hu2, huw, hun]
    have hs12 : V2.smul (1 / (a - o).norm) (a - o) + V2.smul (1 / (b - o).norm) (b - o) = u1 + u2 := by
      rw [← hd1, ← hd2, ← hu1, ← hu2]
    by_cases hcl : isClose2 (u1 + u2) ⟨0, 0⟩ (1 / 10 ^ 6)
    · have hcl' := hcl
      rw [← hs12] at hcl'
      simp only [if_pos hcl, if_pos hcl']
      have hc2 : (if V2.dot (V2.normalVector u1) (u1 + u2) < 0 then -V2.normalVector u1 else V2.normalVector u1) = v1 := by
        rw [hv1, hw']
        by_cases hh : V2.dot (V2.normalVector u1) w < 0
        · rw [if_pos hh, if_pos ((hsgn _ (by positivity)).mpr hh)]
        · rw [if_neg hh, if_neg (fun h => hh ((hsgn _ (by positivity)).mp h))]
      rw [hc2, hdist, hctr]
    · have hcl' := hcl
      rw [← hs12] at hcl'
      simp only [if_neg hcl, if_neg hcl']
      rw [← hv1, hdist, hctr]
  · rw [hdist]
  · rw [hdist]
  · exact hdist

/-- C83: for a corner whose sides are not within `1e-6` of being opposite, and every positive radius, `arc_features` gives a
fillet: an arc of the given radius tangent to both sides at the returned end points. Missing: corners that are almost flat
(counterexample below). The returned tangent length is the distance from the corner to both end points, the returned angle
is half of the angle of the corner. -/
theorem C83_fillet2_partial (a o b : V2 ℝ) (r : ℝ) (hr : 0 < r) (hx : V2.cross (a - o) (b - o) ≠ 0)
    (hflat : ¬ isClose2 (V2.smul (1 / V2.norm (a - o)) (a - o) + V2.smul (1 / V2.norm (b - o)) (b - o)) ⟨0, 0⟩ (1 / 10 ^ 6)) :
    ∃ f, arcFeatures2 a o b r = .ok f ∧ IsFillet2 a o b r f.start f.interior f.fin ∧
      V2.pointDistance o f.start = f.dist ∧ V2.pointDistance o f.fin = f.dist ∧
      cos (2 * f.alpha) * (V2.norm (a - o) * V2.norm (b - o)) = V2.dot (a - o) (b - o) ∧ 0 < f.alpha ∧ f.alpha < π / 2 := by
  obtain ⟨u1, u2, w, S, C, f, hf, hda, hdb, e1, e2, h1, h2, hS, hC, hSC, hw, hww, hwu1, hwu2, fs, fe, fd, fS, fC, fa, fb, fi⟩ :=
    arcFeatures2_eq a o b r hr hx
  have hsum : V2.smul (1 / V2.norm (a - o)) (a - o) + V2.smul (1 / V2.norm (b - o)) (b - o) = u1 + u2 := by
    have t1 : V2.smul (1 / V2.norm (a - o)) (a - o) = u1 := by
      conv_lhs => arg 2; rw [e1]
      ext <;> simp <;> field_simp
    have t2 : V2.smul (1 / V2.norm (b - o)) (b - o) = u2 := by
      conv_lhs => arg 2; rw [e2]
      ext <;> simp <;> field_simp
    rw [t1, t2]
  rw [hsum] at hflat
  rw [if_neg hflat] at fi
  obtain ⟨d1, hd1⟩ : ∃ d, d = V2.norm (a - o) := ⟨_, rfl⟩
  obtain ⟨d2, hd2⟩ : ∃ d, d = V2.norm (b - o) := ⟨_, rfl⟩
  rw [← hd1] at hda e1
  rw [← hd2] at hdb e2
  have hS0 := hS.ne'
  have hC1 : C < 1 := by nlinarith
  have hS1 : S < 1 := by nlinarith
  simp only [V2.dot] at h1 h2 hww hwu1 hwu2
  have sq : ∀ {p q : V2 ℝ} {k : ℝ}, 0 ≤ k → (p.x - q.x) ^ 2 + (p.y - q.y) ^ 2 = k ^ 2 → V2.pointDistance p q = k := by
    intro p q k hk h; rw [pd2_eq, h, sqrt_sq hk]
  have hdist0 : 0 ≤ r * C / S := by positivity
  refine ⟨f, hf, ⟨o + V2.smul (r / S) w, ?_, ?_, ?_, ?_, ?_, ?_, ?_, 1 - S, by linarith, by linarith, ?_⟩, ?_, ?_, ?_, fa, fb⟩
  · refine ⟨r * C / S / d1, by positivity, ?_⟩
    rw [fs, e1]; ext <;> simp <;> field_simp
  · refine ⟨r * C / S / d2, by positivity, ?_⟩
    rw [fe, e2]; ext <;> simp <;> field_simp
  · rw [fs, e1]
    simp only [V2.dot, V2.sub_x, V2.sub_y, V2.add_x, V2.add_y, V2.smul_x, V2.smul_y]
    linear_combination d1 * (r / S) * hwu1 - d1 * (r / S) * C * h1
  · rw [fe, e2]
    simp only [V2.dot, V2.sub_x, V2.sub_y, V2.add_x, V2.add_y, V2.smul_x, V2.smul_y]
    linear_combination d2 * (r / S) * hwu2 - d2 * (r / S) * C * h2
  · refine sq hr.le ?_
    rw [fs]
    simp only [V2.add_x, V2.add_y, V2.smul_x, V2.smul_y]
    have hk : r / S * S = r := div_mul_cancel₀ r hS0
    linear_combination (r / S) ^ 2 * (hww - 2 * C * hwu1 + C ^ 2 * h1 - hSC) + (r / S * S + r) * hk
  · refine sq hr.le ?_
    rw [fe]
    simp only [V2.add_x, V2.add_y, V2.smul_x, V2.smul_y]
    have hk : r / S * S = r := div_mul_cancel₀ r hS0
    linear_combination (r / S) ^ 2 * (hww - 2 * C * hwu2 + C ^ 2 * h2 - hSC) + (r / S * S + r) * hk
  · refine sq hr.le ?_
    rw [fi]
    simp only [V2.sub_x, V2.sub_y, V2.add_x, V2.add_y, V2.smul_x, V2.smul_y]
    linear_combination r ^ 2 * hww
  · rw [fi]
    ext <;> simp <;> field_simp <;> ring
  · rw [fd]
    refine sq hdist0 ?_
    rw [fs]
    simp only [V2.add_x, V2.add_y, V2.smul_x, V2.smul_y]
    linear_combination (r * C / S) ^ 2 * h1
  · rw [fd]
    refine sq hdist0 ?_
    rw [fe]
    simp only [V2.add_x, V2.add_y, V2.smul_x, V2.smul_y]
    linear_combination (r * C / S) ^ 2 * h2
  · rw [cos_two_mul, ← fC, ← hd1, ← hd2, e1, e2]
    have hwx := congrArg V2.x hw
    have hwy := congrArg V2.y hw
    simp only [V2.dot, V2.add_x, V2.add_y, V2.smul_x, V2.smul_y] at *
    linear_combination (-d1 * d2) * (u1.x * hwx + u1.y * hwy) + d1 * d2 * h1 - 2 * d1 * d2 * C * hwu1

/-- C83: on an almost flat corner (the unit vectors to the two neighbours add up to at most `1e-6`) the bisector is not
normalised, and the "interior" point of the arc is within `1e-6·r` of the centre of the circle instead of at distance `r`. -/
theorem C83_flat (a o b : V2 ℝ) (r : ℝ) (hr : 0 < r) (hx : V2.cross (a - o) (b - o) ≠ 0)
    (hflat : isClose2 (V2.smul (1 / V2.norm (a - o)) (a - o) + V2.smul (1 / V2.norm (b - o)) (b - o)) ⟨0, 0⟩ (1 / 10 ^ 6)) :
    ∃ f, arcFeatures2 a o b r = .ok f ∧ ¬ IsFillet2 a o b r f.start f.interior f.fin := by
  obtain ⟨u1, u2, w, S, C, f, hf, hda, hdb, e1, e2, h1, h2, hS, hC, hSC, hw, hww, hwu1, hwu2, fs, fe, fd, fS, fC, fa, fb, fi⟩ :=
    arcFeatures2_eq a o b r hr hx
  have hsum : V2.smul (1 / V2.norm (a - o)) (a - o) + V2.smul (1 / V2.norm (b - o)) (b - o) = u1 + u2 := by
    have t1 : V2.smul (1 / V2.norm (a - o)) (a - o) = u1 := by
      conv_lhs => arg 2; rw [e1]
      ext <;> simp <;> field_simp
    have t2 : V2.smul (1 / V2.norm (b - o)) (b - o) = u2 := by
      conv_lhs => arg 2; rw [e2]
      ext <;> simp <;> field_simp
    rw [t1, t2]
  rw [hsum] at hflat
  rw [if_pos hflat] at fi
  refine ⟨f, hf, ?_⟩
  rintro ⟨Z, -, -, t1, t2, -, -, t3, -⟩
  obtain ⟨d1, hd1⟩ : ∃ d, d = V2.norm (a - o) := ⟨_, rfl⟩
  obtain ⟨d2, hd2⟩ : ∃ d, d = V2.norm (b - o) := ⟨_, rfl⟩
  rw [← hd1] at hda e1
  rw [← hd2] at hdb e2
  have hS0 := hS.ne'
  have hcr : V2.cross u1 u2 ≠ 0 := by
    intro h; apply hx
    rw [e1, e2]
    have : V2.cross (V2.smul d1 u1) (V2.smul d2 u2) = d1 * d2 * V2.cross u1 u2 := by
      simp only [V2.cross, V2.smul_x, V2.smul_y]; ring
    rw [this, h, mul_zero]
  -- the centre is unique
  have k1 : V2.dot (Z - (o + V2.smul (r / S) w)) u1 = 0 := by
    have : d1 * V2.dot (Z - (o + V2.smul (r / S) w)) u1 = 0 := by
      rw [fs, e1] at t1
      simp only [V2.dot, V2.sub_x, V2.sub_y, V2.add_x, V2.add_y, V2.smul_x, V2.smul_y] at *
      have e : r / S * C = r * C / S := by ring
      linear_combination t1 - d1 * (r / S) * hwu1 - d1 * e + d1 * (r * C / S) * h1
    exact (mul_eq_zero.mp this).resolve_left hda.ne'
  have k2 : V2.dot (Z - (o + V2.smul (r / S) w)) u2 = 0 := by
    have : d2 * V2.dot (Z - (o + V2.smul (r / S) w)) u2 = 0 := by
      rw [fe, e2] at t2
      simp only [V2.dot, V2.sub_x, V2.sub_y, V2.add_x, V2.add_y, V2.smul_x, V2.smul_y] at *
      have e : r / S * C = r * C / S := by ring
      linear_combination t2 - d2 * (r / S) * hwu2 - d2 * e + d2 * (r * C / S) * h2
    exact (mul_eq_zero.mp this).resolve_left hdb.ne'
  have hZ : Z = o + V2.smul (r / S) w := by
    have z1 : (Z - (o + V2.smul (r / S) w)).x * V2.cross u1 u2 = 0 := by
      simp only [V2.dot, V2.cross] at *
      linear_combination u2.y * k1 - u1.y * k2
    have z2 : (Z - (o + V2.smul (r / S) w)).y * V2.cross u1 u2 = 0 := by
      simp only [V2.dot, V2.cross] at *
      linear_combination u1.x * k2 - u2.x * k1
    have z1' := (mul_eq_zero.mp z1).resolve_right hcr
    have z2' := (mul_eq_zero.mp z2).resolve_right hcr
    rw [V2.sub_x] at z1'
    rw [V2.sub_y] at z2'
    ext <;> linarith
  have hd : V2.pointDistance Z f.interior = r * V2.norm (u1 + u2) := by
    rw [hZ, fi, pd2_eq]
    have : ((o + V2.smul (r / S) w).x - ((o + V2.smul (r / S) w) - V2.smul r (u1 + u2)).x) ^ 2 +
        ((o + V2.smul (r / S) w).y - ((o + V2.smul (r / S) w) - V2.smul r (u1 + u2)).y) ^ 2 = (r * V2.norm (u1 + u2)) ^ 2 := by
      rw [mul_pow, V2.norm_sq']
      simp only [V2.dot, V2.sub_x, V2.sub_y, V2.add_x, V2.add_y, V2.smul_x, V2.smul_y]; ring
    have h0 : 0 ≤ V2.norm (u1 + u2) := sqrt_nonneg _
    rw [this, sqrt_sq (mul_nonneg hr.le h0)]
  have hn : V2.norm (u1 + u2) ≤ 1 / 10 ^ 6 := by
    unfold isClose2 mathIsClose at hflat
    have e : V2.pointDistance (u1 + u2) ⟨0, 0⟩ = V2.norm (u1 + u2) := by
      unfold V2.pointDistance; congr 1; ext <;> simp
    rw [e, sub_zero, abs_zero] at hflat
    have h0 : 0 ≤ V2.norm (u1 + u2) := sqrt_nonneg _
    rw [abs_of_nonneg h0, max_eq_left h0] at hflat
    rcases le_max_iff.mp hflat with h | h
    · nlinarith
    · exact h
  rw [hd] at t3
  nlinarith

/-- C83 is false: the corner `(-1,0), (0,0), (1-t², 2t)` with `t = 1e-7`. -/
theorem C83_fillet2_counterexample : ¬ C83_fillet2_full_statement := by
  intro h
  have hx : V2.cross ((⟨-1, 0⟩ : V2 ℝ) - ⟨0, 0⟩) (⟨1 - 1 / 10 ^ 14, 2 / 10 ^ 7⟩ - ⟨0, 0⟩) ≠ 0 := by norm_num [V2.cross]
  obtain ⟨f, hf, hfil⟩ := h ⟨-1, 0⟩ ⟨0, 0⟩ ⟨1 - 1 / 10 ^ 14, 2 / 10 ^ 7⟩ 1 one_pos hx
  have n1 : V2.norm ((⟨-1, 0⟩ : V2 ℝ) - ⟨0, 0⟩) = 1 := by unfold V2.norm; norm_num
  have n2 : V2.norm ((⟨1 - 1 / 10 ^ 14, 2 / 10 ^ 7⟩ : V2 ℝ) - ⟨0, 0⟩) = 1 + 1 / 10 ^ 14 := by
    unfold V2.norm
    simp only [V2.sub_x, V2.sub_y]
    rw [show ((1 : ℝ) - 1 / 10 ^ 14 - 0) * (1 - 1 / 10 ^ 14 - 0) + (2 / 10 ^ 7 - 0) * (2 / 10 ^ 7 - 0) = (1 + 1 / 10 ^ 14) ^ 2 by norm_num,
      sqrt_sq (by norm_num)]
  obtain ⟨f', hf', hn⟩ := C83_flat ⟨-1, 0⟩ ⟨0, 0⟩ ⟨1 - 1 / 10 ^ 14, 2 / 10 ^ 7⟩ 1 one_pos hx (by
    rw [n1, n2]
    unfold isClose2 mathIsClose
    rw [pd2_eq]
    refine le_max_of_le_right ?_
    rw [sub_zero, abs_of_nonneg (sqrt_nonneg _), sqrt_le_left (by norm_num)]
    norm_num)
  rw [hf] at hf'; cases hf'
  exact hn hfil

/-- C83: a corner with a repeated point raises `ZeroDivisionError`. -/
theorem C83_repeated (o b : V2 ℝ) (r : ℝ) : arcFeatures2 o o b r = .error .zeroDivision ∧ arcFeatures2 b o o r = .error .zeroDivision := by
  have : V2.norm (o - o) = 0 := by unfold V2.norm; simp
  unfold arcFeatures2
  constructor <;> simp [this]

/-- A concrete corner meeting the hypotheses of `C83_fillet2_partial`. -/
example : V2.cross ((⟨1, 0⟩ : V2 ℝ) - ⟨0, 0⟩) (⟨0, 1⟩ - ⟨0, 0⟩) ≠ 0 ∧
    ¬ isClose2 (V2.smul (1 / V2.norm ((⟨1, 0⟩ : V2 ℝ) - ⟨0, 0⟩)) (⟨1, 0⟩ - ⟨0, 0⟩) +
      V2.smul (1 / V2.norm ((⟨0, 1⟩ : V2 ℝ) - ⟨0, 0⟩)) (⟨0, 1⟩ - ⟨0, 0⟩)) ⟨0, 0⟩ (1 / 10 ^ 6) := by
  have n1 : V2.norm ((⟨1, 0⟩ : V2 ℝ) - ⟨0, 0⟩) = 1 := by unfold V2.norm; norm_num
  have n2 : V2.norm ((⟨0, 1⟩ : V2 ℝ) - ⟨0, 0⟩) = 1 := by unfold V2.norm; norm_num
  refine ⟨by norm_num [V2.cross], ?_⟩
  rw [n1, n2]
  unfold isClose2 mathIsClose
  rw [pd2_eq, not_le, max_lt_iff]
  have h1 : (1 : ℝ) ≤ √2 := by rw [le_sqrt (by norm_num) (by norm_num)]; norm_num
  norm_num
  rw [abs_of_nonneg (by positivity)]
  linarith

end Volmdlr.Fillet
