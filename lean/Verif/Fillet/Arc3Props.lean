import Verif.Fillet.ArcProps

/-!
# C83 in space
-/

namespace Volmdlr.Fillet

open Real Volmdlr.Angle Volmdlr.Arc

theorem V3.norm_smul_abs (k : ℝ) (u : V3 ℝ) : V3.norm (V3.smul k u) = |k| * V3.norm u := by
  unfold V3.norm
  rw [← sqrt_sq_eq_abs, ← sqrt_mul (sq_nonneg k)]
  congr 1
  simp only [V3.smul_x, V3.smul_y, V3.smul_z]; ring

theorem V3.norm_of_dot {u : V3 ℝ} (h : V3.dot u u = 1) : V3.norm u = 1 := by
  unfold V3.norm
  simp only [V3.dot] at h
  rw [h, sqrt_one]

theorem linePointBelongs_unit (a v p : V3 ℝ) (hv : V3.dot v v = 1) :
    linePointBelongs a (a + v) p = some (decide (V3.norm (V3.cross (p - a) v) < 1 / 10 ^ 6)) := by
  have e : a + v - a = v := by ext <;> simp
  unfold linePointBelongs
  simp only [e, V3.norm_of_dot hv, one_ne_zero, if_false, div_one]

/-- The search of the centre: two lines through `C` with unit directions `v1`, `v2`, given by points at distance `r` from
`C`; the answer is `C`, except when one of the two points giving the second line is within `1e-6` of the first line. -/
theorem centre_core (C v1 v2 : V3 ℝ) (r s : ℝ) (hr : 0 < r) (hs : 0 < s) (h1 : V3.dot v1 v1 = 1) (h2 : V3.dot v2 v2 = 1)
    (hx : V3.dot v1 v2 ^ 2 + s ^ 2 = 1) :
    ∃ q, (minimumDistancePointsLines (C + V3.smul r v1) (C + V3.smul r v1 + v1) (C - V3.smul r v2) (C - V3.smul r v2 + v2)).map
        Prod.fst = some q ∧
      ((r * s < 1 / 10 ^ 6 ∧ q = C - V3.smul r v2) ∨
        (1 / 10 ^ 6 ≤ r * s ∧ |1 - r| * s < 1 / 10 ^ 6 ∧ q = C + V3.smul (1 - r) v2) ∨
        (1 / 10 ^ 6 ≤ r * s ∧ 1 / 10 ^ 6 ≤ |1 - r| * s ∧ q = C)) := by
  have hcr : V3.norm (V3.cross v2 v1) = s := by
    have : V3.norm (V3.cross v2 v1) ^ 2 = s ^ 2 := by
      rw [V3.norm_pow_two]
      simp only [V3.dot, V3.cross] at *
      linear_combination (v2.x * v2.x + v2.y * v2.y + v2.z * v2.z) * h1 + h2 - hx
    have h0 := V3.norm_nonneg (V3.cross v2 v1)
    nlinarith
  have n1 : V3.norm (V3.cross (C - V3.smul r v2 - (C + V3.smul r v1)) v1) = r * s := by
    have : V3.cross (C - V3.smul r v2 - (C + V3.smul r v1)) v1 = V3.smul (-r) (V3.cross v2 v1) := by
      ext <;> simp only [V3.cross, V3.sub_x, V3.sub_y, V3.sub_z, V3.add_x, V3.add_y, V3.add_z, V3.smul_x, V3.smul_y, V3.smul_z] <;> ring
    rw [this, V3.norm_smul_abs, hcr, abs_neg, abs_of_pos hr]
  have n2 : V3.norm (V3.cross (C - V3.smul r v2 + v2 - (C + V3.smul r v1)) v1) = |1 - r| * s := by
    have : V3.cross (C - V3.smul r v2 + v2 - (C + V3.smul r v1)) v1 = V3.smul (1 - r) (V3.cross v2 v1) := by
      ext <;> simp only [V3.cross, V3.sub_x, V3.sub_y, V3.sub_z, V3.add_x, V3.add_y, V3.add_z, V3.smul_x, V3.smul_y, V3.smul_z] <;> ring
    rw [this, V3.norm_smul_abs, hcr]
  unfold minimumDistancePointsLines
  rw [linePointBelongs_unit _ _ _ h1, linePointBelongs_unit _ _ _ h1, n1, n2]
  by_cases c1 : r * s < 1 / 10 ^ 6
  · simp only [c1, decide_true, Option.map_some]
    exact ⟨_, rfl, Or.inl ⟨trivial, rfl⟩⟩
  · have c1' := not_lt.mp c1
    by_cases c2 : |1 - r| * s < 1 / 10 ^ 6
    · simp only [c1, c2, decide_true, decide_false, Option.map_some]
      refine ⟨_, rfl, Or.inr (Or.inl ⟨c1', trivial, ?_⟩)⟩
      ext <;> simp <;> ring
    · have c2' := not_lt.mp c2
      simp only [c1, c2, decide_false]
      have eu : C + V3.smul r v1 + v1 - (C + V3.smul r v1) = v1 := by ext <;> simp
      have ev : C - V3.smul r v2 + v2 - (C - V3.smul r v2) = v2 := by ext <;> simp
      have ew : C + V3.smul r v1 - (C - V3.smul r v2) = V3.smul r (v1 + v2) := by ext <;> simp <;> ring
      have hden : 1 * 1 - V3.dot v1 v2 ^ 2 = s ^ 2 := by linarith
      have hw2 : V3.dot v2 (V3.smul r (v1 + v2)) = r * (1 + V3.dot v1 v2) := by
        simp only [V3.dot, V3.smul_x, V3.smul_y, V3.smul_z, V3.add_x, V3.add_y, V3.add_z] at *; linear_combination r * h2
      have hw1 : V3.dot v1 (V3.smul r (v1 + v2)) = r * (1 + V3.dot v1 v2) := by
        simp only [V3.dot, V3.smul_x, V3.smul_y, V3.smul_z, V3.add_x, V3.add_y, V3.add_z] at *; linear_combination r * h1
      simp only [eu, ev, ew, hw1, hw2, h1, h2, hden]
      rw [if_pos (by positivity)]
      refine ⟨_, rfl, Or.inr (Or.inr ⟨c1', c2', ?_⟩)⟩
      have : (V3.dot v1 v2 * (r * (1 + V3.dot v1 v2)) - 1 * (r * (1 + V3.dot v1 v2))) / s ^ 2 = -r := by
        rw [div_eq_iff (by positivity)]
        linear_combination r * hx
      simp only [this]
      ext <;> simp

theorem cos_arg3 (a o b : V3 ℝ) :
    -(V3.norm (a - b) ^ 2 - V3.norm (a - o) ^ 2 - V3.norm (b - o) ^ 2) = 2 * V3.dot (a - o) (b - o) := by
  simp only [V3.norm_pow_two, V3.dot, V3.sub_x, V3.sub_y, V3.sub_z]; ring

/-- `arc_features` in terms of unit vectors. -/
theorem arcFeatures3_eq (a o b : V3 ℝ) (r : ℝ) (hr : 0 < r) (hx : V3.cross (a - o) (b - o) ≠ ⟨0, 0, 0⟩) :
    ∃ (u1 u2 w v2 : V3 ℝ) (d1 d2 S C : ℝ) (f : Feat (V3 ℝ)) (q : V3 ℝ), arcFeatures3 a o b r = .ok f ∧
      d1 = V3.norm (a - o) ∧ d2 = V3.norm (b - o) ∧ 0 < d1 ∧ 0 < d2 ∧
      a - o = V3.smul d1 u1 ∧ b - o = V3.smul d2 u2 ∧
      V3.dot u1 u1 = 1 ∧ V3.dot u2 u2 = 1 ∧ 0 < S ∧ 0 < C ∧ S ^ 2 + C ^ 2 = 1 ∧
      u1 + u2 = V3.smul (2 * C) w ∧ V3.dot w w = 1 ∧ V3.dot w u1 = C ∧ V3.dot w u2 = C ∧
      f.start = o + V3.smul (r * C / S) u1 ∧ f.fin = o + V3.smul (r * C / S) u2 ∧
      f.dist = r * C / S ∧ S = sin f.alpha ∧ C = cos f.alpha ∧ 0 < f.alpha ∧ f.alpha < π / 2 ∧
      V3.norm (V3.cross (a - o) (b - o)) = d1 * d2 * (2 * S * C) ∧ V3.dot v2 v2 = 1 ∧
      f.interior = q - V3.smul r w ∧
      ((r * (2 * S * C) < 1 / 10 ^ 6 ∧ q = o + V3.smul (r / S) w - V3.smul r v2) ∨
        (1 / 10 ^ 6 ≤ r * (2 * S * C) ∧ |1 - r| * (2 * S * C) < 1 / 10 ^ 6 ∧ q = o + V3.smul (r / S) w + V3.smul (1 - r) v2) ∨
        (1 / 10 ^ 6 ≤ r * (2 * S * C) ∧ 1 / 10 ^ 6 ≤ |1 - r| * (2 * S * C) ∧ q = o + V3.smul (r / S) w)) := by
  have ha : a - o ≠ ⟨0, 0, 0⟩ := by intro h; rw [h] at hx; simp [V3.cross] at hx
  have hb : b - o ≠ ⟨0, 0, 0⟩ := by intro h; rw [h] at hx; simp [V3.cross] at hx
  have ha' : 0 < V3.norm (a - o) := lt_of_le_of_ne (V3.norm_nonneg _) (fun h => ha ((V3.norm_eq_zero_iff _).mp h.symm))
  have hb' : 0 < V3.norm (b - o) := lt_of_le_of_ne (V3.norm_nonneg _) (fun h => hb ((V3.norm_eq_zero_iff _).mp h.symm))
  have na := V3.norm_pow_two (a - o)
  have nb := V3.norm_pow_two (b - o)
  have hcos := cos_arg3 a o b
  obtain ⟨d1, hd1⟩ : ∃ d, d = V3.norm (a - o) := ⟨_, rfl⟩
  obtain ⟨d2, hd2⟩ : ∃ d, d = V3.norm (b - o) := ⟨_, rfl⟩
  rw [← hd1] at ha' na
  rw [← hd2] at hb' nb
  obtain ⟨u1, hu1⟩ : ∃ u, u = V3.smul (1 / d1) (a - o) := ⟨_, rfl⟩
  obtain ⟨u2, hu2⟩ : ∃ u, u = V3.smul (1 / d2) (b - o) := ⟨_, rfl⟩
  have e1 : a - o = V3.smul d1 u1 := by
    rw [hu1]; ext <;> simp <;> field_simp
  have e2 : b - o = V3.smul d2 u2 := by
    rw [hu2]; ext <;> simp <;> field_simp
  have h1 : V3.dot u1 u1 = 1 := by
    rw [e1] at na
    have : d1 ^ 2 * V3.dot u1 u1 = d1 ^ 2 * 1 := by
      simp only [V3.dot, V3.smul_x, V3.smul_y, V3.smul_z] at na ⊢; linarith
    exact mul_left_cancel₀ (by positivity) this
  have h2 : V3.dot u2 u2 = 1 := by
    rw [e2] at nb
    have : d2 ^ 2 * V3.dot u2 u2 = d2 ^ 2 * 1 := by
      simp only [V3.dot, V3.smul_x, V3.smul_y, V3.smul_z] at nb ⊢; linarith
    exact mul_left_cancel₀ (by positivity) this
  have hcross : V3.cross (a - o) (b - o) = V3.smul (d1 * d2) (V3.cross u1 u2) := by
    rw [e1, e2]; ext <;> simp only [V3.cross, V3.smul_x, V3.smul_y, V3.smul_z] <;> ring
  have hs : V3.cross u1 u2 ≠ ⟨0, 0, 0⟩ := by
    intro h; apply hx; rw [hcross, h]; ext <;> simp
  have hlag : V3.dot (V3.cross u1 u2) (V3.cross u1 u2) = 1 - V3.dot u1 u2 ^ 2 := by
    simp only [V3.dot, V3.cross] at *
    linear_combination (u2.x * u2.x + u2.y * u2.y + u2.z * u2.z) * h1 + h2
  obtain ⟨n, hn⟩ := V3.unitVector_some hs
  obtain ⟨np, ne, nn⟩ := V3.unitVector_spec hn
  have hpos : 0 < 1 - V3.dot u1 u2 ^ 2 := by rw [← hlag, ← V3.norm_pow_two]; positivity
  have c1 : -1 < V3.dot u1 u2 := by nlinarith
  have c2 : V3.dot u1 u2 < 1 := by nlinarith
  obtain ⟨a0, a1, aS, aC, aC2, aS2, at0⟩ := half_angle _ c1 c2
  have harg : -(V3.norm (a - b) ^ 2 - d1 ^ 2 - d2 ^ 2) / (2 * d1 * d2) = V3.dot u1 u2 := by
    rw [hd1, hd2, hcos, ← hd1, ← hd2, e1, e2]
    simp only [V3.dot, V3.smul_x, V3.smul_y, V3.smul_z]
    field_simp
  obtain ⟨α, hα⟩ : ∃ α, α = arccos (V3.dot u1 u2) / 2 := ⟨_, rfl⟩
  rw [← hα] at a0 a1 aS aC aC2 aS2 at0
  have hdist : r / tan α = r * cos α / sin α := by rw [tan_eq_sin_div_cos]; field_simp
  obtain ⟨S, hS⟩ : ∃ S, S = sin α := ⟨_, rfl⟩
  obtain ⟨C, hC⟩ : ∃ C, C = cos α := ⟨_, rfl⟩
  have hSC : S ^ 2 + C ^ 2 = 1 := by rw [hS, hC]; exact sin_sq_add_cos_sq α
  rw [← hS] at aS aS2 hdist
  rw [← hC] at aC aC2 hdist
  -- the sine of the corner
  have hsin : V3.norm (V3.cross u1 u2) = 2 * S * C := by
    have : V3.norm (V3.cross u1 u2) ^ 2 = (2 * S * C) ^ 2 := by
      rw [V3.norm_pow_two, hlag]
      have : (2 * S * C) ^ 2 = (2 * S ^ 2) * (2 * C ^ 2) := by ring
      rw [this, aC2, aS2]; ring
    exact (sq_eq_sq₀ (V3.norm_nonneg _) (by positivity)).mp this
  rw [hsin] at ne np
  -- the bisector
  obtain ⟨w, hw⟩ : ∃ w, w = V3.smul (1 / (2 * C)) (u1 + u2) := ⟨_, rfl⟩
  have hw' : u1 + u2 = V3.smul (2 * C) w := by
    rw [hw]; ext <;> simp <;> field_simp
  have hnorm : V3.norm (u1 + u2) = 2 * C := by
    have : V3.norm (u1 + u2) ^ 2 = (2 * C) ^ 2 := by
      rw [V3.norm_pow_two]
      simp only [V3.dot, V3.add_x, V3.add_y, V3.add_z] at h1 h2 aC2 ⊢
      linear_combination h1 + h2 - 2 * aC2
    exact (sq_eq_sq₀ (V3.norm_nonneg _) (by positivity)).mp this
  have huw : V3.unitVector (u1 + u2) = some w := by
    unfold V3.unitVector
    rw [hnorm, if_neg (by positivity), hw]
    congr 1
    ext <;> simp <;> ring
  have hx := congrArg V3.x hw'
  have hy := congrArg V3.y hw'
  have hz := congrArg V3.z hw'
  simp only [V3.add_x, V3.add_y, V3.add_z, V3.smul_x, V3.smul_y, V3.smul_z] at hx hy hz
  have hwu1 : V3.dot w u1 = C := by
    have : 2 * C * V3.dot w u1 = 2 * C * C := by
      simp only [V3.dot] at h1 aC2 ⊢
      linear_combination -u1.x * hx - u1.y * hy - u1.z * hz + h1 - aC2
    exact mul_left_cancel₀ (by positivity) this
  have hwu2 : V3.dot w u2 = C := by
    have : 2 * C * V3.dot w u2 = 2 * C * C := by
      simp only [V3.dot] at h2 aC2 ⊢
      linear_combination -u2.x * hx - u2.y * hy - u2.z * hz + h2 - aC2
    exact mul_left_cancel₀ (by positivity) this
  have hww : V3.dot w w = 1 := by
    have : 2 * C * V3.dot w w = 2 * C * 1 := by
      have e : 2 * C * V3.dot w w = V3.dot w u1 + V3.dot w u2 := by
        simp only [V3.dot]
        linear_combination -w.x * hx - w.y * hy - w.z * hz
      rw [e, hwu1, hwu2]; ring
    exact mul_left_cancel₀ (by positivity) this
  -- the two normals in the plane
  have hne : n = V3.smul (1 / (2 * S * C)) (V3.cross u1 u2) := by
    rw [ne]; ext <;> simp <;> field_simp
  have hv1 : V3.cross u1 n = V3.smul (1 / (2 * S * C)) (V3.smul (V3.dot u1 u2) u1 - u2) := by
    rw [hne]
    ext <;> simp only [V3.cross, V3.smul_x, V3.smul_y, V3.smul_z, V3.sub_x, V3.sub_y, V3.sub_z, V3.dot] at h1 ⊢
    · linear_combination (-(1 / (2 * S * C)) * u2.x) * h1
    · linear_combination (-(1 / (2 * S * C)) * u2.y) * h1
    · linear_combination (-(1 / (2 * S * C)) * u2.z) * h1
  have hv2 : V3.cross u2 n = V3.smul (1 / (2 * S * C)) (u1 - V3.smul (V3.dot u1 u2) u2) := by
    rw [hne]
    ext <;> simp only [V3.cross, V3.smul_x, V3.smul_y, V3.smul_z, V3.sub_x, V3.sub_y, V3.sub_z, V3.dot] at h2 ⊢
    · linear_combination ((1 / (2 * S * C)) * u1.x) * h2
    · linear_combination ((1 / (2 * S * C)) * u1.y) * h2
    · linear_combination ((1 / (2 * S * C)) * u1.z) * h2
  have hcc : V3.dot u1 u2 = 2 * C ^ 2 - 1 := by linarith
  have hcc2 : V3.dot u1 u2 = 1 - 2 * S ^ 2 := by linarith
  have hs0 : S ≠ 0 := aS.ne'
  have hc0 : C ≠ 0 := aC.ne'
  have hk : (1 / (2 * S * C)) * (2 * S * C) = 1 := by field_simp
  have hq : (1 / (2 * S * C)) ^ 2 * (1 - V3.dot u1 u2 ^ 2) = 1 := by
    have : 1 - V3.dot u1 u2 ^ 2 = (2 * S * C) ^ 2 := by rw [← hlag, ← hsin, V3.norm_pow_two]
    rw [this, ← mul_pow, hk]; ring
  have d11 : V3.dot (V3.cross u1 n) (V3.cross u1 n) = 1 := by
    rw [hv1]
    generalize 1 / (2 * S * C) = k at hq
    simp only [V3.dot, V3.smul_x, V3.smul_y, V3.smul_z, V3.sub_x, V3.sub_y, V3.sub_z] at h1 h2 hq ⊢
    linear_combination hq + k ^ 2 * (u1.x * u2.x + u1.y * u2.y + u1.z * u2.z) ^ 2 * h1 + k ^ 2 * h2
  have d22 : V3.dot (V3.cross u2 n) (V3.cross u2 n) = 1 := by
    rw [hv2]
    generalize 1 / (2 * S * C) = k at hq
    simp only [V3.dot, V3.smul_x, V3.smul_y, V3.smul_z, V3.sub_x, V3.sub_y, V3.sub_z] at h1 h2 hq ⊢
    linear_combination hq + k ^ 2 * (u1.x * u2.x + u1.y * u2.y + u1.z * u2.z) ^ 2 * h2 + k ^ 2 * h1
  have d12 : V3.dot (V3.cross u1 n) (V3.cross u2 n) = V3.dot u1 u2 := by
    have : V3.dot (V3.cross u1 n) (V3.cross u2 n) = V3.dot u1 u2 * V3.dot n n - V3.dot u1 n * V3.dot n u2 := by
      simp only [V3.dot, V3.cross]; ring
    have h0 : V3.dot u1 n = 0 := by
      rw [hne]; simp only [V3.dot, V3.smul_x, V3.smul_y, V3.smul_z, V3.cross]; ring
    rw [this, nn, h0]; ring
  have hwd : w = V3.smul (1 / (2 * C)) (u1 + u2) := hw
  have k1 : o + V3.smul (r * C / S) u1 = o + V3.smul (r / S) w + V3.smul r (V3.cross u1 n) := by
    rw [hv1, hwd, hcc]
    ext <;> simp <;> field_simp <;> ring
  have k2 : o + V3.smul (r * C / S) u2 = o + V3.smul (r / S) w - V3.smul r (V3.cross u2 n) := by
    rw [hv2, hwd, hcc]
    ext <;> simp <;> field_simp <;> ring
  obtain ⟨q, hqq, hcase⟩ := centre_core (o + V3.smul (r / S) w) (V3.cross u1 n) (V3.cross u2 n) r (2 * S * C) hr
    (by positivity) d11 d22 (by rw [d12, ← hsin, V3.norm_pow_two, hlag]; ring)
  obtain ⟨⟨q', q''⟩, hq1, hq2⟩ := Option.map_eq_some_iff.mp hqq
  refine ⟨u1, u2, w, V3.cross u2 n, d1, d2, S, C, ⟨o + V3.smul (r * C / S) u1, q - V3.smul r w, o + V3.smul (r * C / S) u2,
    r * C / S, α⟩, q, ?_, hd1, hd2, ha', hb', e1, e2, h1, h2, aS, aC, hSC, hw', hww, hwu1, hwu2, rfl, rfl, rfl, hS, hC, a0, a1,
    ?_, d22, rfl, hcase⟩
  · unfold arcFeatures3
    simp only [← hd1, ← hd2, harg, ← hα]
    rw [if_neg (by positivity), if_neg at0]
    simp only [← hu1, ← hu2, huw, hn, hdist, k1, k2]
    rw [hq1]
    simp only [← hq2]
  · rw [hcross, V3.norm_smul_abs, hsin, abs_of_pos (by positivity)]

theorem V3.eq_zero_of_dot {u : V3 ℝ} (h : V3.dot u u = 0) : u = ⟨0, 0, 0⟩ := by
  rw [← V3.norm_eq_zero_iff, ← pow_eq_zero_iff (two_ne_zero), V3.norm_pow_two, h]

/-- The middle point of a rounded corner is determined by the corner, the radius and the end points. -/
theorem IsFillet3.unique {a o b s e m m' : V3 ℝ} {r : ℝ} (hr : 0 < r) (h : IsFillet3 a o b r s m e)
    (h' : IsFillet3 a o b r s m' e) : m = m' := by
  obtain ⟨Z, ⟨x, y, hZ⟩, -, -, k1, k2, -, -, k3, t, ht0, ht1, hm⟩ := h
  obtain ⟨Z', ⟨x', y', hZ'⟩, -, -, k1', k2', -, -, k3', t', ht0', ht1', hm'⟩ := h'
  have hZZ : Z - Z' = V3.smul (x - x') (a - o) + V3.smul (y - y') (b - o) := by
    rw [hZ, hZ']; ext <;> simp <;> ring
  have hd1 : V3.dot (Z - Z') (a - o) = 0 := by
    simp only [V3.dot, V3.sub_x, V3.sub_y, V3.sub_z] at *; linarith
  have hd2 : V3.dot (Z - Z') (b - o) = 0 := by
    simp only [V3.dot, V3.sub_x, V3.sub_y, V3.sub_z] at *; linarith
  have hd : V3.dot (Z - Z') (Z - Z') = 0 := by
    have : V3.dot (Z - Z') (V3.smul (x - x') (a - o) + V3.smul (y - y') (b - o)) =
        (x - x') * V3.dot (Z - Z') (a - o) + (y - y') * V3.dot (Z - Z') (b - o) := by
      simp only [V3.dot, V3.add_x, V3.add_y, V3.add_z, V3.smul_x, V3.smul_y, V3.smul_z]; ring
    rw [← hZZ, hd1, hd2] at this
    rw [this]; ring
  have h0 := V3.eq_zero_of_dot hd
  have hEq : Z = Z' := by
    have a1 := congrArg V3.x h0
    have a2 := congrArg V3.y h0
    have a3 := congrArg V3.z h0
    simp only [V3.sub_x, V3.sub_y, V3.sub_z] at a1 a2 a3
    ext <;> linarith
  subst hEq
  have dm : ∀ {t : ℝ} {m : V3 ℝ}, t < 1 → m = o + V3.smul t (Z - o) → V3.pointDistance Z m = (1 - t) * V3.norm (Z - o) := by
    intro t m ht hm
    have : Z - m = V3.smul (1 - t) (Z - o) := by rw [hm]; ext <;> simp <;> ring
    unfold V3.pointDistance
    rw [this, V3.norm_smul_abs, abs_of_pos (by linarith)]
  rw [dm ht1 hm] at k3
  rw [dm ht1' hm'] at k3'
  have hL : V3.norm (Z - o) ≠ 0 := by intro h; rw [h] at k3; linarith
  have : t = t' := by
    have : (1 - t) * V3.norm (Z - o) = (1 - t') * V3.norm (Z - o) := by rw [k3, k3']
    have := mul_right_cancel₀ hL this
    linarith
  rw [hm, hm', this]

/-- Sine of the angle of the corner `a o b`. -/
noncomputable def cornerSine (a o b : V3 ℝ) : ℝ := V3.norm (V3.cross (a - o) (b - o)) / (V3.norm (a - o) * V3.norm (b - o))

/-- What a user expects: for every proper corner and every positive radius `arc_features` gives a fillet. -/
def C83_fillet3_full_statement : Prop :=
  ∀ (a o b : V3 ℝ) (r : ℝ), 0 < r → V3.cross (a - o) (b - o) ≠ ⟨0, 0, 0⟩ →
    ∃ f, arcFeatures3 a o b r = .ok f ∧ IsFillet3 a o b r f.start f.interior f.fin

/-- C83 in space, all proper corners and positive radii: the end points, the tangent length and the half angle are those of a
fillet, and the interior point `f.interior` differs from the middle `m` of the fillet by less than `1e-6` over the sine of the
corner; it is `m` exactly when neither `r` nor `1 - r` is too small. -/
theorem C83_fillet3 (a o b : V3 ℝ) (r : ℝ) (hr : 0 < r) (hx : V3.cross (a - o) (b - o) ≠ ⟨0, 0, 0⟩) :
    ∃ f m, arcFeatures3 a o b r = .ok f ∧ IsFillet3 a o b r f.start m f.fin ∧
      V3.pointDistance o f.start = f.dist ∧ V3.pointDistance o f.fin = f.dist ∧
      cos (2 * f.alpha) * (V3.norm (a - o) * V3.norm (b - o)) = V3.dot (a - o) (b - o) ∧ 0 < f.alpha ∧ f.alpha < π / 2 ∧
      V3.pointDistance f.interior m * cornerSine a o b < 1 / 10 ^ 6 ∧
      (f.interior = m ↔ 1 / 10 ^ 6 ≤ r * cornerSine a o b ∧ (r = 1 ∨ 1 / 10 ^ 6 ≤ |1 - r| * cornerSine a o b)) := by
  obtain ⟨u1, u2, w, v2, d1, d2, S, C, f, q, hf, hd1, hd2, hda, hdb, e1, e2, h1, h2, hS, hC, hSC, hw, hww, hwu1, hwu2, fs, fe,
    fd, fS, fC, fa, fb, hcr, hv2, fi, hq⟩ := arcFeatures3_eq a o b r hr hx
  have hsine : cornerSine a o b = 2 * S * C := by
    unfold cornerSine
    rw [hcr, ← hd1, ← hd2]; field_simp
  have hS0 := hS.ne'
  have hC1 : C < 1 := by nlinarith
  have hS1 : S < 1 := by nlinarith
  have hwx := congrArg V3.x hw
  have hwy := congrArg V3.y hw
  have hwz := congrArg V3.z hw
  simp only [V3.add_x, V3.add_y, V3.add_z, V3.smul_x, V3.smul_y, V3.smul_z] at hwx hwy hwz
  simp only [V3.dot] at h1 h2 hww hwu1 hwu2
  have sq : ∀ {p q : V3 ℝ} {k : ℝ}, 0 ≤ k → (p.x - q.x) ^ 2 + (p.y - q.y) ^ 2 + (p.z - q.z) ^ 2 = k ^ 2 → V3.pointDistance p q = k := by
    intro p q k hk h; rw [pd3_eq, h, sqrt_sq hk]
  have hdist0 : 0 ≤ r * C / S := by positivity
  have hfil : IsFillet3 a o b r f.start (o + V3.smul (r / S) w - V3.smul r w) f.fin := by
    refine ⟨o + V3.smul (r / S) w, ?_, ?_, ?_, ?_, ?_, ?_, ?_, ?_, 1 - S, by linarith, by linarith, ?_⟩
    · refine ⟨r / S / (2 * C) / d1, r / S / (2 * C) / d2, ?_⟩
      rw [e1, e2]
      have hw2 : w = V3.smul (1 / (2 * C)) (u1 + u2) := by rw [hw]; ext <;> simp <;> field_simp
      rw [hw2]
      ext <;> simp <;> field_simp <;> ring
    · refine ⟨r * C / S / d1, by positivity, ?_⟩
      rw [fs, e1]; ext <;> simp <;> field_simp
    · refine ⟨r * C / S / d2, by positivity, ?_⟩
      rw [fe, e2]; ext <;> simp <;> field_simp
    · rw [fs, e1]
      simp only [V3.dot, V3.sub_x, V3.sub_y, V3.sub_z, V3.add_x, V3.add_y, V3.add_z, V3.smul_x, V3.smul_y, V3.smul_z]
      linear_combination d1 * (r / S) * hwu1 - d1 * (r / S) * C * h1
    · rw [fe, e2]
      simp only [V3.dot, V3.sub_x, V3.sub_y, V3.sub_z, V3.add_x, V3.add_y, V3.add_z, V3.smul_x, V3.smul_y, V3.smul_z]
      linear_combination d2 * (r / S) * hwu2 - d2 * (r / S) * C * h2
    · refine sq hr.le ?_
      rw [fs]
      simp only [V3.add_x, V3.add_y, V3.add_z, V3.smul_x, V3.smul_y, V3.smul_z]
      have hk : r / S * S = r := div_mul_cancel₀ r hS0
      linear_combination (r / S) ^ 2 * (hww - 2 * C * hwu1 + C ^ 2 * h1 - hSC) + (r / S * S + r) * hk
    · refine sq hr.le ?_
      rw [fe]
      simp only [V3.add_x, V3.add_y, V3.add_z, V3.smul_x, V3.smul_y, V3.smul_z]
      have hk : r / S * S = r := div_mul_cancel₀ r hS0
      linear_combination (r / S) ^ 2 * (hww - 2 * C * hwu2 + C ^ 2 * h2 - hSC) + (r / S * S + r) * hk
    · refine sq hr.le ?_
      simp only [V3.sub_x, V3.sub_y, V3.sub_z, V3.add_x, V3.add_y, V3.add_z, V3.smul_x, V3.smul_y, V3.smul_z]
      linear_combination r ^ 2 * hww
    · ext <;> simp <;> field_simp <;> ring
  refine ⟨f, o + V3.smul (r / S) w - V3.smul r w, hf, hfil, ?_, ?_, ?_, fa, fb, ?_, ?_⟩
  · rw [fd]
    refine sq hdist0 ?_
    rw [fs]
    simp only [V3.add_x, V3.add_y, V3.add_z, V3.smul_x, V3.smul_y, V3.smul_z]
    linear_combination (r * C / S) ^ 2 * h1
  · rw [fd]
    refine sq hdist0 ?_
    rw [fe]
    simp only [V3.add_x, V3.add_y, V3.add_z, V3.smul_x, V3.smul_y, V3.smul_z]
    linear_combination (r * C / S) ^ 2 * h2
  · rw [cos_two_mul, ← fC, ← hd1, ← hd2, e1, e2]
    simp only [V3.dot, V3.smul_x, V3.smul_y, V3.smul_z]
    linear_combination (-d1 * d2) * (u1.x * hwx + u1.y * hwy + u1.z * hwz) + d1 * d2 * h1 - 2 * d1 * d2 * C * hwu1
  · rw [hsine, fi]
    have hsc : 0 < 2 * S * C := by positivity
    have dq : ∀ k : ℝ, V3.pointDistance (o + V3.smul (r / S) w + V3.smul k v2 - V3.smul r w) (o + V3.smul (r / S) w - V3.smul r w) = |k| := by
      intro k
      refine sq (abs_nonneg k) ?_
      simp only [V3.dot] at hv2
      simp only [V3.sub_x, V3.sub_y, V3.sub_z, V3.add_x, V3.add_y, V3.add_z, V3.smul_x, V3.smul_y, V3.smul_z]
      rw [sq_abs]
      linear_combination k ^ 2 * hv2
    rcases hq with ⟨c1, hq⟩ | ⟨c1, c2, hq⟩ | ⟨c1, c2, hq⟩
    · have : o + V3.smul (r / S) w - V3.smul r v2 = o + V3.smul (r / S) w + V3.smul (-r) v2 := by ext <;> simp <;> ring
      rw [hq, this, dq, abs_neg, abs_of_pos hr]; exact c1
    · rw [hq, dq]; exact c2
    · have : o + V3.smul (r / S) w = o + V3.smul (r / S) w + V3.smul 0 v2 := by ext <;> simp
      rw [hq]; conv_lhs => arg 1; arg 1; rw [this]
      rw [dq, abs_zero, zero_mul]; norm_num
  · rw [hsine, fi]
    have inj : ∀ k : ℝ, o + V3.smul (r / S) w + V3.smul k v2 - V3.smul r w = o + V3.smul (r / S) w - V3.smul r w → k = 0 := by
      intro k hk
      have a1 := congrArg V3.x hk
      have a2 := congrArg V3.y hk
      have a3 := congrArg V3.z hk
      simp only [V3.sub_x, V3.sub_y, V3.sub_z, V3.add_x, V3.add_y, V3.add_z, V3.smul_x, V3.smul_y, V3.smul_z] at a1 a2 a3
      simp only [V3.dot] at hv2
      linear_combination v2.x * a1 + v2.y * a2 + v2.z * a3 - k * hv2
    rcases hq with ⟨c1, hq⟩ | ⟨c1, c2, hq⟩ | ⟨c1, c2, hq⟩
    · constructor
      · intro h
        have : o + V3.smul (r / S) w - V3.smul r v2 = o + V3.smul (r / S) w + V3.smul (-r) v2 := by ext <;> simp <;> ring
        rw [hq, this] at h
        linarith [inj _ h]
      · rintro ⟨h, -⟩; exact absurd h (not_le.mpr c1)
    · constructor
      · intro h
        rw [hq] at h
        exact ⟨c1, Or.inl (by linarith [inj _ h])⟩
      · rintro ⟨-, rfl | h⟩
        · rw [hq]; ext <;> simp
        · exact absurd h (not_le.mpr c2)
    · rw [hq]; exact ⟨fun _ => ⟨c1, Or.inr c2⟩, fun _ => rfl⟩

/-- C83 in space: exactly when `arc_features` gives a fillet. -/
theorem C83_fillet3_iff (a o b : V3 ℝ) (r : ℝ) (hr : 0 < r) (hx : V3.cross (a - o) (b - o) ≠ ⟨0, 0, 0⟩) :
    (∃ f, arcFeatures3 a o b r = .ok f ∧ IsFillet3 a o b r f.start f.interior f.fin) ↔
      1 / 10 ^ 6 ≤ r * cornerSine a o b ∧ (r = 1 ∨ 1 / 10 ^ 6 ≤ |1 - r| * cornerSine a o b) := by
  obtain ⟨f, m, hf, hfil, -, -, -, -, -, -, hiff⟩ := C83_fillet3 a o b r hr hx
  rw [← hiff]
  constructor
  · rintro ⟨f', hf', h⟩
    rw [hf] at hf'; cases hf'
    exact h.unique hr hfil
  · intro h; exact ⟨f, hf, h ▸ hfil⟩

theorem cornerSine_right : cornerSine ⟨1, 0, 0⟩ ⟨0, 0, 0⟩ ⟨0, 1, 0⟩ = 1 := by
  unfold cornerSine V3.norm V3.cross; norm_num

/-- C83 in space is false: a right corner with a radius one tenth of a millionth, or with a radius equal to one up to one
tenth of a millionth. -/
theorem C83_fillet3_counterexample : ¬ C83_fillet3_full_statement := by
  intro h
  have hx : V3.cross ((⟨1, 0, 0⟩ : V3 ℝ) - ⟨0, 0, 0⟩) (⟨0, 1, 0⟩ - ⟨0, 0, 0⟩) ≠ ⟨0, 0, 0⟩ := by
    intro h; have := congrArg V3.z h; norm_num [V3.cross] at this
  have := (C83_fillet3_iff ⟨1, 0, 0⟩ ⟨0, 0, 0⟩ ⟨0, 1, 0⟩ (1 / 10 ^ 7) (by norm_num) hx).mp (h _ _ _ _ (by norm_num) hx)
  rw [cornerSine_right] at this
  norm_num at this

/-- A right corner with radius `1/10` meets the condition of `C83_fillet3_iff`. -/
example : ∃ f, arcFeatures3 ⟨1, 0, 0⟩ ⟨0, 0, 0⟩ ⟨0, 1, 0⟩ (1 / 10) = .ok f ∧
    IsFillet3 ⟨1, 0, 0⟩ ⟨0, 0, 0⟩ ⟨0, 1, 0⟩ (1 / 10) f.start f.interior f.fin := by
  have hx : V3.cross ((⟨1, 0, 0⟩ : V3 ℝ) - ⟨0, 0, 0⟩) (⟨0, 1, 0⟩ - ⟨0, 0, 0⟩) ≠ ⟨0, 0, 0⟩ := by
    intro h; have := congrArg V3.z h; norm_num [V3.cross] at this
  rw [C83_fillet3_iff _ _ _ _ (by norm_num) hx, cornerSine_right]
  refine ⟨by norm_num, Or.inr ?_⟩
  rw [abs_of_pos (by norm_num)]; norm_num

end Volmdlr.Fillet
