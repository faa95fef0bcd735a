import Verif.Intersect.LineProps

/-!
# C56, C74: intersections with circles and ellipses
-/

namespace Volmdlr.Intersect

open Volmdlr.Angle Volmdlr.Arc

/-- A point of the circle of centre `c` and radius `r` (specification). -/
def OnCircle2 (c : V2 ℝ) (r : ℝ) (p : V2 ℝ) : Prop := V2.pointDistance p c = r

lemma onCircle2_iff {c p : V2 ℝ} {r : ℝ} (hr : 0 ≤ r) : OnCircle2 c r p ↔ (p.x - c.x) ^ 2 + (p.y - c.y) ^ 2 = r ^ 2 := by
  unfold OnCircle2
  rw [← sq_pointDistance2]
  constructor
  · rintro rfl; rfl
  · intro h
    rw [← abs_of_nonneg hr, ← abs_of_nonneg (pointDistance_nonneg p c)]
    exact (sq_eq_sq_iff_abs_eq_abs _ _).mp h

/-! ## Two circles -/

/-- The full statement: the points returned are exactly the common points of two circles with different centres. -/
def C56_circles_full_statement : Prop :=
  ∀ (c1 c2 : V2 ℝ) (r1 r2 : ℝ), 0 < r1 → 0 < r2 → 1 / 10 ^ 6 < V2.pointDistance c1 c2 →
    ∃ ps, circleCircle c1 r1 c2 r2 = .ok ps ∧ ∀ p, p ∈ ps ↔ OnCircle2 c1 r1 p ∧ OnCircle2 c2 r2 p

/-- C56, two circles: outside the band where the offset `a` of the chord is within 1e-6 of the first radius (and when exactly tangent), the call
returns exactly the common points of the two circles, and never raises. -/
theorem C56_circles_partial (c1 c2 : V2 ℝ) (r1 r2 : ℝ) (h1 : 0 < r1) (h2 : 0 < r2) (hd : 1 / 10 ^ 6 < V2.pointDistance c1 c2)
    (hband : 1 / 10 ^ 6 ≤ |r1 - (r1 ^ 2 - r2 ^ 2 + V2.pointDistance c1 c2 ^ 2) / (2 * V2.pointDistance c1 c2)| ∨
      r1 = (r1 ^ 2 - r2 ^ 2 + V2.pointDistance c1 c2 ^ 2) / (2 * V2.pointDistance c1 c2)) :
    ∃ ps, circleCircle c1 r1 c2 r2 = .ok ps ∧ ∀ p, p ∈ ps ↔ OnCircle2 c1 r1 p ∧ OnCircle2 c2 r2 p := by
  obtain ⟨d, hdd⟩ : ∃ d, d = V2.pointDistance c1 c2 := ⟨_, rfl⟩
  have hsqrt : Real.sqrt ((c2.x - c1.x) ^ 2 + (c2.y - c1.y) ^ 2) = d := by
    rw [hdd]
    unfold V2.pointDistance V2.norm
    congr 1
    simp only [V2.sub_x, V2.sub_y]
    ring
  have hsq : (c2.x - c1.x) ^ 2 + (c2.y - c1.y) ^ 2 = d ^ 2 := by
    rw [hdd, sq_pointDistance2]; ring
  rw [← hdd] at hd hband
  have hdpos : 0 < d := lt_trans (by norm_num) hd
  have hfar : ¬isClose2 c1 c2 (1 / 10 ^ 6) := by
    rw [isClose2_iff (by norm_num), ← hdd, not_le]; exact hd
  -- common points: their offset along the line of centres
  have hcommon : ∀ p, OnCircle2 c1 r1 p → OnCircle2 c2 r2 p →
      2 * ((p.x - c1.x) * (c2.x - c1.x) + (p.y - c1.y) * (c2.y - c1.y)) = r1 ^ 2 - r2 ^ 2 + d ^ 2 := by
    intro p hp1 hp2
    rw [onCircle2_iff h1.le] at hp1
    rw [onCircle2_iff h2.le] at hp2
    rw [← hp1, ← hp2, ← hsq]
    ring
  unfold circleCircle
  dsimp only
  rw [hsqrt, if_neg hfar]
  -- triangle inequalities
  by_cases c3 : d > r1 + r2
  · rw [if_pos c3]
    refine ⟨_, rfl, fun p => ⟨fun h => absurd h List.not_mem_nil, fun ⟨e1, e2⟩ => ?_⟩⟩
    exfalso
    have e3 := hcommon p e1 e2
    rw [onCircle2_iff h1.le] at e1
    have := cauchy3 (p.x - c1.x) (p.y - c1.y) 0 (c2.x - c1.x) (c2.y - c1.y) 0
    have e5 : ((p.x - c1.x) * (c2.x - c1.x) + (p.y - c1.y) * (c2.y - c1.y)) ^ 2 ≤ r1 ^ 2 * d ^ 2 := by
      rw [← e1, ← hsq]; linarith
    have e6 := abs_le_of_sq_le_sq' (show ((p.x - c1.x) * (c2.x - c1.x) + (p.y - c1.y) * (c2.y - c1.y)) ^ 2 ≤ (r1 * d) ^ 2 by rw [mul_pow]; exact e5) (by positivity)
    have e7 := mul_pos (show 0 < d - r1 - r2 by linarith) (show 0 < d - r1 + r2 by linarith)
    linarith [e6.2]
  rw [if_neg c3]
  by_cases c4 : d < |r1 - r2|
  · rw [if_pos c4]
    refine ⟨_, rfl, fun p => ⟨fun h => absurd h List.not_mem_nil, fun ⟨e1, e2⟩ => ?_⟩⟩
    exfalso
    have e3 := hcommon p e1 e2
    rw [onCircle2_iff h1.le] at e1
    have := cauchy3 (p.x - c1.x) (p.y - c1.y) 0 (c2.x - c1.x) (c2.y - c1.y) 0
    have e5 : ((p.x - c1.x) * (c2.x - c1.x) + (p.y - c1.y) * (c2.y - c1.y)) ^ 2 ≤ r1 ^ 2 * d ^ 2 := by
      rw [← e1, ← hsq]; linarith
    have e6 := abs_le_of_sq_le_sq' (show ((p.x - c1.x) * (c2.x - c1.x) + (p.y - c1.y) * (c2.y - c1.y)) ^ 2 ≤ (r1 * d) ^ 2 by rw [mul_pow]; exact e5) (by positivity)
    rcases abs_cases (r1 - r2) with ⟨e7, -⟩ | ⟨e7, -⟩
    · rw [e7] at c4
      have e8 := mul_pos (show 0 < r1 - d - r2 by linarith) (show 0 < r1 - d + r2 by linarith)
      linarith [e6.2]
    · rw [e7] at c4
      have e8 := mul_pos (show 0 < r2 - r1 - d by linarith) (show 0 < r2 + r1 + d by linarith)
      linarith [e6.1]
  rw [if_neg c4, if_neg (by rintro ⟨h, -⟩; linarith), if_neg (by linarith)]
  obtain ⟨a, ha⟩ : ∃ a, a = (r1 ^ 2 - r2 ^ 2 + d ^ 2) / (2 * d) := ⟨_, rfl⟩
  rw [← ha] at hband ⊢
  have ha' : a * (2 * d) = r1 ^ 2 - r2 ^ 2 + d ^ 2 := by rw [ha]; field_simp
  rw [gt_iff_lt, not_lt] at c3
  rw [not_lt, abs_le] at c4
  -- |a| ≤ r1
  have hle : a ^ 2 ≤ r1 ^ 2 := by
    have q1 : a * (2 * d) ≤ r1 * (2 * d) := by
      have := mul_nonneg (show 0 ≤ r2 - r1 + d by linarith) (show 0 ≤ r2 + r1 - d by linarith)
      rw [ha']; linarith
    have q2 : -(r1 * (2 * d)) ≤ a * (2 * d) := by
      have := mul_nonneg (show 0 ≤ r1 + d - r2 by linarith) (show 0 ≤ r1 + d + r2 by linarith)
      rw [ha']; linarith
    have q3 : a ≤ r1 := le_of_mul_le_mul_right q1 (by linarith)
    have q4 : -r1 ≤ a := le_of_mul_le_mul_right (by linarith : -r1 * (2 * d) ≤ a * (2 * d)) (by linarith)
    exact sq_le_sq' q4 q3
  rw [if_neg (by rintro ⟨-, h⟩; linarith)]
  obtain ⟨h, hh⟩ : ∃ h, h = if |r1 - a| < 1 / 10 ^ 6 then 0 else Real.sqrt (r1 ^ 2 - a ^ 2) := ⟨_, rfl⟩
  rw [← hh]
  have hsqh : h ^ 2 = r1 ^ 2 - a ^ 2 := by
    rcases hband with hb | hb
    · rw [hh, if_neg (not_lt.mpr hb), Real.sq_sqrt (by linarith)]
    · have : |r1 - a| < 1 / 10 ^ 6 := by rw [← hb, sub_self, abs_zero]; norm_num
      rw [hh, if_pos this, ← hb]; ring
  refine ⟨_, rfl, fun p => ?_⟩
  obtain ⟨u, hu⟩ : ∃ u, u = (c2.x - c1.x) / d := ⟨_, rfl⟩
  obtain ⟨v, hv⟩ : ∃ v, v = (c2.y - c1.y) / d := ⟨_, rfl⟩
  have hu' : c2.x = c1.x + u * d := by rw [hu]; field_simp; ring
  have hv' : c2.y = c1.y + v * d := by rw [hv]; field_simp; ring
  have huv : u ^ 2 + v ^ 2 = 1 := by
    rw [hu, hv, div_pow, div_pow, ← add_div, hsq]; field_simp
  have f1 : a * (c2.x - c1.x) / d = a * u := by rw [hu]; ring
  have f2 : a * (c2.y - c1.y) / d = a * v := by rw [hv]; ring
  have f3 : h * (c2.y - c1.y) / d = h * v := by rw [hv]; ring
  have f4 : h * (c2.x - c1.x) / d = h * u := by rw [hu]; ring
  rw [f1, f2, f3, f4]
  rw [onCircle2_iff h1.le, onCircle2_iff h2.le]
  simp only [List.mem_cons, List.not_mem_nil, or_false]
  constructor
  · rintro (rfl | rfl)
    · dsimp only
      rw [hu', hv']
      constructor
      · linear_combination (a ^ 2 + h ^ 2) * huv + hsqh
      · linear_combination (a ^ 2 + h ^ 2 - 2 * a * d + d ^ 2) * huv + hsqh - ha'
    · dsimp only
      rw [hu', hv']
      constructor
      · linear_combination (a ^ 2 + h ^ 2) * huv + hsqh
      · linear_combination (a ^ 2 + h ^ 2 - 2 * a * d + d ^ 2) * huv + hsqh - ha'
  · rintro ⟨e1, e2⟩
    obtain ⟨X, hX⟩ : ∃ X, X = (p.x - c1.x) * u + (p.y - c1.y) * v := ⟨_, rfl⟩
    obtain ⟨Y, hY⟩ : ∃ Y, Y = -(p.x - c1.x) * v + (p.y - c1.y) * u := ⟨_, rfl⟩
    have px : p.x = c1.x + X * u - Y * v := by rw [hX, hY]; linear_combination (c1.x - p.x) * huv
    have py : p.y = c1.y + X * v + Y * u := by rw [hX, hY]; linear_combination (c1.y - p.y) * huv
    have hXa : X = a := by
      apply mul_right_cancel₀ (show (2 * d : ℝ) ≠ 0 by positivity)
      rw [ha', hX, ← e1, ← e2, hu', hv']
      linear_combination d ^ 2 * huv
    have hYY : Y ^ 2 = h ^ 2 := by
      rw [hsqh, ← hXa, hX, hY, ← e1]
      linear_combination ((p.x - c1.x) ^ 2 + (p.y - c1.y) ^ 2) * huv
    rcases sq_eq_sq_iff_eq_or_eq_neg.mp hYY with hy | hy
    · right
      ext
      · dsimp only; rw [px, hXa, hy]; try ring
      · dsimp only; rw [py, hXa, hy]; try ring
    · left
      ext
      · dsimp only; rw [px, hXa, hy]; try ring
      · dsimp only; rw [py, hXa, hy]; try ring

/-- The circles of radius 3 and 4 at distance 5 are outside the band. -/
example : (1 / 10 ^ 6 : ℝ) ≤ |3 - (3 ^ 2 - 4 ^ 2 + 5 ^ 2) / (2 * 5)| := by norm_num [abs_of_pos]

/-- C56, two circles: false.  The circle of radius 1 at the origin and the circle of radius 1/1000 at (1,0) cross at two points about 2e-3 apart;
the point (1 - 5e-7, 0) is returned twice, and it is 5e-7 from the second centre. -/
theorem C56_circles_counterexample : ¬C56_circles_full_statement := by
  intro h
  have hd : V2.pointDistance (⟨0, 0⟩ : V2 ℝ) ⟨1, 0⟩ = 1 := by norm_num [V2.pointDistance, V2.norm]
  obtain ⟨ps, h1, h2⟩ := h ⟨0, 0⟩ ⟨1, 0⟩ 1 (1 / 1000) (by norm_num) (by norm_num) (by rw [hd]; norm_num)
  have hfar : ¬isClose2 (⟨0, 0⟩ : V2 ℝ) ⟨1, 0⟩ (1 / 10 ^ 6) := by
    rw [isClose2_iff (by norm_num), hd, not_le]; norm_num
  unfold circleCircle at h1
  dsimp only at h1
  rw [if_neg hfar] at h1
  have hs : Real.sqrt ((1 - 0 : ℝ) ^ 2 + (0 - 0) ^ 2) = 1 := by norm_num
  rw [hs] at h1
  have ha : |(1 : ℝ) - (1 ^ 2 - (1 / 1000) ^ 2 + 1 ^ 2) / (2 * 1)| < 1 / 10 ^ 6 := by norm_num [abs_of_pos]
  rw [if_neg (by norm_num), if_neg (by norm_num [abs_of_pos]), if_neg (by norm_num), if_neg (by norm_num), if_neg (by tauto), if_pos ha] at h1
  cases h1
  have h3 := (h2 _).mp (List.mem_cons_self ..)
  have h4 := (onCircle2_iff (by norm_num)).mp h3.2
  norm_num at h4

/-! ## Circle and line of the same plane -/

lemma unitVector3_spec {u n : V3 ℝ} (h : V3.unitVector u = some n) : 0 < V3.norm u ∧ u = V3.smul (V3.norm u) n ∧ V3.dot n n = 1 := by
  unfold V3.unitVector at h
  split_ifs at h with h0
  cases h
  have hpos := lt_of_le_of_ne (V3.norm_nonneg u) (Ne.symm h0)
  refine ⟨hpos, ?_, ?_⟩
  · ext <;> simp <;> field_simp
  · have := V3.norm_sq u
    simp only [V3.dot] at *
    field_simp
    linarith

/-- C56, circle and line: the points returned are on the line; outside the tangency band, they are at the distance `radius` from the centre and every such
point of the line is returned.  In the band a single point is returned, at a distance from the centre between `radius - 1e-7 / radius` and `radius`. -/
theorem C56_circle_line (c : Circle3) (hr : 0 < c.radius) (l : Line3) (h : l.point1 ≠ l.point2) :
    ∃ ps, planarCircleLine c l = some ps ∧ (∀ p ∈ ps, OnLine3 l.point1 l.point2 p) ∧
      ((∀ p, p ∈ ps ↔ OnLine3 l.point1 l.point2 p ∧ V3.pointDistance p c.frame.origin = c.radius) ∨
        ∃ p, ps = [p] ∧ c.radius ^ 2 - 1 / 10 ^ 7 / 4 ≤ V3.pointDistance p c.frame.origin ^ 2 ∧ V3.pointDistance p c.frame.origin ≤ c.radius) := by
  classical
  unfold planarCircleLine
  dsimp only
  -- the two ways of reading the line
  obtain ⟨q, raw, hq, hraw⟩ : ∃ q raw : V3 ℝ, (q = (if isClose3 l.point1 c.frame.origin (1 / 10 ^ 6) then l.point2 else l.point1)) ∧
      raw = (if isClose3 l.point1 c.frame.origin (1 / 10 ^ 6) then l.point1 - l.point2 else l.point2 - l.point1) := ⟨_, _, rfl, rfl⟩
  rw [← hq, ← hraw]
  have hon : ∀ x : V3 ℝ, OnLine3 l.point1 l.point2 x ↔ ∃ t, x.x = q.x + t * raw.x ∧ x.y = q.y + t * raw.y ∧ x.z = q.z + t * raw.z := by
    intro x
    by_cases hb : isClose3 l.point1 c.frame.origin (1 / 10 ^ 6)
    · rw [if_pos hb] at hq hraw
      rw [hq, hraw]
      constructor
      · rintro ⟨t, a1, a2, a3⟩
        exact ⟨1 - t, by rw [a1]; simp only [V3.sub_x]; ring, by rw [a2]; simp only [V3.sub_y]; ring, by rw [a3]; simp only [V3.sub_z]; ring⟩
      · rintro ⟨t, a1, a2, a3⟩
        simp only [V3.sub_x, V3.sub_y, V3.sub_z] at a1 a2 a3
        exact ⟨1 - t, by rw [a1]; ring, by rw [a2]; ring, by rw [a3]; ring⟩
    · rw [if_neg hb] at hq hraw
      rw [hq, hraw]
      exact Iff.rfl
  have hne : raw ≠ ⟨0, 0, 0⟩ := by
    rw [hraw]
    split_ifs
    · rw [Ne, V3.sub_eq_zero_iff]; exact Ne.symm h
    · rw [Ne, V3.sub_eq_zero_iff]; exact h
  have hn0 : V3.norm raw ≠ 0 := by rwa [Ne, V3.norm_eq_zero_iff]
  obtain ⟨n, hn⟩ : ∃ n, V3.unitVector raw = some n := by
    unfold V3.unitVector; rw [if_neg hn0]; exact ⟨_, rfl⟩
  obtain ⟨hpos, hrn, hnn⟩ := unitVector3_spec hn
  have hon' : ∀ x : V3 ℝ, OnLine3 l.point1 l.point2 x ↔ ∃ t, x.x = q.x + t * n.x ∧ x.y = q.y + t * n.y ∧ x.z = q.z + t * n.z := by
    intro x
    rw [hon]
    have r1 : raw.x = n.x * V3.norm raw := by conv_lhs => rw [hrn]
                                              rfl
    have r2 : raw.y = n.y * V3.norm raw := by conv_lhs => rw [hrn]
                                              rfl
    have r3 : raw.z = n.z * V3.norm raw := by conv_lhs => rw [hrn]
                                              rfl
    constructor
    · rintro ⟨t, a1, a2, a3⟩
      refine ⟨t * V3.norm raw, ?_, ?_, ?_⟩
      · rw [a1]; conv_lhs => rw [r1]
        ring
      · rw [a2]; conv_lhs => rw [r2]
        ring
      · rw [a3]; conv_lhs => rw [r3]
        ring
    · rintro ⟨t, a1, a2, a3⟩
      refine ⟨t / V3.norm raw, ?_, ?_, ?_⟩
      · rw [a1]; conv_rhs => rw [r1]
        field_simp
      · rw [a2]; conv_rhs => rw [r2]
        field_simp
      · rw [a3]; conv_rhs => rw [r3]
        field_simp
  rw [hn, Option.map_some]
  refine ⟨_, rfl, ?_, ?_⟩
  · intro p hp
    rw [hon']
    split_ifs at hp with h1 h2
    · cases hp
    · rw [List.mem_singleton] at hp
      exact ⟨_, by rw [hp]; simp only [V3.add_x, V3.smul_x]; rw [mul_comm n.x], by rw [hp]; simp only [V3.add_y, V3.smul_y]; rw [mul_comm n.y],
        by rw [hp]; simp only [V3.add_z, V3.smul_z]; rw [mul_comm n.z]⟩
    · simp only [List.mem_cons, List.not_mem_nil, or_false] at hp
      rcases hp with hp | hp
      · exact ⟨_, by rw [hp]; simp only [V3.add_x, V3.smul_x]; rw [mul_comm n.x], by rw [hp]; simp only [V3.add_y, V3.smul_y]; rw [mul_comm n.y],
          by rw [hp]; simp only [V3.add_z, V3.smul_z]; rw [mul_comm n.z]⟩
      · exact ⟨_, by rw [hp]; simp only [V3.add_x, V3.smul_x]; rw [mul_comm n.x], by rw [hp]; simp only [V3.add_y, V3.smul_y]; rw [mul_comm n.y],
          by rw [hp]; simp only [V3.add_z, V3.smul_z]; rw [mul_comm n.z]⟩
  · rw [hnn]
    obtain ⟨B, hB⟩ : ∃ B, B = 2 * V3.dot n (q - c.frame.origin) := ⟨_, rfl⟩
    obtain ⟨k, hk⟩ : ∃ k, k = V3.dot q q + V3.dot c.frame.origin c.frame.origin - 2 * V3.dot q c.frame.origin - c.radius ^ 2 := ⟨_, rfl⟩
    rw [← hB, ← hk]
    obtain ⟨D, hD⟩ : ∃ D, D = B ^ 2 - 4 * 1 * k := ⟨_, rfl⟩
    rw [← hD]
    -- squared distance at parameter t
    have hdist : ∀ t : ℝ, V3.pointDistance (q + V3.smul t n) c.frame.origin ^ 2 = c.radius ^ 2 + (t ^ 2 + B * t + k) := by
      intro t
      rw [sq_pointDistance3, hB, hk]
      simp only [V3.dot, V3.add_x, V3.add_y, V3.add_z, V3.smul_x, V3.smul_y, V3.smul_z, V3.sub_x, V3.sub_y, V3.sub_z] at hnn ⊢
      linear_combination t ^ 2 * hnn
    have hdist' : ∀ t : ℝ, V3.pointDistance (q + V3.smul t n) c.frame.origin = c.radius ↔ (2 * t + B) ^ 2 = D := by
      intro t
      rw [← abs_of_nonneg (pointDistance3_nonneg _ _), ← abs_of_nonneg hr.le, ← sq_eq_sq_iff_abs_eq_abs, hdist, hD]
      constructor <;> intro hh <;> linarith
    have hform : ∀ x : V3 ℝ, OnLine3 l.point1 l.point2 x ↔ ∃ t, x = q + V3.smul t n := by
      intro x
      rw [hon']
      constructor
      · rintro ⟨t, a1, a2, a3⟩
        refine ⟨t, ?_⟩
        ext
        · rw [a1]; simp; ring
        · rw [a2]; simp; ring
        · rw [a3]; simp; ring
      · rintro ⟨t, rfl⟩
        exact ⟨t, by simp; ring, by simp; ring, by simp; ring⟩
    by_cases c1 : D < 0
    · left
      rw [if_pos c1]
      intro p
      constructor
      · intro hp; cases hp
      · rintro ⟨hp1, hp2⟩
        obtain ⟨t, rfl⟩ := (hform p).mp hp1
        rw [hdist'] at hp2
        nlinarith [sq_nonneg (2 * t + B)]
    · rw [if_neg c1]
      rw [not_lt] at c1
      by_cases c2 : mathIsClose D 0 (1 / 10 ^ 7)
      · right
        rw [if_pos c2]
        rw [mathIsClose_zero (by norm_num), abs_of_nonneg c1] at c2
        refine ⟨_, rfl, ?_, ?_⟩
        · rw [hdist]
          have : (-B / (2 * 1)) ^ 2 + B * (-B / (2 * 1)) + k = -(D / 4) := by rw [hD]; ring
          rw [this]
          linarith
        · apply V3.abs_le_of_sq hr.le
          rw [hdist]
          have : (-B / (2 * 1)) ^ 2 + B * (-B / (2 * 1)) + k = -(D / 4) := by rw [hD]; ring
          rw [this]
          linarith
      · left
        rw [if_neg c2]
        intro p
        have hs := Real.sq_sqrt c1
        simp only [List.mem_cons, List.not_mem_nil, or_false]
        constructor
        · rintro (rfl | rfl)
          · refine ⟨(hform _).mpr ⟨_, rfl⟩, ?_⟩
            rw [hdist']
            conv_rhs => rw [← hs]
            ring
          · refine ⟨(hform _).mpr ⟨_, rfl⟩, ?_⟩
            rw [hdist']
            conv_rhs => rw [← hs]
            ring
        · rintro ⟨hp1, hp2⟩
          obtain ⟨t, rfl⟩ := (hform p).mp hp1
          rw [hdist'] at hp2
          replace hp2 := hp2.trans hs.symm
          rcases sq_eq_sq_iff_eq_or_eq_neg.mp hp2 with hh | hh
          · left; congr 2; linarith
          · right; congr 2; linarith

/-- C56, circle and line: a line parallel to the plane of the circle, at another height and at a distance at most the radius from the centre,
makes `circle_3d_line_intersections` divide by zero. -/
theorem C56_circle_line_counterexample :
    circleLineZ ⟨planeXY, 1⟩ ⟨⟨0, 0, 1 / 2⟩, ⟨1, 0, 1 / 2⟩⟩ = .error .zeroDivision := by
  have e1 : (⟨⟨0, 0, 1 / 2⟩, ⟨1, 0, 1 / 2⟩⟩ : Line3).dir = ⟨1, 0, 0⟩ := by ext <;> norm_num [Line3.dir]
  have n1 : V3.norm (⟨1, 0, 0⟩ : V3 ℝ) = 1 := by norm_num [V3.norm]
  have hd : (⟨⟨0, 0, 1 / 2⟩, ⟨1, 0, 1 / 2⟩⟩ : Line3).pointDistance planeXY.origin = some (1 / 2) := by
    unfold Line3.pointDistance
    rw [e1, n1, if_neg (by norm_num)]
    have : V3.cross (planeXY.origin - (⟨0, 0, 1 / 2⟩ : V3 ℝ)) ⟨1, 0, 0⟩ = ⟨0, -1 / 2, 0⟩ := by
      ext <;> norm_num [V3.cross, planeXY]
    dsimp only
    rw [this]
    have : V3.norm (⟨0, -1 / 2, 0⟩ : V3 ℝ) = 1 / 2 := by
      unfold V3.norm
      rw [show (0 * 0 + -1 / 2 * (-1 / 2) + 0 * 0 : ℝ) = (1 / 2) ^ 2 by norm_num]
      exact Real.sqrt_sq (by norm_num)
    rw [this, div_one]
  unfold circleLineZ
  rw [hd]
  dsimp only
  rw [if_neg (by norm_num), if_neg, if_pos]
  · rw [e1]
  · rintro ⟨-, hc⟩
    rw [show planeXY.origin.z = 0 from rfl, mathIsClose_zero (by norm_num)] at hc
    norm_num [abs_of_pos] at hc

/-! ## C74: ellipse and line -/

/-- A point of the ellipse of half axes `a`, `b` along the axes, centred at the origin (specification). -/
def OnEllipse (a b : ℝ) (p : V2 ℝ) : Prop := p.x ^ 2 / a ^ 2 + p.y ^ 2 / b ^ 2 = 1

/-- The full statement: the points returned are exactly the common points. -/
def C74_full_statement : Prop :=
  ∀ (a b : ℝ) (l : Line2), 0 < b → b ≤ a → l.point1 ≠ l.point2 →
    ∃ ps, ellipseLineLocal a b l = .ok ps ∧ ∀ p, p ∈ ps ↔ OnLine2 l.point1 l.point2 p ∧ OnEllipse a b p

/-- C74: a line that is not vertical within the tolerance: every point returned is on the line and on the ellipse.  -/
theorem C74_sound_partial (a b : ℝ) (l : Line2) (ha : 0 < a) (hb : 0 < b) (hv : ¬mathIsClose l.point2.x l.point1.x (1 / 10 ^ 6)) :
    ∃ ps, ellipseLineLocal a b l = .ok ps ∧ ∀ p ∈ ps, OnLine2 l.point1 l.point2 p ∧ OnEllipse a b p := by
  have hx : l.point2.x - l.point1.x ≠ 0 := by
    intro e
    apply hv
    rw [show l.point2.x = l.point1.x by linarith]
    unfold mathIsClose
    rw [sub_self, abs_zero]
    exact le_max_of_le_right (by norm_num)
  obtain ⟨m, hm⟩ : ∃ m, m = (l.point2.y - l.point1.y) / (l.point2.x - l.point1.x) := ⟨_, rfl⟩
  have hm' : m * (l.point2.x - l.point1.x) = l.point2.y - l.point1.y := by rw [hm]; field_simp
  obtain ⟨q, hq⟩ : ∃ q, q = l.point1.y - m * l.point1.x := ⟨_, rfl⟩
  have hap : 0 < 1 / a ^ 2 + m ^ 2 / b ^ 2 := by positivity
  have hline : ∀ x : ℝ, OnLine2 l.point1 l.point2 ⟨x, m * x + q⟩ := by
    intro x
    refine ⟨(x - l.point1.x) / (l.point2.x - l.point1.x), ?_, ?_⟩
    · dsimp only; field_simp; ring
    · dsimp only; rw [hq, ← hm']; field_simp; ring
  have hell : ∀ x : ℝ, OnEllipse a b ⟨x, m * x + q⟩ ↔
      (1 / a ^ 2 + m ^ 2 / b ^ 2) * x ^ 2 + 2 * m * q / b ^ 2 * x + (q ^ 2 / b ^ 2 - 1) = 0 := by
    intro x
    unfold OnEllipse
    dsimp only
    constructor <;> intro hh
    · linear_combination hh
    · linear_combination hh
  unfold ellipseLineLocal
  rw [if_neg hv]
  dsimp only
  rw [← hm, ← hq]
  obtain ⟨A, hA⟩ : ∃ A, A = 1 / a ^ 2 + m ^ 2 / b ^ 2 := ⟨_, rfl⟩
  obtain ⟨B, hB⟩ : ∃ B, B = 2 * m * q / b ^ 2 := ⟨_, rfl⟩
  obtain ⟨C, hC⟩ : ∃ C, C = q ^ 2 / b ^ 2 - 1 := ⟨_, rfl⟩
  rw [← hA, ← hB, ← hC]
  rw [← hA] at hap
  simp only [← hA, ← hB, ← hC] at hell
  by_cases hD : B ^ 2 > 4 * A * C
  · rw [if_pos hD]
    have hs := Real.sq_sqrt (show 0 ≤ B ^ 2 - 4 * A * C by linarith)
    have r1 : OnEllipse a b ⟨(-B + Real.sqrt (B ^ 2 - 4 * A * C)) / (2 * A), m * ((-B + Real.sqrt (B ^ 2 - 4 * A * C)) / (2 * A)) + q⟩ := by
      rw [hell]; generalize Real.sqrt (B ^ 2 - 4 * A * C) = S at hs ⊢; field_simp; linear_combination hs
    have r2 : OnEllipse a b ⟨(-B - Real.sqrt (B ^ 2 - 4 * A * C)) / (2 * A), m * ((-B - Real.sqrt (B ^ 2 - 4 * A * C)) / (2 * A)) + q⟩ := by
      rw [hell]; generalize Real.sqrt (B ^ 2 - 4 * A * C) = S at hs ⊢; field_simp; linear_combination hs
    split_ifs
    · refine ⟨_, rfl, fun p hp => ?_⟩
      rw [List.mem_singleton] at hp
      subst hp
      exact ⟨hline _, r1⟩
    · refine ⟨_, rfl, fun p hp => ?_⟩
      simp only [List.mem_cons, List.not_mem_nil, or_false] at hp
      rcases hp with rfl | rfl
      · exact ⟨hline _, r1⟩
      · exact ⟨hline _, r2⟩
  · rw [if_neg hD]
    exact ⟨_, rfl, fun p hp => by cases hp⟩

/-- C74: a line that is not vertical within the tolerance and crosses the ellipse at two points more than 1e-6 apart: exactly these two points are returned. -/
theorem C74_complete_partial (a b : ℝ) (l : Line2) (ha : 0 < a) (hb : 0 < b) (hv : ¬mathIsClose l.point2.x l.point1.x (1 / 10 ^ 6))
    (p p' : V2 ℝ) (hp : OnLine2 l.point1 l.point2 p ∧ OnEllipse a b p) (hp' : OnLine2 l.point1 l.point2 p' ∧ OnEllipse a b p')
    (hfar : 1 / 10 ^ 6 < V2.pointDistance p p') :
    ∃ ps, ellipseLineLocal a b l = .ok ps ∧ ∀ x, x ∈ ps ↔ x = p ∨ x = p' := by
  have hx : l.point2.x - l.point1.x ≠ 0 := by
    intro e
    apply hv
    rw [show l.point2.x = l.point1.x by linarith]
    unfold mathIsClose
    rw [sub_self, abs_zero]
    exact le_max_of_le_right (by norm_num)
  obtain ⟨m, hm⟩ : ∃ m, m = (l.point2.y - l.point1.y) / (l.point2.x - l.point1.x) := ⟨_, rfl⟩
  have hm' : m * (l.point2.x - l.point1.x) = l.point2.y - l.point1.y := by rw [hm]; field_simp
  obtain ⟨q, hq⟩ : ∃ q, q = l.point1.y - m * l.point1.x := ⟨_, rfl⟩
  have hap : 0 < 1 / a ^ 2 + m ^ 2 / b ^ 2 := by positivity
  have hline : ∀ x : V2 ℝ, OnLine2 l.point1 l.point2 x → x = ⟨x.x, m * x.x + q⟩ := by
    rintro x ⟨t, h1, h2⟩
    ext
    · rfl
    · dsimp only; rw [h2, h1, ← hm', hq]; ring
  have hell : ∀ x : ℝ, OnEllipse a b ⟨x, m * x + q⟩ ↔
      (1 / a ^ 2 + m ^ 2 / b ^ 2) * x ^ 2 + 2 * m * q / b ^ 2 * x + (q ^ 2 / b ^ 2 - 1) = 0 := by
    intro x
    unfold OnEllipse
    dsimp only
    constructor <;> intro hh
    · linear_combination hh
    · linear_combination hh
  unfold ellipseLineLocal
  rw [if_neg hv]
  dsimp only
  rw [← hm, ← hq]
  obtain ⟨A, hA⟩ : ∃ A, A = 1 / a ^ 2 + m ^ 2 / b ^ 2 := ⟨_, rfl⟩
  obtain ⟨B, hB⟩ : ∃ B, B = 2 * m * q / b ^ 2 := ⟨_, rfl⟩
  obtain ⟨C, hC⟩ : ∃ C, C = q ^ 2 / b ^ 2 - 1 := ⟨_, rfl⟩
  rw [← hA, ← hB, ← hC]
  rw [← hA] at hap
  simp only [← hA, ← hB, ← hC] at hell
  have hpe := hline p hp.1
  have hpe' := hline p' hp'.1
  have k1 : A * p.x ^ 2 + B * p.x + C = 0 := by rw [← hell, ← hpe]; exact hp.2
  have k2 : A * p'.x ^ 2 + B * p'.x + C = 0 := by rw [← hell, ← hpe']; exact hp'.2
  have hne : p.x ≠ p'.x := by
    intro e
    rw [hpe, hpe', e] at hfar
    have : V2.pointDistance (⟨p'.x, m * p'.x + q⟩ : V2 ℝ) ⟨p'.x, m * p'.x + q⟩ = 0 := by simp [V2.pointDistance, V2.norm]
    rw [this] at hfar
    norm_num at hfar
  -- sum and product of the roots
  have ks : B = -A * (p.x + p'.x) := by
    have : (p.x - p'.x) * (A * (p.x + p'.x) + B) = 0 := by linear_combination k1 - k2
    rcases mul_eq_zero.mp this with h | h
    · exact absurd (by linarith) hne
    · linarith
  have kp : C = A * (p.x * p'.x) := by rw [ks] at k1; linear_combination k1
  have hdisc : B ^ 2 - 4 * A * C = (A * (p.x - p'.x)) ^ 2 := by rw [ks, kp]; ring
  have hD : B ^ 2 > 4 * A * C := by
    have h0 : A * (p.x - p'.x) ≠ 0 := mul_ne_zero hap.ne' (sub_ne_zero.mpr hne)
    have : 0 < (A * (p.x - p'.x)) ^ 2 := by positivity
    linarith
  rw [if_pos hD, hdisc, Real.sqrt_sq_eq_abs]
  have hroots : ∃ y1 y2 : V2 ℝ, ((y1 = p ∧ y2 = p') ∨ (y1 = p' ∧ y2 = p)) ∧
      (⟨(-B + |A * (p.x - p'.x)|) / (2 * A), m * ((-B + |A * (p.x - p'.x)|) / (2 * A)) + q⟩ : V2 ℝ) = y1 ∧
      (⟨(-B - |A * (p.x - p'.x)|) / (2 * A), m * ((-B - |A * (p.x - p'.x)|) / (2 * A)) + q⟩ : V2 ℝ) = y2 := by
    rcases le_total p'.x p.x with hle | hle
    · rw [abs_of_nonneg (mul_nonneg hap.le (by linarith))]
      rw [show (-B + A * (p.x - p'.x)) / (2 * A) = p.x by rw [ks]; field_simp; ring, show (-B - A * (p.x - p'.x)) / (2 * A) = p'.x by rw [ks]; field_simp; ring]
      exact ⟨p, p', Or.inl ⟨rfl, rfl⟩, hpe.symm, hpe'.symm⟩
    · rw [abs_of_nonpos (mul_nonpos_of_nonneg_of_nonpos hap.le (by linarith))]
      rw [show (-B + -(A * (p.x - p'.x))) / (2 * A) = p'.x by rw [ks]; field_simp; ring, show (-B - -(A * (p.x - p'.x))) / (2 * A) = p.x by rw [ks]; field_simp; ring]
      exact ⟨p', p, Or.inr ⟨rfl, rfl⟩, hpe'.symm, hpe.symm⟩
  obtain ⟨y1, y2, hy, e1, e2⟩ := hroots
  rw [e1, e2]
  have hsym : V2.pointDistance p' p = V2.pointDistance p p' := by
    rw [← abs_of_nonneg (pointDistance_nonneg p' p), ← abs_of_nonneg (pointDistance_nonneg p p'), ← sq_eq_sq_iff_abs_eq_abs, sq_pointDistance2, sq_pointDistance2]
    ring
  rw [if_neg]
  · refine ⟨_, rfl, fun x => ?_⟩
    simp only [List.mem_cons, List.not_mem_nil, or_false]
    rcases hy with ⟨rfl, rfl⟩ | ⟨rfl, rfl⟩ <;> tauto
  · rw [isClose2_iff (by norm_num), not_le]
    rcases hy with ⟨rfl, rfl⟩ | ⟨rfl, rfl⟩
    · exact hfar
    · rw [hsym]; exact hfar

example : OnEllipse 2 1 ⟨2, 0⟩ ∧ OnEllipse 2 1 ⟨-2, 0⟩ ∧ OnLine2 (⟨0, 0⟩ : V2 ℝ) ⟨1, 0⟩ ⟨2, 0⟩ ∧ OnLine2 (⟨0, 0⟩ : V2 ℝ) ⟨1, 0⟩ ⟨-2, 0⟩ :=
  ⟨by norm_num [OnEllipse], by norm_num [OnEllipse], ⟨2, by norm_num, by norm_num⟩, ⟨-2, by norm_num, by norm_num⟩⟩

/-- C74: false.  The tangent `y = 1` of the ellipse of half axes 2 and 1 gives no point. -/
theorem C74_counterexample : ¬C74_full_statement := by
  intro h
  obtain ⟨ps, h1, h2⟩ := h 2 1 ⟨⟨0, 1⟩, ⟨1, 1⟩⟩ (by norm_num) (by norm_num) (by intro h; have := congrArg V2.x h; norm_num at this)
  have h3 := (h2 ⟨0, 1⟩).mpr ⟨⟨0, by norm_num, by norm_num⟩, by norm_num [OnEllipse]⟩
  unfold ellipseLineLocal at h1
  rw [if_neg] at h1
  · dsimp only at h1
    rw [if_neg (by norm_num)] at h1
    cases h1
    cases h3
  · dsimp only
    rw [mathIsClose_zero (by norm_num)]
    norm_num

/-- C74: a vertical line just outside the ellipse (within the tolerance of the first test of `ellipse2d_line_intersections`) raises the `ValueError` of `math.sqrt`. -/
theorem C74_vertical_counterexample : ellipseVertical 2 1 ⟨⟨2 + 1 / 10 ^ 7, 0⟩, ⟨2 + 1 / 10 ^ 7, 1⟩⟩ = .error .valueError := by
  unfold ellipseVertical
  dsimp only
  rw [if_pos (by norm_num)]

/-- C74: a vertical line that meets the ellipse at points more than 1e-6 apart: exactly the common points are returned. -/
theorem C74_vertical (a b : ℝ) (l : Line2) (ha : 0 < a) (hb : 0 < b) (hv : l.point2.x = l.point1.x) (hy : l.point1.y ≠ l.point2.y)
    (hin : 1 / 10 ^ 6 < 2 * b * Real.sqrt (1 - l.point1.x ^ 2 / a ^ 2)) :
    ∃ ps, ellipseLineLocal a b l = .ok ps ∧ ∀ p, p ∈ ps ↔ OnLine2 l.point1 l.point2 p ∧ OnEllipse a b p := by
  have hpos : 0 < 1 - l.point1.x ^ 2 / a ^ 2 := by
    by_contra hc
    rw [Real.sqrt_eq_zero_of_nonpos (not_lt.mp hc)] at hin
    norm_num at hin
  unfold ellipseLineLocal
  rw [if_pos]
  · unfold ellipseVertical
    dsimp only
    rw [if_neg (not_lt.mpr hpos.le)]
    obtain ⟨s, hs⟩ : ∃ s, s = Real.sqrt (1 - l.point1.x ^ 2 / a ^ 2) := ⟨_, rfl⟩
    have hss : s ^ 2 = 1 - l.point1.x ^ 2 / a ^ 2 := by rw [hs]; exact Real.sq_sqrt hpos.le
    have hs0 : 0 ≤ s := by rw [hs]; exact Real.sqrt_nonneg _
    rw [← hs] at hin ⊢
    rw [if_neg]
    · refine ⟨_, rfl, fun p => ?_⟩
      simp only [List.mem_cons, List.not_mem_nil, or_false]
      have hline : ∀ y : ℝ, OnLine2 l.point1 l.point2 ⟨l.point1.x, y⟩ := by
        intro y
        have : l.point2.y - l.point1.y ≠ 0 := by intro e; exact hy (by linarith)
        exact ⟨(y - l.point1.y) / (l.point2.y - l.point1.y), by rw [hv]; ring, by field_simp; ring⟩
      constructor
      · rintro (rfl | rfl)
        · exact ⟨hline _, by unfold OnEllipse; dsimp only; rw [mul_pow, hss]; field_simp; ring⟩
        · exact ⟨hline _, by unfold OnEllipse; dsimp only; rw [neg_sq, mul_pow, hss]; field_simp; ring⟩
      · rintro ⟨⟨t, h1, h2⟩, he⟩
        have hpx : p.x = l.point1.x := by rw [h1, hv]; ring
        unfold OnEllipse at he
        have : p.y ^ 2 = (b * s) ^ 2 := by
          rw [mul_pow, hss, ← hpx]
          rw [← he]
          field_simp
          ring
        rcases sq_eq_sq_iff_eq_or_eq_neg.mp this with hh | hh
        · left; ext <;> assumption
        · right; ext <;> assumption
    · rw [isClose2_iff (by norm_num), not_le]
      have : V2.pointDistance (⟨l.point1.x, b * s⟩ : V2 ℝ) ⟨l.point1.x, -(b * s)⟩ = 2 * b * s := by
        rw [← abs_of_nonneg (pointDistance_nonneg _ _), ← abs_of_nonneg (show 0 ≤ 2 * b * s by positivity), ← sq_eq_sq_iff_abs_eq_abs, sq_pointDistance2]
        ring
      rw [this]
      exact hin
  · rw [hv]
    unfold mathIsClose
    rw [sub_self, abs_zero]
    exact le_max_of_le_right (by norm_num)

/-- The ellipse with half axes `a`, `b` along the two vectors of a frame (specification). -/
def OnEllipseIn (f : Frame2 ℝ) (a b : ℝ) (p : V2 ℝ) : Prop :=
  OnEllipse a b ⟨(p.x - f.origin.x) * f.basis.u.x + (p.y - f.origin.y) * f.basis.u.y, (p.x - f.origin.x) * f.basis.v.x + (p.y - f.origin.y) * f.basis.v.y⟩

/-- C74, `ellipse2d_line_intersections` of an ellipse with any orthonormal frame whose centre is not the origin: whenever points are returned and
the line is not parallel to the minor axis within the tolerance, they are on the line and on the ellipse. -/
theorem C74_general_partial (f : Frame2 ℝ) (hu : f.basis.u.x ^ 2 + f.basis.u.y ^ 2 = 1) (hv : f.basis.v.x ^ 2 + f.basis.v.y ^ 2 = 1)
    (huv : f.basis.u.x * f.basis.v.x + f.basis.u.y * f.basis.v.y = 0) (ho : ¬isClose2 f.origin ⟨0, 0⟩ (1 / 10 ^ 6)) (a b : ℝ) (ha : 0 < a) (hb : 0 < b)
    (l : Line2) (hl : l.point1 ≠ l.point2)
    (hvert : ¬mathIsClose ((l.point2.x - f.origin.x) * f.basis.u.x + (l.point2.y - f.origin.y) * f.basis.u.y)
      ((l.point1.x - f.origin.x) * f.basis.u.x + (l.point1.y - f.origin.y) * f.basis.u.y) (1 / 10 ^ 6)) :
    ∃ ps, ellipseLine f a b l = .ok ps ∧ ∀ p ∈ ps, OnLine2 l.point1 l.point2 p ∧ OnEllipseIn f a b p := by
  have hgood : (⟨f, 1⟩ : Circle2).Good := ⟨hu, hv, huv, by norm_num⟩
  have hloc : ∀ p, f.globalToLocal p = .ok ⟨(p.x - f.origin.x) * f.basis.u.x + (p.y - f.origin.y) * f.basis.u.y,
      (p.x - f.origin.x) * f.basis.v.x + (p.y - f.origin.y) * f.basis.v.y⟩ := hgood.globalToLocal
  obtain ⟨-, sx, sy⟩ := hgood.sign_spec
  obtain ⟨d, hd, -⟩ := C73_point_distance2 l hl f.origin
  unfold ellipseLine
  rw [hd]
  dsimp only
  by_cases hfar : d > a + 1 / 10 ^ 6
  · rw [if_pos hfar]
    exact ⟨_, rfl, fun p hp => absurd hp List.not_mem_nil⟩
  · rw [if_neg hfar, if_pos (Or.inr ho), hloc, hloc]
    obtain ⟨ps, h1, h2⟩ := C74_sound_partial a b ⟨⟨(l.point1.x - f.origin.x) * f.basis.u.x + (l.point1.y - f.origin.y) * f.basis.u.y,
      (l.point1.x - f.origin.x) * f.basis.v.x + (l.point1.y - f.origin.y) * f.basis.v.y⟩,
      ⟨(l.point2.x - f.origin.x) * f.basis.u.x + (l.point2.y - f.origin.y) * f.basis.u.y,
      (l.point2.x - f.origin.x) * f.basis.v.x + (l.point2.y - f.origin.y) * f.basis.v.y⟩⟩ ha hb hvert
    refine ⟨ps.map f.localToGlobal, ?_, ?_⟩
    · change (ellipseLineLocal a b _ >>= fun r => pure (r.map f.localToGlobal)) = _
      rw [h1]
      rfl
    · intro p hp
      rw [List.mem_map] at hp
      obtain ⟨x, hx, rfl⟩ := hp
      obtain ⟨⟨t, k1, k2⟩, k3⟩ := h2 x hx
      dsimp only at k1 k2
      have gx : (f.localToGlobal x).x = f.basis.u.x * x.x + f.basis.v.x * x.y + f.origin.x := rfl
      have gy : (f.localToGlobal x).y = f.basis.u.y * x.x + f.basis.v.y * x.y + f.origin.y := rfl
      have o1 : f.basis.u.x ^ 2 + f.basis.v.x ^ 2 = 1 := by
        rcases hgood.sign_spec.1 with e | e <;> rw [e] at sx <;> dsimp only at sx <;> rw [sx] <;> linear_combination hu
      have o2 : f.basis.u.y ^ 2 + f.basis.v.y ^ 2 = 1 := by
        rcases hgood.sign_spec.1 with e | e <;> rw [e] at sy <;> dsimp only at sy <;> rw [sy] <;> linear_combination hu
      have o3 : f.basis.u.x * f.basis.u.y + f.basis.v.x * f.basis.v.y = 0 := by
        rcases hgood.sign_spec.1 with e | e <;> rw [e] at sx sy <;> dsimp only at sx sy <;> rw [sx, sy] <;> ring
      constructor
      · refine ⟨t, ?_, ?_⟩
        · rw [gx, k1, k2]
          linear_combination ((l.point1.x - f.origin.x) + t * (l.point2.x - l.point1.x)) * o1 + ((l.point1.y - f.origin.y) + t * (l.point2.y - l.point1.y)) * o3
        · rw [gy, k1, k2]
          linear_combination ((l.point1.x - f.origin.x) + t * (l.point2.x - l.point1.x)) * o3 + ((l.point1.y - f.origin.y) + t * (l.point2.y - l.point1.y)) * o2
      · unfold OnEllipseIn
        rw [gx, gy]
        rw [show (f.basis.u.x * x.x + f.basis.v.x * x.y + f.origin.x - f.origin.x) * f.basis.u.x + (f.basis.u.y * x.x + f.basis.v.y * x.y + f.origin.y - f.origin.y) * f.basis.u.y
          = x.x by linear_combination x.x * hu + x.y * huv,
          show (f.basis.u.x * x.x + f.basis.v.x * x.y + f.origin.x - f.origin.x) * f.basis.v.x + (f.basis.u.y * x.x + f.basis.v.y * x.y + f.origin.y - f.origin.y) * f.basis.v.y
          = x.y by linear_combination x.y * hv + x.x * huv]
        exact k3

/-- An ellipse centred at (3,0) with its major axis along the second axis, and the line `y = 0`. -/
example : ¬isClose2 (⟨3, 0⟩ : V2 ℝ) ⟨0, 0⟩ (1 / 10 ^ 6) := by
  rw [isClose2_iff (by norm_num)]
  norm_num [V2.pointDistance, V2.norm]
  exact Real.lt_sqrt_of_sq_lt (by norm_num)

end Volmdlr.Intersect
