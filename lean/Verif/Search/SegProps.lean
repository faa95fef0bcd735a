import Verif.Search.SegModel
import Verif.Intersect.PlaneProps
import Verif.Segment.Props

/-!
# C190: the distance of two line segments, of a line segment and a line

**C190** `LineSegment3D.minimum_distance` of a line segment returns points of the two segments and their distance; it is the smallest
distance when the common perpendicular of the lines meets both segments.  `line_distance`: the same with a line.
-/

namespace Volmdlr.Search

open Volmdlr.Angle Volmdlr.Fillet

lemma pointDistance_self (p : V3 ℝ) : V3.pointDistance p p = 0 := by
  rw [V3.pointDistance, V3.norm_eq_zero_iff]; ext <;> simp

lemma segBelongs_spec {a b : V3 ℝ} (h : a ≠ b) (p : V3 ℝ) :
    ∃ P : Prop, segBelongs a b p = some P ∧ (P ↔ ∃ x, OnSeg3 a b x ∧ V3.pointDistance x p ≤ 1 / 10 ^ 6) := by
  obtain ⟨d, q, h1, h2, h3, h4⟩ := (C07_linesegment3d_distance a b p).2 h
  refine ⟨_, by unfold segBelongs; rw [h1]; rfl, ?_⟩
  dsimp only
  rw [Intersect.mathIsClose_zero (by norm_num), abs_of_nonneg (by rw [h3]; exact V3.norm_nonneg _)]
  constructor
  · intro hd; exact ⟨q, h2, h3 ▸ hd⟩
  · rintro ⟨x, hx, hd⟩; exact (h4 x hx).trans hd

lemma onSeg_start (a b : V3 ℝ) : OnSeg3 a b a := ⟨0, le_rfl, by norm_num, by ring, by ring, by ring⟩
lemma onSeg_stop (a b : V3 ℝ) : OnSeg3 a b b := ⟨1, by norm_num, le_rfl, by ring, by ring, by ring⟩

lemma backToSegment_spec {a b : V3 ℝ} (h : a ≠ b) (p : V3 ℝ) :
    ∃ q, backToSegment a b p = some q ∧ (∃ x, OnSeg3 a b x ∧ V3.pointDistance x q ≤ 1 / 10 ^ 6) ∧
      ((∃ x, OnSeg3 a b x ∧ V3.pointDistance x p ≤ 1 / 10 ^ 6) → q = p) ∧
      ((¬ ∃ x, OnSeg3 a b x ∧ V3.pointDistance x p ≤ 1 / 10 ^ 6) →
        q = if V3.pointDistance a p < V3.pointDistance b p then a else b) := by
  obtain ⟨P, h1, h2⟩ := segBelongs_spec h p
  refine ⟨_, by unfold backToSegment; rw [h1]; rfl, ?_⟩
  dsimp only
  by_cases hP : P
  · rw [if_neg (not_not.mpr hP)]
    exact ⟨h2.mp hP, fun _ => rfl, fun hn => absurd (h2.mp hP) hn⟩
  · rw [if_pos hP]
    refine ⟨?_, fun hn => absurd (h2.mpr hn) hP, fun _ => rfl⟩
    split_ifs
    · exact ⟨a, onSeg_start a b, by rw [pointDistance_self]; norm_num⟩
    · exact ⟨b, onSeg_stop a b, by rw [pointDistance_self]; norm_num⟩

lemma norm_pos {a b : V3 ℝ} (h : a ≠ b) : V3.norm (b - a) ≠ 0 := fun h' => h ((V3.sub_eq_zero_iff a b).mp ((V3.norm_eq_zero_iff _).mp h'))

/-- `p` is nearer than `1e-6` to the line through `a`, `b` (specification: the height of the parallelogram). -/
def OnLineTol (a b p : V3 ℝ) : Prop := V3.norm (V3.cross (p - a) (b - a)) / V3.norm (b - a) < 1 / 10 ^ 6

lemma linePointBelongs_spec {a b : V3 ℝ} (h : a ≠ b) (p : V3 ℝ) :
    (OnLineTol a b p → linePointBelongs a b p = some true) ∧ (¬ OnLineTol a b p → linePointBelongs a b p = some false) := by
  unfold linePointBelongs OnLineTol
  dsimp only
  rw [if_neg (norm_pos h)]
  constructor
  · intro hh; rw [decide_eq_true hh]
  · intro hh; rw [decide_eq_false hh]

lemma minimumDistancePointsLines_some {a b : V3 ℝ} (h : a ≠ b) (c d : V3 ℝ) : ∃ r, minimumDistancePointsLines a b c d = some r := by
  unfold minimumDistancePointsLines
  by_cases h1 : OnLineTol a b c
  · rw [(linePointBelongs_spec h c).1 h1]; exact ⟨_, rfl⟩
  · rw [(linePointBelongs_spec h c).2 h1]
    by_cases h2 : OnLineTol a b d
    · rw [(linePointBelongs_spec h d).1 h2]; exact ⟨_, rfl⟩
    · rw [(linePointBelongs_spec h d).2 h2]
      dsimp only
      split_ifs <;> exact ⟨_, rfl⟩

/-- **C190** what is returned: points within the tolerance of the two segments, and their distance. -/
theorem C190_distance_reached (a b c d : V3 ℝ) (h1 : a ≠ b) (h2 : c ≠ d) :
    ∃ dist p q, distanceLinesegment a b c d = some (dist, p, q) ∧ dist = V3.pointDistance p q ∧
      (∃ x, OnSeg3 a b x ∧ V3.pointDistance x p ≤ 1 / 10 ^ 6) ∧ (∃ y, OnSeg3 c d y ∧ V3.pointDistance y q ≤ 1 / 10 ^ 6) := by
  obtain ⟨r, hr⟩ := minimumDistancePointsLines_some h1 c d
  obtain ⟨q1, e1, k1, -⟩ := backToSegment_spec h1 r.1
  obtain ⟨q2, e2, k2, -⟩ := backToSegment_spec h2 r.2
  unfold distanceLinesegment
  rw [hr]
  dsimp only
  rw [e1, e2]
  exact ⟨_, _, _, rfl, rfl, k1, k2⟩

/-- The points of two lines that are not parallel joined by the common perpendicular: what the formula gives. -/
lemma perpendicular_formula (a b c d x y : V3 ℝ) (hxy : ∃ s t, x = a + V3.smul s (b - a) ∧ y = c + V3.smul t (d - c))
    (p1 : V3.dot (x - y) (b - a) = 0) (p2 : V3.dot (x - y) (d - c) = 0)
    (hpar : V3.dot (b - a) (b - a) * V3.dot (d - c) (d - c) - V3.dot (b - a) (d - c) ^ 2 ≠ 0)
    (hc : ¬ OnLineTol a b c) (hd : ¬ OnLineTol a b d) (hab : a ≠ b) :
    minimumDistancePointsLines a b c d = some (x, y) := by
  obtain ⟨s, t, rfl, rfl⟩ := hxy
  unfold minimumDistancePointsLines
  rw [(linePointBelongs_spec hab c).2 hc, (linePointBelongs_spec hab d).2 hd]
  dsimp only
  rw [if_pos hpar]
  obtain ⟨u, hu⟩ : ∃ u, u = b - a := ⟨_, rfl⟩
  obtain ⟨v, hv⟩ : ∃ v, v = d - c := ⟨_, rfl⟩
  obtain ⟨w, hw⟩ : ∃ w, w = a - c := ⟨_, rfl⟩
  rw [← hu] at p1 p2 hpar ⊢
  rw [← hv] at p1 p2 hpar ⊢
  rw [← hw]
  have q1 : V3.dot u w + s * V3.dot u u - t * V3.dot u v = 0 := by
    rw [← p1, hw]; simp only [V3.dot, V3.sub_x, V3.sub_y, V3.sub_z, V3.add_x, V3.add_y, V3.add_z, V3.smul_x, V3.smul_y, V3.smul_z]; ring
  have q2 : V3.dot v w + s * V3.dot u v - t * V3.dot v v = 0 := by
    rw [← p2, hw]; simp only [V3.dot, V3.sub_x, V3.sub_y, V3.sub_z, V3.add_x, V3.add_y, V3.add_z, V3.smul_x, V3.smul_y, V3.smul_z]; ring
  generalize V3.dot u u = uu at *
  generalize V3.dot v v = vv at *
  generalize V3.dot u v = uv at *
  generalize V3.dot u w = uw at *
  generalize V3.dot v w = vw at *
  have es : (uv * vw - vv * uw) / (uu * vv - uv ^ 2) = s := by
    rw [div_eq_iff hpar]; linear_combination uv * q2 - vv * q1
  have et : (uu * vw - uv * uw) / (uu * vv - uv ^ 2) = t := by
    rw [div_eq_iff hpar]; linear_combination uu * q2 - uv * q1
  rw [es, et]

lemma onSeg_line {a b x : V3 ℝ} (h : OnSeg3 a b x) : ∃ s, x = a + V3.smul s (b - a) := by
  obtain ⟨s, -, -, hx, hy, hz⟩ := h
  exact ⟨s, by ext <;> simp [*] <;> ring⟩

/-- Pythagoras: the common perpendicular is the shortest way between the lines. -/
lemma perpendicular_shortest (a b c d x y : V3 ℝ) (hxy : ∃ s t, x = a + V3.smul s (b - a) ∧ y = c + V3.smul t (d - c))
    (p1 : V3.dot (x - y) (b - a) = 0) (p2 : V3.dot (x - y) (d - c) = 0) (s t : ℝ) :
    V3.pointDistance x y ≤ V3.pointDistance (a + V3.smul s (b - a)) (c + V3.smul t (d - c)) := by
  obtain ⟨s0, t0, hx, hy⟩ := hxy
  unfold V3.pointDistance
  refine le_of_abs_le (abs_le_of_sq_le_sq ?_ (V3.norm_nonneg _))
  rw [V3.norm_pow_two, V3.norm_pow_two]
  obtain ⟨e, he⟩ : ∃ e, e = V3.smul (s - s0) (b - a) - V3.smul (t - t0) (d - c) := ⟨_, rfl⟩
  have h1 : a + V3.smul s (b - a) - (c + V3.smul t (d - c)) = (x - y) + e := by
    rw [hx, hy, he]; ext <;> simp <;> ring
  have h2 : V3.dot (x - y) e = 0 := by
    have : V3.dot (x - y) e = (s - s0) * V3.dot (x - y) (b - a) - (t - t0) * V3.dot (x - y) (d - c) := by
      rw [he]; simp only [V3.dot, V3.sub_x, V3.sub_y, V3.sub_z, V3.smul_x, V3.smul_y, V3.smul_z]; ring
    rw [this, p1, p2]; ring
  rw [h1]
  have h3 : V3.dot (x - y + e) (x - y + e) = V3.dot (x - y) (x - y) + 2 * V3.dot (x - y) e + V3.dot e e := by
    simp only [V3.dot, V3.add_x, V3.add_y, V3.add_z]; ring
  rw [h3, h2]
  have : 0 ≤ V3.dot e e := by rw [← V3.norm_sq]; exact mul_self_nonneg _
  linarith

/-- **C190** the result is right when the common perpendicular of two lines that are not parallel joins points of the segments, and no end of the second
segment is on the line of the first: these points are returned, with the smallest distance between points of the two segments. -/
theorem C190_distance_partial (a b c d x y : V3 ℝ) (hab : a ≠ b) (hcd : c ≠ d) (hx : OnSeg3 a b x) (hy : OnSeg3 c d y)
    (p1 : V3.dot (x - y) (b - a) = 0) (p2 : V3.dot (x - y) (d - c) = 0)
    (hpar : V3.dot (b - a) (b - a) * V3.dot (d - c) (d - c) - V3.dot (b - a) (d - c) ^ 2 ≠ 0)
    (hc : ¬ OnLineTol a b c) (hd : ¬ OnLineTol a b d) :
    distanceLinesegment a b c d = some (V3.pointDistance x y, x, y) ∧
    ∀ x' y', OnSeg3 a b x' → OnSeg3 c d y' → V3.pointDistance x y ≤ V3.pointDistance x' y' := by
  obtain ⟨s, hs⟩ := onSeg_line hx
  obtain ⟨t, ht⟩ := onSeg_line hy
  constructor
  · obtain ⟨q1, e1, -, k1, -⟩ := backToSegment_spec hab x
    obtain ⟨q2, e2, -, k2, -⟩ := backToSegment_spec hcd y
    unfold distanceLinesegment
    rw [perpendicular_formula a b c d x y ⟨s, t, hs, ht⟩ p1 p2 hpar hc hd hab]
    dsimp only
    rw [e1, e2]
    dsimp only
    rw [k1 ⟨x, hx, by rw [pointDistance_self]; norm_num⟩, k2 ⟨y, hy, by rw [pointDistance_self]; norm_num⟩]
  · intro x' y' hx' hy'
    obtain ⟨s', rfl⟩ := onSeg_line hx'
    obtain ⟨t', rfl⟩ := onSeg_line hy'
    exact perpendicular_shortest a b c d x y ⟨s, t, hs, ht⟩ p1 p2 s' t'

lemma norm_eq {v : V3 ℝ} {r : ℝ} (h0 : 0 ≤ r) (h : v.x * v.x + v.y * v.y + v.z * v.z = r * r) : V3.norm v = r := by
  unfold V3.norm; rw [h]; exact Real.sqrt_mul_self h0

/-- Two segments that cross at a distance meet the hypotheses. -/
example : let a : V3 ℝ := ⟨-1, 0, 0⟩; let b : V3 ℝ := ⟨1, 0, 0⟩; let c : V3 ℝ := ⟨0, -1, 1⟩; let d : V3 ℝ := ⟨0, 1, 1⟩
    OnSeg3 a b ⟨0, 0, 0⟩ ∧ OnSeg3 c d ⟨0, 0, 1⟩ ∧ ¬ OnLineTol a b c ∧ ¬ OnLineTol a b d ∧
    V3.dot (b - a) (b - a) * V3.dot (d - c) (d - c) - V3.dot (b - a) (d - c) ^ 2 ≠ 0 := by
  have key : ∀ p : V3 ℝ, p.y * p.y + p.z * p.z = 2 → ¬ OnLineTol ⟨-1, 0, 0⟩ ⟨1, 0, 0⟩ p := by
    intro p hp
    unfold OnLineTol
    have hn : V3.norm ((⟨1, 0, 0⟩ : V3 ℝ) - ⟨-1, 0, 0⟩) = 2 := norm_eq (by norm_num) (by norm_num)
    rw [hn]
    have : 1 ≤ V3.norm (V3.cross (p - ⟨-1, 0, 0⟩) (⟨1, 0, 0⟩ - ⟨-1, 0, 0⟩)) := by
      unfold V3.norm
      refine Real.le_sqrt_of_sq_le ?_
      simp [V3.cross]
      nlinarith
    rw [not_lt, le_div_iff₀ (by norm_num)]
    linarith
  refine ⟨⟨1 / 2, by norm_num, by norm_num, by norm_num, by norm_num, by norm_num⟩,
    ⟨1 / 2, by norm_num, by norm_num, by norm_num, by norm_num, by norm_num⟩, key _ (by norm_num), key _ (by norm_num), by norm_num [V3.dot]⟩

/-- C190 as expected by a user: no two points of the segments are nearer than the answer (by more than the tolerance). -/
def C190_distance_full_statement : Prop := ∀ a b c d : V3 ℝ, a ≠ b → c ≠ d → ∀ dist p q, distanceLinesegment a b c d = some (dist, p, q) →
  ∀ x y, OnSeg3 a b x → OnSeg3 c d y → dist ≤ V3.pointDistance x y + 1 / 10 ^ 6

lemma onLineTol_axis {a b p : V3 ℝ} (h : V3.cross (p - a) (b - a) = ⟨0, 0, 0⟩) : OnLineTol a b p := by
  unfold OnLineTol
  rw [h, (V3.norm_eq_zero_iff _).mpr rfl, zero_div]; norm_num

/-- **C190** false in general: of two overlapping segments of a line, found at the distance ten when the first end of the second is past the first. -/
theorem C190_distance_counterexample : ¬ C190_distance_full_statement := by
  intro hfull
  have hab : (⟨0, 0, 0⟩ : V3 ℝ) ≠ ⟨10, 0, 0⟩ := by intro h; have := congrArg V3.x h; norm_num at this
  have hcd : (⟨20, 0, 0⟩ : V3 ℝ) ≠ ⟨5, 0, 0⟩ := by intro h; have := congrArg V3.x h; norm_num at this
  have h20 : V3.pointDistance (⟨10, 0, 0⟩ : V3 ℝ) ⟨20, 0, 0⟩ = 10 := by
    unfold V3.pointDistance; exact norm_eq (by norm_num) (by norm_num)
  have h0 : V3.pointDistance (⟨0, 0, 0⟩ : V3 ℝ) ⟨20, 0, 0⟩ = 20 := by
    unfold V3.pointDistance; exact norm_eq (by norm_num) (by norm_num)
  obtain ⟨q1, e1, -, -, k1⟩ := backToSegment_spec hab ⟨20, 0, 0⟩
  obtain ⟨q2, e2, -, k2, -⟩ := backToSegment_spec hcd ⟨20, 0, 0⟩
  have hq1 : q1 = ⟨10, 0, 0⟩ := by
    rw [k1, h0, h20, if_neg (by norm_num)]
    rintro ⟨x, ⟨t, ht0, ht1, hx, hy, hz⟩, hd⟩
    have : 10 ≤ V3.pointDistance x ⟨20, 0, 0⟩ := by
      unfold V3.pointDistance V3.norm
      refine Real.le_sqrt_of_sq_le ?_
      simp only [V3.sub_x, V3.sub_y, V3.sub_z, hx, hy, hz]
      nlinarith
    norm_num at hd
    linarith
  have hq2 : q2 = ⟨20, 0, 0⟩ := k2 ⟨_, onSeg_start _ _, by rw [pointDistance_self]; norm_num⟩
  have hres : distanceLinesegment ⟨0, 0, 0⟩ ⟨10, 0, 0⟩ ⟨20, 0, 0⟩ ⟨5, 0, 0⟩ = some (10, ⟨10, 0, 0⟩, ⟨20, 0, 0⟩) := by
    unfold distanceLinesegment minimumDistancePointsLines
    rw [(linePointBelongs_spec hab _).1 (onLineTol_axis (by ext <;> simp [V3.cross]))]
    dsimp only
    rw [e1, e2, hq1, hq2]
    dsimp only
    rw [h20]
  have := hfull _ _ _ _ hab hcd _ _ _ hres ⟨5, 0, 0⟩ ⟨5, 0, 0⟩ ⟨1 / 2, by norm_num, by norm_num, by norm_num, by norm_num, by norm_num⟩ (onSeg_stop _ _)
  rw [pointDistance_self] at this
  norm_num at this

/-! ## Distance to a line -/

/-- **C190** segment and line: right when the common perpendicular meets the segment, the line is not parallel to it and goes through none of its ends; and zero, at the end,
when the line goes through an end of the segment. -/
theorem C190_line_partial (start stop p q : V3 ℝ) (hs : start ≠ stop) (hpq : p ≠ q) :
    (∀ x y, (∃ s, x = p + V3.smul s (q - p)) → OnSeg3 start stop y → V3.dot (x - y) (q - p) = 0 → V3.dot (x - y) (stop - start) = 0 →
      V3.dot (q - p) (q - p) * V3.dot (stop - start) (stop - start) - V3.dot (q - p) (stop - start) ^ 2 ≠ 0 →
      ¬ OnLineTol p q start → ¬ OnLineTol p q stop →
      lineDistance start stop p q = some (V3.pointDistance x y, x, y) ∧
      ∀ s y', OnSeg3 start stop y' → V3.pointDistance x y ≤ V3.pointDistance (p + V3.smul s (q - p)) y') ∧
    (OnLineTol p q start → lineDistance start stop p q = some (0, start, start)) ∧
    (¬ OnLineTol p q start → OnLineTol p q stop → lineDistance start stop p q = some (0, stop, stop)) := by
  refine ⟨?_, ?_, ?_⟩
  · rintro x y ⟨s, hx⟩ hy p1 p2 hpar hc hd
    obtain ⟨t, ht⟩ := onSeg_line hy
    constructor
    · obtain ⟨P, h1, h2⟩ := segBelongs_spec hs y
      unfold lineDistance
      rw [perpendicular_formula p q start stop x y ⟨s, t, hx, ht⟩ p1 p2 hpar hc hd hpq]
      dsimp only
      rw [h1]
      dsimp only [Option.map_some]
      rw [if_pos (h2.mpr ⟨y, hy, by rw [pointDistance_self]; norm_num⟩)]
    · intro s' y' hy'
      obtain ⟨t', rfl⟩ := onSeg_line hy'
      exact perpendicular_shortest p q start stop x y ⟨s, t, hx, ht⟩ p1 p2 s' t'
  · intro h
    obtain ⟨P, h1, h2⟩ := segBelongs_spec hs start
    unfold lineDistance minimumDistancePointsLines
    rw [(linePointBelongs_spec hpq _).1 h]
    dsimp only
    rw [h1]
    dsimp only [Option.map_some]
    rw [if_pos (h2.mpr ⟨_, onSeg_start _ _, by rw [pointDistance_self]; norm_num⟩), pointDistance_self]
  · intro h h'
    obtain ⟨P, h1, h2⟩ := segBelongs_spec hs stop
    unfold lineDistance minimumDistancePointsLines
    rw [(linePointBelongs_spec hpq _).2 h, (linePointBelongs_spec hpq _).1 h']
    dsimp only
    rw [h1]
    dsimp only [Option.map_some]
    rw [if_pos (h2.mpr ⟨_, onSeg_stop _ _, by rw [pointDistance_self]; norm_num⟩), pointDistance_self]

/-- C190 as expected by a user: the distance is that of the two points returned, and no point of the segment is nearer to the line. -/
def C190_line_full_statement : Prop := ∀ start stop p q : V3 ℝ, start ≠ stop → p ≠ q → ∀ dist m1 m2, lineDistance start stop p q = some (dist, m1, m2) →
  dist = V3.pointDistance m1 m2 ∧ ∀ s y, OnSeg3 start stop y → dist ≤ V3.pointDistance (p + V3.smul s (q - p)) y + 1 / 10 ^ 6

lemma not_onLineTol {a b p : V3 ℝ} {r : ℝ} (h1 : V3.norm (b - a) = 1)
    (h : r * r ≤ V3.dot (V3.cross (p - a) (b - a)) (V3.cross (p - a) (b - a))) (hr : 1 / 10 ^ 6 ≤ r) : ¬ OnLineTol a b p := by
  unfold OnLineTol
  rw [h1, div_one, not_lt]
  refine hr.trans ?_
  rw [← V3.norm_sq] at h
  have := V3.norm_nonneg (V3.cross (p - a) (b - a))
  nlinarith

/-- **C190** false for a parallel line: the distance is taken between the first points. -/
theorem C190_line_counterexample : ¬ C190_line_full_statement := by
  intro hfull
  have hs : (⟨0, 0, 0⟩ : V3 ℝ) ≠ ⟨1, 0, 0⟩ := by intro h; have := congrArg V3.x h; norm_num at this
  have hpq : (⟨3, 4, 0⟩ : V3 ℝ) ≠ ⟨4, 4, 0⟩ := by intro h; have := congrArg V3.x h; norm_num at this
  have hn : V3.norm ((⟨4, 4, 0⟩ : V3 ℝ) - ⟨3, 4, 0⟩) = 1 := norm_eq (by norm_num) (by norm_num)
  have c1 : ¬ OnLineTol ⟨3, 4, 0⟩ ⟨4, 4, 0⟩ ⟨0, 0, 0⟩ := not_onLineTol (r := 1) hn (by norm_num [V3.dot, V3.cross]) (by norm_num)
  have c2 : ¬ OnLineTol ⟨3, 4, 0⟩ ⟨4, 4, 0⟩ ⟨1, 0, 0⟩ := not_onLineTol (r := 1) hn (by norm_num [V3.dot, V3.cross]) (by norm_num)
  obtain ⟨P, h1, h2⟩ := segBelongs_spec hs ⟨0, 0, 0⟩
  have h5 : V3.pointDistance (⟨3, 4, 0⟩ : V3 ℝ) ⟨0, 0, 0⟩ = 5 := norm_eq (by norm_num) (by norm_num)
  have hres : lineDistance ⟨0, 0, 0⟩ ⟨1, 0, 0⟩ ⟨3, 4, 0⟩ ⟨4, 4, 0⟩ = some (5, ⟨3, 4, 0⟩, ⟨0, 0, 0⟩) := by
    unfold lineDistance minimumDistancePointsLines
    rw [(linePointBelongs_spec hpq _).2 c1, (linePointBelongs_spec hpq _).2 c2]
    dsimp only
    rw [if_neg (by norm_num [V3.dot])]
    dsimp only
    rw [h1]
    dsimp only [Option.map_some]
    rw [if_pos (h2.mpr ⟨_, onSeg_start _ _, by rw [pointDistance_self]; norm_num⟩), h5]
  have := (hfull _ _ _ _ hs hpq _ _ _ hres).2 (-3) ⟨0, 0, 0⟩ (onSeg_start _ _)
  have h4 : V3.pointDistance ((⟨3, 4, 0⟩ : V3 ℝ) + V3.smul (-3) (⟨4, 4, 0⟩ - ⟨3, 4, 0⟩)) ⟨0, 0, 0⟩ = 4 := norm_eq (by norm_num) (by norm_num)
  rw [h4] at this
  norm_num at this

/-- **C190** false without parallels too: when the end of the segment is the nearer, the distance of the start is answered, with the end as the nearest point. -/
theorem C190_line_end_counterexample : ∃ start stop p q : V3 ℝ, start ≠ stop ∧ p ≠ q ∧ ∃ dist m1, lineDistance start stop p q = some (dist, m1, stop) ∧
    dist = V3.pointDistance m1 start ∧ V3.pointDistance m1 stop < dist := by
  have hs : (⟨0, 0, 0⟩ : V3 ℝ) ≠ ⟨1, 0, 0⟩ := by intro h; have := congrArg V3.x h; norm_num at this
  have hpq : (⟨4, 0, 3⟩ : V3 ℝ) ≠ ⟨4, 1, 3⟩ := by intro h; have := congrArg V3.y h; norm_num at this
  have hn : V3.norm ((⟨4, 1, 3⟩ : V3 ℝ) - ⟨4, 0, 3⟩) = 1 := norm_eq (by norm_num) (by norm_num)
  have c1 : ¬ OnLineTol ⟨4, 0, 3⟩ ⟨4, 1, 3⟩ ⟨0, 0, 0⟩ := not_onLineTol (r := 1) hn (by norm_num [V3.dot, V3.cross]) (by norm_num)
  have c2 : ¬ OnLineTol ⟨4, 0, 3⟩ ⟨4, 1, 3⟩ ⟨1, 0, 0⟩ := not_onLineTol (r := 1) hn (by norm_num [V3.dot, V3.cross]) (by norm_num)
  obtain ⟨P, h1, h2⟩ := segBelongs_spec hs ⟨4, 0, 0⟩
  have h5 : V3.pointDistance (⟨4, 0, 3⟩ : V3 ℝ) ⟨0, 0, 0⟩ = 5 := norm_eq (by norm_num) (by norm_num)
  have h3 : V3.pointDistance (⟨4, 0, 3⟩ : V3 ℝ) ⟨1, 0, 0⟩ < 5 := by
    unfold V3.pointDistance V3.norm
    rw [Real.sqrt_lt' (by norm_num)]; norm_num
  refine ⟨⟨0, 0, 0⟩, ⟨1, 0, 0⟩, ⟨4, 0, 3⟩, ⟨4, 1, 3⟩, hs, hpq, 5, ⟨4, 0, 3⟩, ?_, h5.symm, h3⟩
  unfold lineDistance
  rw [perpendicular_formula ⟨4, 0, 3⟩ ⟨4, 1, 3⟩ ⟨0, 0, 0⟩ ⟨1, 0, 0⟩ ⟨4, 0, 3⟩ ⟨4, 0, 0⟩ ⟨0, 4, by ext <;> norm_num, by ext <;> norm_num⟩
    (by norm_num [V3.dot]) (by norm_num [V3.dot]) (by norm_num [V3.dot]) c1 c2 hpq]
  dsimp only
  rw [h1]
  dsimp only [Option.map_some]
  rw [if_neg, h5, if_neg (not_lt.mpr h3.le)]
  rw [h2]
  rintro ⟨x, ⟨t, ht0, ht1, hx, hy, hz⟩, hd⟩
  have : 3 ≤ V3.pointDistance x ⟨4, 0, 0⟩ := by
    unfold V3.pointDistance V3.norm
    refine Real.le_sqrt_of_sq_le ?_
    simp only [V3.sub_x, V3.sub_y, V3.sub_z, hx, hy, hz]
    nlinarith
  norm_num at hd
  linarith

end Volmdlr.Search
