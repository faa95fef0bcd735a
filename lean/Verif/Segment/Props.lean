import Verif.Segment.Model
import Verif.Frame.Props

/-!
# C07-C10, C61: lines and segments
-/

namespace Volmdlr

/-- A point of the segment `[a, b]` (specification). -/
def OnSeg2 {K : Type*} [Field K] [LinearOrder K] (a b p : V2 K) : Prop :=
  ∃ t : K, 0 ≤ t ∧ t ≤ 1 ∧ p.x = a.x + t * (b.x - a.x) ∧ p.y = a.y + t * (b.y - a.y)
/-- A point of the segment `[a, b]` in space (specification). -/
def OnSeg3 {K : Type*} [Field K] [LinearOrder K] (a b p : V3 K) : Prop :=
  ∃ t : K, 0 ≤ t ∧ t ≤ 1 ∧ p.x = a.x + t * (b.x - a.x) ∧ p.y = a.y + t * (b.y - a.y) ∧
    p.z = a.z + t * (b.z - a.z)
/-- A point of the line through `a`, `b` (specification). -/
def OnLine2 {K : Type*} [Field K] (a b p : V2 K) : Prop :=
  ∃ t : K, p.x = a.x + t * (b.x - a.x) ∧ p.y = a.y + t * (b.y - a.y)

/-- Minimum of a convex quadratic on `[0,1]` by clamping. -/
theorem clamp_quadratic {K : Type*} [Field K] [LinearOrder K] [IsStrictOrderedRing K] (a b s : K)
    (hb : 0 < b) (h0 : 0 ≤ s) (h1 : s ≤ 1) :
    b * (max 0 (min 1 (a / b))) ^ 2 - 2 * a * (max 0 (min 1 (a / b))) ≤ b * s ^ 2 - 2 * a * s := by
  obtain ⟨m, hm⟩ : ∃ m, m = a / b := ⟨_, rfl⟩
  have ha : a = m * b := by rw [hm]; field_simp
  rw [← hm, ha]
  have key : ∀ t : K, (t - m) ^ 2 ≤ (s - m) ^ 2 → b * t ^ 2 - 2 * (m * b) * t ≤ b * s ^ 2 - 2 * (m * b) * s := by
    intro t ht
    nlinarith [mul_le_mul_of_nonneg_left ht hb.le]
  apply key
  rcases le_total 1 m with h | h
  · rw [min_eq_left h, max_eq_right zero_le_one]; nlinarith
  · rw [min_eq_right h]
    rcases le_total 0 m with h' | h'
    · rw [max_eq_right h']; nlinarith [sq_nonneg (s - m)]
    · rw [max_eq_left h']; nlinarith

theorem clamp_mem {K : Type*} [Field K] [LinearOrder K] [IsStrictOrderedRing K] (m : K) :
    0 ≤ max 0 (min 1 m) ∧ max 0 (min 1 m) ≤ 1 :=
  ⟨le_max_left _ _, max_le zero_le_one (min_le_left _ _)⟩

theorem V2.norm_sq (u : V2 ℝ) : V2.norm u * V2.norm u = V2.dot u u := by
  unfold V2.norm V2.dot
  exact Real.mul_self_sqrt (by nlinarith [mul_self_nonneg u.x, mul_self_nonneg u.y])
theorem V2.norm_nonneg (u : V2 ℝ) : 0 ≤ V2.norm u := Real.sqrt_nonneg _
theorem V2.norm_eq_zero_iff (u : V2 ℝ) : V2.norm u = 0 ↔ u = ⟨0, 0⟩ := by
  unfold V2.norm
  rw [Real.sqrt_eq_zero (by nlinarith [mul_self_nonneg u.x, mul_self_nonneg u.y])]
  constructor
  · intro h
    ext <;> dsimp only <;> nlinarith [mul_self_nonneg u.x, mul_self_nonneg u.y]
  · rintro rfl; simp
theorem V2.norm_pow_two (u : V2 ℝ) : V2.norm u ^ 2 = V2.dot u u := by rw [pow_two, V2.norm_sq]
theorem V3.norm_pow_two (u : V3 ℝ) : V3.norm u ^ 2 = V3.dot u u := by rw [pow_two, V3.norm_sq]

theorem V2.unitVector_spec {u n : V2 ℝ} (h : V2.unitVector u = some n) :
    0 < V2.norm u ∧ u = V2.smul (V2.norm u) n ∧ V2.dot n n = 1 := by
  unfold V2.unitVector at h
  split at h
  · cases h
  · rename_i h0
    cases h
    have hpos := lt_of_le_of_ne (V2.norm_nonneg u) (Ne.symm h0)
    refine ⟨hpos, ?_, ?_⟩
    · ext <;> simp <;> field_simp
    · have := V2.norm_sq u
      simp only [V2.dot] at *
      field_simp
      linarith
theorem V2.unitVector_some {u : V2 ℝ} (h : u ≠ ⟨0, 0⟩) : ∃ n, V2.unitVector u = some n := by
  unfold V2.unitVector
  rw [if_neg (by rwa [V2.norm_eq_zero_iff])]
  exact ⟨_, rfl⟩

theorem V2.sub_eq_zero_iff (a b : V2 ℝ) : b - a = ⟨0, 0⟩ ↔ a = b := by
  constructor
  · intro h
    have hx := congrArg V2.x h
    have hy := congrArg V2.y h
    simp at hx hy
    ext <;> linarith
  · rintro rfl; ext <;> simp
theorem V3.sub_eq_zero_iff (a b : V3 ℝ) : b - a = ⟨0, 0, 0⟩ ↔ a = b := by
  constructor
  · intro h
    have hx := congrArg V3.x h
    have hy := congrArg V3.y h
    have hz := congrArg V3.z h
    simp at hx hy hz
    ext <;> linarith
  · rintro rfl; ext <;> simp
theorem V2.norm_sq_zero (a b : V2 ℝ) : V2.norm (b - a) ^ 2 = 0 ↔ a = b := by
  rw [pow_eq_zero_iff two_ne_zero, V2.norm_eq_zero_iff, V2.sub_eq_zero_iff]
theorem V3.norm_sq_zero (a b : V3 ℝ) : V3.norm (b - a) ^ 2 = 0 ↔ a = b := by
  rw [pow_eq_zero_iff two_ne_zero, V3.norm_eq_zero_iff, V3.sub_eq_zero_iff]

/-! ## C07 -/

/-- C07 (plane): for a segment with distinct ends the function returns a point of the segment and its
distance to the query point, which is the minimum over the segment; equal ends are a division by zero. -/
theorem C07_linesegment2d_distance (a b p : V2 ℝ) :
    (a = b → linesegment2dPointDistance a b p = none) ∧
    (a ≠ b → ∃ d q, linesegment2dPointDistance a b p = some (d, q) ∧ OnSeg2 a b q ∧
      d = V2.pointDistance q p ∧ ∀ r, OnSeg2 a b r → d ≤ V2.pointDistance r p) := by
  unfold linesegment2dPointDistance
  constructor
  · intro h; simp only [(V2.norm_sq_zero a b).mpr h, if_true]
  · intro h
    have hnz : ¬ V2.norm (b - a) ^ 2 = 0 := fun h' => h ((V2.norm_sq_zero a b).mp h')
    have hpos : 0 < V2.norm (b - a) ^ 2 := lt_of_le_of_ne (sq_nonneg _) (Ne.symm hnz)
    simp only [hnz, if_false]
    obtain ⟨c0, c1⟩ := clamp_mem (V2.dot (p - a) (b - a) / V2.norm (b - a) ^ 2)
    refine ⟨_, _, rfl, ⟨_, c0, c1, by simp; ring, by simp; ring⟩, rfl, ?_⟩
    rintro r ⟨s, s0, s1, hx, hy⟩
    have key := clamp_quadratic (V2.dot (p - a) (b - a)) (V2.norm (b - a) ^ 2) s hpos s0 s1
    generalize max 0 (min 1 (V2.dot (p - a) (b - a) / V2.norm (b - a) ^ 2)) = t at *
    rw [V2.norm_pow_two] at key
    unfold V2.pointDistance V2.norm
    apply Real.sqrt_le_sqrt
    simp only [V2.dot, V2.sub_x, V2.sub_y, V2.add_x, V2.add_y, V2.smul_x, V2.smul_y, hx, hy] at *
    nlinarith [key]

/-- C07 (space). -/
theorem C07_linesegment3d_distance (a b p : V3 ℝ) :
    (a = b → linesegment3dPointDistance a b p = none) ∧
    (a ≠ b → ∃ d q, linesegment3dPointDistance a b p = some (d, q) ∧ OnSeg3 a b q ∧
      d = V3.pointDistance q p ∧ ∀ r, OnSeg3 a b r → d ≤ V3.pointDistance r p) := by
  unfold linesegment3dPointDistance
  constructor
  · intro h; simp only [(V3.norm_sq_zero a b).mpr h, if_true]
  · intro h
    have hnz : ¬ V3.norm (b - a) ^ 2 = 0 := fun h' => h ((V3.norm_sq_zero a b).mp h')
    have hpos : 0 < V3.norm (b - a) ^ 2 := lt_of_le_of_ne (sq_nonneg _) (Ne.symm hnz)
    simp only [hnz, if_false]
    obtain ⟨c0, c1⟩ := clamp_mem (V3.dot (p - a) (b - a) / V3.norm (b - a) ^ 2)
    refine ⟨_, _, rfl, ⟨_, c0, c1, by simp; ring, by simp; ring, by simp; ring⟩, rfl, ?_⟩
    rintro r ⟨s, s0, s1, hx, hy, hz⟩
    have key := clamp_quadratic (V3.dot (p - a) (b - a)) (V3.norm (b - a) ^ 2) s hpos s0 s1
    generalize max 0 (min 1 (V3.dot (p - a) (b - a) / V3.norm (b - a) ^ 2)) = t at *
    rw [V3.norm_pow_two] at key
    unfold V3.pointDistance V3.norm
    apply Real.sqrt_le_sqrt
    simp only [V3.dot, V3.sub_x, V3.sub_y, V3.sub_z, V3.add_x, V3.add_y, V3.add_z, V3.smul_x, V3.smul_y,
      V3.smul_z, hx, hy, hz] at *
    nlinarith [key]

example : (⟨1, 2⟩ : V2 ℝ) ≠ ⟨4, 6⟩ := by intro h; have := congrArg V2.x h; norm_num at this
example : OnSeg3 (⟨0, 0, 0⟩ : V3 ℝ) ⟨2, 2, 2⟩ ⟨1, 1, 1⟩ := ⟨1/2, by norm_num, by norm_num, by norm_num, by norm_num, by norm_num⟩

/-! ## C08 -/

section C08
variable {K : Type*} [Field K] [LinearOrder K] [IsStrictOrderedRing K]

/-- C08 as stated in English. -/
def C08_full_statement (K : Type*) [Field K] [LinearOrder K] : Prop :=
  ∀ p1 p2 q1 q2 : V3 K, p1 ≠ p2 → q1 ≠ q2 →
    let r := lineSegment3DDistance p1 p2 q1 q2
    OnSeg3 p1 p2 r.1 ∧ OnSeg3 q1 q2 r.2 ∧
    ∀ a b, OnSeg3 p1 p2 a → OnSeg3 q1 q2 b → V3.sqNorm (r.1 - r.2) ≤ V3.sqNorm (a - b)

/-- C08 is false of the code: these two segments touch (at the origin), but the returned points are at
distance 1. -/
theorem C08_counterexample : ¬ C08_full_statement ℚ := by
  intro h
  have h1 := h ⟨1, 0, 0⟩ ⟨-1, 0, 0⟩ ⟨0, 0, 0⟩ ⟨0, -1, 0⟩ (by decide) (by decide)
  have h2 := h1.2.2 ⟨0, 0, 0⟩ ⟨0, 0, 0⟩ ⟨1/2, by norm_num, by norm_num, by norm_num, by norm_num, by norm_num⟩
    ⟨0, by norm_num, by norm_num, by norm_num, by norm_num, by norm_num⟩
  norm_num [lineSegment3DDistance, cLineSegment3DDistance, V3.dot, V3.sqNorm] at h2

theorem div_mem {x a : K} (h0 : 0 ≤ x) (h1 : x ≤ a) (ha : 0 < a) : 0 ≤ x / a ∧ x / a ≤ 1 :=
  ⟨div_nonneg h0 ha.le, (div_le_one ha).mpr h1⟩

/-- C08 (partial): both returned points do lie on their segments, for every pair of segments with distinct
ends (all branches).  Missing: minimality, which is false (`C08_counterexample`). -/
theorem C08_points_on_segments_partial (p1 p2 q1 q2 : V3 K) (hp : p1 ≠ p2) (hq : q1 ≠ q2) :
    OnSeg3 p1 p2 (lineSegment3DDistance p1 p2 q1 q2).1 ∧ OnSeg3 q1 q2 (lineSegment3DDistance p1 p2 q1 q2).2 := by
  have sqpos : ∀ a b : V3 K, a ≠ b → 0 < V3.dot (b - a) (b - a) := by
    intro a b hab
    have : 0 ≤ V3.dot (b - a) (b - a) := by
      simp only [V3.dot]; nlinarith [mul_self_nonneg (b - a).x, mul_self_nonneg (b - a).y, mul_self_nonneg (b - a).z]
    refine lt_of_le_of_ne this (fun h => hab ?_)
    simp only [V3.dot, V3.sub_x, V3.sub_y, V3.sub_z] at h
    have h1 := mul_self_nonneg (b.x - a.x)
    have h2 := mul_self_nonneg (b.y - a.y)
    have h3 := mul_self_nonneg (b.z - a.z)
    ext
    · have : (b.x - a.x) * (b.x - a.x) = 0 := by linarith
      linarith [mul_self_eq_zero.mp this]
    · have : (b.y - a.y) * (b.y - a.y) = 0 := by linarith
      linarith [mul_self_eq_zero.mp this]
    · have : (b.z - a.z) * (b.z - a.z) = 0 := by linarith
      linarith [mul_self_eq_zero.mp this]
  have ha := sqpos _ _ hp
  have hc := sqpos _ _ hq
  have key : ∀ u v w : V3 K, 0 < V3.dot u u → 0 < V3.dot v v →
      (0 ≤ (cLineSegment3DDistance u v w).1 ∧ (cLineSegment3DDistance u v w).1 ≤ 1) ∧
      (0 ≤ (cLineSegment3DDistance u v w).2 ∧ (cLineSegment3DDistance u v w).2 ≤ 1) := by
    intro u v w ha hc
    unfold cLineSegment3DDistance
    generalize V3.dot u u = a at *
    generalize V3.dot v v = c at *
    generalize V3.dot u v = b at *
    generalize V3.dot u w = d at *
    generalize V3.dot v w = e at *
    dsimp only
    split_ifs <;> dsimp only <;>
      refine ⟨?_, ?_⟩ <;> first
      | exact ⟨le_refl _, zero_le_one⟩
      | exact ⟨zero_le_one, le_refl _⟩
      | exact div_mem (by linarith) (by linarith) (by linarith)
  obtain ⟨⟨s0, s1⟩, ⟨t0, t1⟩⟩ := key _ _ (p1 - q1) ha hc
  exact ⟨⟨_, s0, s1, by simp [lineSegment3DDistance]; ring, by simp [lineSegment3DDistance]; ring,
      by simp [lineSegment3DDistance]; ring⟩,
    ⟨_, t0, t1, by simp [lineSegment3DDistance]; ring, by simp [lineSegment3DDistance]; ring,
      by simp [lineSegment3DDistance]; ring⟩⟩

example : (⟨1, 0, 0⟩ : V3 ℚ) ≠ ⟨-1, 0, 0⟩ ∧ (⟨0, 0, 0⟩ : V3 ℚ) ≠ ⟨0, -1, 0⟩ := by decide
end C08

/-! ## C09 -/

section C09
variable {K : Type*} [Field K] [LinearOrder K] [IsStrictOrderedRing K]

/-- C09: `line_intersection` returns a point exactly when the cross product of the directions exceeds
`1e-15` in absolute value; the point is on both lines, with the returned parameters, and is the only
common point. -/
theorem C09_lineIntersection (p1 p2 p3 p4 : V2 K) :
    (|V2.cross (p2 - p1) (p4 - p3)| ≤ 1 / 10 ^ 15 ∧ lineIntersection p1 p2 p3 p4 = none) ∨
    (1 / 10 ^ 15 < |V2.cross (p2 - p1) (p4 - p3)| ∧ ∃ p t u, lineIntersection p1 p2 p3 p4 = some (p, t, u) ∧
      p = p1 + V2.smul t (p2 - p1) ∧ p = p3 + V2.smul u (p4 - p3) ∧
      ∀ q, OnLine2 p1 p2 q → OnLine2 p3 p4 q → q = p) := by
  have hd : V2.cross (p2 - p1) (p4 - p3) = (p1.x - p2.x) * (p3.y - p4.y) - (p1.y - p2.y) * (p3.x - p4.x) := by
    simp only [V2.cross, V2.sub_x, V2.sub_y]; ring
  rw [hd]
  unfold lineIntersection
  by_cases h : |(p1.x - p2.x) * (p3.y - p4.y) - (p1.y - p2.y) * (p3.x - p4.x)| ≤ 1 / 10 ^ 15
  · left; exact ⟨h, if_pos h⟩
  · right
    have hne : (p1.x - p2.x) * (p3.y - p4.y) - (p1.y - p2.y) * (p3.x - p4.x) ≠ 0 := by
      intro h0; apply h; rw [h0]; simp
    refine ⟨not_le.mp h, _, _, _, if_neg h, ?_, ?_, ?_⟩
    · generalize hD : (p1.x - p2.x) * (p3.y - p4.y) - (p1.y - p2.y) * (p3.x - p4.x) = D at hne ⊢
      ext <;> simp only [V2.add_x, V2.add_y, V2.smul_x, V2.smul_y, V2.sub_x, V2.sub_y] <;> field_simp <;>
        rw [← hD] <;> ring
    · generalize hD : (p1.x - p2.x) * (p3.y - p4.y) - (p1.y - p2.y) * (p3.x - p4.x) = D at hne ⊢
      ext <;> simp only [V2.add_x, V2.add_y, V2.smul_x, V2.smul_y, V2.sub_x, V2.sub_y] <;> field_simp <;>
        rw [← hD] <;> ring
    · rintro q ⟨a, ax, ay⟩ ⟨b, bx, by'⟩
      have e1 : (q.x - p1.x) * (p2.y - p1.y) = (q.y - p1.y) * (p2.x - p1.x) := by rw [ax, ay]; ring
      have e2 : (q.x - p3.x) * (p4.y - p3.y) = (q.y - p3.y) * (p4.x - p3.x) := by rw [bx, by']; ring
      ext
      · simp only; rw [eq_div_iff hne]
        linear_combination (p2.x - p1.x) * e2 - (p4.x - p3.x) * e1
      · simp only; rw [eq_div_iff hne]
        linear_combination (p2.y - p1.y) * e2 - (p4.y - p3.y) * e1

/-- C09 as stated for segments. -/
def C09_segment_full_statement (K : Type*) [Field K] [LinearOrder K] : Prop :=
  ∀ (p1 p2 p3 p4 p : V2 K) (t u : K), segmentIntersection p1 p2 p3 p4 = some (p, t, u) →
    OnSeg2 p1 p2 p ∧ OnSeg2 p3 p4 p

/-- C09 is false for segments: a point is returned although it is outside one of them. -/
theorem C09_segment_counterexample : ¬ C09_segment_full_statement ℚ := by
  intro h
  have h1 := h ⟨0, 0⟩ ⟨1, 0⟩ ⟨5, -1⟩ ⟨5, 1⟩ ⟨5, 0⟩ 5 (1/2)
    (by norm_num [segmentIntersection])
  obtain ⟨⟨t, h0, h2, hx, -⟩, -⟩ := h1
  norm_num at hx
  linarith

/-- C09 (partial): a returned point is on both lines and on at least one of the two segments, and whenever
the segments do have a common point (and are not nearly parallel) it is returned.  Missing: "on both
segments", which is false. -/
theorem C09_segmentIntersection_partial (p1 p2 p3 p4 : V2 K) :
    (∀ p t u, segmentIntersection p1 p2 p3 p4 = some (p, t, u) →
      OnLine2 p1 p2 p ∧ OnLine2 p3 p4 p ∧ (OnSeg2 p1 p2 p ∨ OnSeg2 p3 p4 p)) ∧
    (∀ q, 1 / 10 ^ 15 < |V2.cross (p2 - p1) (p4 - p3)| → OnSeg2 p1 p2 q → OnSeg2 p3 p4 q →
      ∃ t u, segmentIntersection p1 p2 p3 p4 = some (q, t, u)) := by
  have rel : segmentIntersection p1 p2 p3 p4 = (lineIntersection p1 p2 p3 p4).bind
      (fun r => if (0 ≤ r.2.1 ∧ r.2.1 ≤ 1) ∨ (0 ≤ r.2.2 ∧ r.2.2 ≤ 1) then some r else none) := by
    unfold segmentIntersection lineIntersection
    dsimp only
    split_ifs <;> simp_all
  rw [rel]
  rcases C09_lineIntersection p1 p2 p3 p4 with ⟨h1, h2⟩ | ⟨h1, p, t, u, h2, h3, h4, h5⟩
  · constructor
    · intro p t u h; rw [h2] at h; cases h
    · intro q hq; exact absurd hq (not_lt.mpr h1)
  · rw [h2]
    simp only [Option.bind_some]
    have e1 : p.x = p1.x + t * (p2.x - p1.x) ∧ p.y = p1.y + t * (p2.y - p1.y) := by
      constructor
      · rw [h3]; simp; ring
      · rw [h3]; simp; ring
    have e2 : p.x = p3.x + u * (p4.x - p3.x) ∧ p.y = p3.y + u * (p4.y - p3.y) := by
      constructor
      · rw [h4]; simp; ring
      · rw [h4]; simp; ring
    constructor
    · intro p' t' u' h
      split_ifs at h with hc
      · simp only [Option.some.injEq, Prod.mk.injEq] at h
        obtain ⟨rfl, rfl, rfl⟩ := h
        refine ⟨⟨t, e1⟩, ⟨u, e2⟩, ?_⟩
        rcases hc with hc | hc
        · exact Or.inl ⟨t, hc.1, hc.2, e1⟩
        · exact Or.inr ⟨u, hc.1, hc.2, e2⟩
    · intro q _ hq1 hq2
      obtain ⟨a, a0, a1, ax, ay⟩ := hq1
      obtain ⟨b, b0, b1, bx, by'⟩ := hq2
      have hqp := h5 q ⟨a, ax, ay⟩ ⟨b, bx, by'⟩
      subst hqp
      refine ⟨t, u, if_pos (Or.inl ?_)⟩
      have hta : t = a := by
        by_contra hne
        have hx : (t - a) * (p2.x - p1.x) = 0 := by linear_combination ax - e1.1
        have hy : (t - a) * (p2.y - p1.y) = 0 := by linear_combination ay - e1.2
        have hx' := (mul_eq_zero.mp hx).resolve_left (sub_ne_zero.mpr hne)
        have hy' := (mul_eq_zero.mp hy).resolve_left (sub_ne_zero.mpr hne)
        have : V2.cross (p2 - p1) (p4 - p3) = 0 := by
          simp only [V2.cross, V2.sub_x, V2.sub_y, hx', hy']; ring
        rw [this, abs_zero] at h1
        exact absurd h1 (not_lt.mpr (by positivity))
      rw [hta]; exact ⟨a0, a1⟩

example : (1:ℚ) / 10 ^ 15 < |V2.cross ((⟨2, 2⟩ : V2 ℚ) - ⟨0, 0⟩) (⟨2, 0⟩ - ⟨0, 2⟩)| ∧
    OnSeg2 (⟨0, 0⟩ : V2 ℚ) ⟨2, 2⟩ ⟨1, 1⟩ ∧ OnSeg2 (⟨0, 2⟩ : V2 ℚ) ⟨2, 0⟩ ⟨1, 1⟩ := by
  refine ⟨by norm_num [V2.cross], ⟨1/2, ?_⟩, ⟨1/2, ?_⟩⟩ <;> norm_num
end C09

/-! ## C10 -/

/-- C10: `line_projection` gives the orthogonal projection: on the line, and no point of the line is
closer. -/
theorem C10_lineProjection (p p1 p2 : V2 ℝ) (h : p1 ≠ p2) :
    ∃ q, lineProjection p p1 p2 = some q ∧ OnLine2 p1 p2 q ∧ V2.dot (p - q) (p2 - p1) = 0 ∧
      ∀ r, OnLine2 p1 p2 r → V2.pointDistance p q ≤ V2.pointDistance p r := by
  obtain ⟨d, hd⟩ := V2.unitVector_some (u := p2 - p1) (by rw [Ne, V2.sub_eq_zero_iff]; exact h)
  obtain ⟨npos, hd1, hd2⟩ := V2.unitVector_spec hd
  set n := V2.norm (p2 - p1) with hn
  have hx := congrArg V2.x hd1
  have hy := congrArg V2.y hd1
  simp only [V2.sub_x, V2.sub_y, V2.smul_x, V2.smul_y] at hx hy
  simp only [V2.dot] at hd2
  have hn0 := npos.ne'
  let q : V2 ℝ := p - p1 - V2.smul (V2.dot (p - p1) (V2.normalVector d)) (V2.normalVector d) + p1
  have hqx : q.x = p1.x + ((p.x - p1.x) * d.x + (p.y - p1.y) * d.y) * d.x := by
    simp only [q, V2.add_x, V2.sub_x, V2.smul_x, V2.dot, V2.normalVector, V2.sub_y]
    linear_combination (-(p.x - p1.x)) * hd2
  have hqy : q.y = p1.y + ((p.x - p1.x) * d.x + (p.y - p1.y) * d.y) * d.y := by
    simp only [q, V2.add_y, V2.sub_x, V2.smul_y, V2.dot, V2.normalVector, V2.sub_y]
    linear_combination (-(p.y - p1.y)) * hd2
  have orth : (p.x - q.x) * d.x + (p.y - q.y) * d.y = 0 := by
    rw [hqx, hqy]; linear_combination (-((p.x - p1.x) * d.x + (p.y - p1.y) * d.y)) * hd2
  refine ⟨q, ?_, ⟨((p.x - p1.x) * d.x + (p.y - p1.y) * d.y) / n, ?_, ?_⟩, ?_, ?_⟩
  · unfold lineProjection; rw [hd]; rfl
  · rw [hqx, hx]; field_simp
  · rw [hqy, hy]; field_simp
  · simp only [V2.dot, V2.sub_x, V2.sub_y]; rw [hx, hy]; linear_combination n * orth
  · rintro r ⟨t, rx, ry⟩
    unfold V2.pointDistance V2.norm
    apply Real.sqrt_le_sqrt
    simp only [V2.sub_x, V2.sub_y]
    obtain ⟨k, hk⟩ : ∃ k, k = t * n - ((p.x - p1.x) * d.x + (p.y - p1.y) * d.y) := ⟨_, rfl⟩
    have e1 : r.x = q.x + k * d.x := by rw [rx, hx, hqx, hk]; ring
    have e2 : r.y = q.y + k * d.y := by rw [ry, hy, hqy, hk]; ring
    rw [e1, e2]
    have e3 : (p.x - (q.x + k * d.x)) * (p.x - (q.x + k * d.x)) + (p.y - (q.y + k * d.y)) * (p.y - (q.y + k * d.y))
        = (p.x - q.x) * (p.x - q.x) + (p.y - q.y) * (p.y - q.y) + k ^ 2 := by
      linear_combination -2 * k * orth + k ^ 2 * hd2
    rw [e3]; linarith [sq_nonneg k]

theorem axialSymmetry_eq (p p1 p2 : V2 ℝ) (h : p1 ≠ p2) :
    ∃ t, t * V2.dot (p2 - p1) (p2 - p1) = V2.dot (p - p1) (p2 - p1) ∧
      pointProjection2 p p1 p2 = some (p1 + V2.smul t (p2 - p1), t * V2.norm (p2 - p1)) ∧
      axialSymmetry p p1 p2 = some (p1 + V2.smul t (p2 - p1) + (p1 + V2.smul t (p2 - p1) - p)) := by
  have hnz : ¬ V2.norm (p2 - p1) ^ 2 = 0 := fun h' => h ((V2.norm_sq_zero p1 p2).mp h')
  refine ⟨V2.dot (p - p1) (p2 - p1) / V2.norm (p2 - p1) ^ 2, ?_, ?_, ?_⟩
  · rw [← V2.norm_pow_two]; exact div_mul_cancel₀ _ hnz
  · unfold pointProjection2; rw [if_neg hnz]
  · unfold axialSymmetry pointProjection2; rw [if_neg hnz]; rfl

/-- C10: axial symmetry is defined for every true line, is an involution, preserves distances and its
fixed points are exactly the points of the line. -/
theorem C10_axialSymmetry (p q p1 p2 : V2 ℝ) (h : p1 ≠ p2) :
    ∃ p' q', axialSymmetry p p1 p2 = some p' ∧ axialSymmetry q p1 p2 = some q' ∧
      axialSymmetry p' p1 p2 = some p ∧ V2.pointDistance p' q' = V2.pointDistance p q ∧
      (p' = p ↔ OnLine2 p1 p2 p) := by
  obtain ⟨t, ht, -, hp⟩ := axialSymmetry_eq p p1 p2 h
  obtain ⟨s, hs, -, hq⟩ := axialSymmetry_eq q p1 p2 h
  obtain ⟨t', ht', -, hp'⟩ := axialSymmetry_eq (p1 + V2.smul t (p2 - p1) + (p1 + V2.smul t (p2 - p1) - p)) p1 p2 h
  have hN : V2.dot (p2 - p1) (p2 - p1) ≠ 0 := by
    rw [← V2.norm_pow_two]; exact fun h' => h ((V2.norm_sq_zero p1 p2).mp h')
  have htt : t' = t := by
    have : t' * V2.dot (p2 - p1) (p2 - p1) = t * V2.dot (p2 - p1) (p2 - p1) := by
      rw [ht']
      simp only [V2.dot, V2.sub_x, V2.sub_y, V2.add_x, V2.add_y, V2.smul_x, V2.smul_y] at *
      linear_combination ht
    exact mul_right_cancel₀ hN this
  refine ⟨_, _, hp, hq, ?_, ?_, ?_⟩
  · rw [hp', htt]; congr 1; ext <;> simp
  · unfold V2.pointDistance V2.norm
    congr 1
    simp only [V2.dot, V2.sub_x, V2.sub_y, V2.add_x, V2.add_y, V2.smul_x, V2.smul_y] at *
    linear_combination 4 * (t - s) * (ht - hs)
  · constructor
    · intro he
      refine ⟨t, ?_, ?_⟩
      · have := congrArg V2.x he
        simp only [V2.sub_x, V2.add_x, V2.smul_x] at this
        linarith
      · have := congrArg V2.y he
        simp only [V2.sub_y, V2.add_y, V2.smul_y] at this
        linarith
    · rintro ⟨k, kx, ky⟩
      have : t = k := by
        have : t * V2.dot (p2 - p1) (p2 - p1) = k * V2.dot (p2 - p1) (p2 - p1) := by
          rw [ht]; simp only [V2.dot, V2.sub_x, V2.sub_y, kx, ky]; ring
        exact mul_right_cancel₀ hN this
      subst this
      ext
      · simp only [V2.sub_x, V2.add_x, V2.smul_x]; rw [kx]; ring
      · simp only [V2.sub_y, V2.add_y, V2.smul_y]; rw [ky]; ring

/-! ## C61 -/

/-- C61: on a segment with distinct ends, `point_at_abscissa` followed by `abscissa` gives back every
abscissa of `[0, length]`, up to the snapping at the ends (points nearer than `tol` to an end get that
end's abscissa). -/
theorem C61_abscissa_inverse (s : Seg3) (hs : s.start ≠ s.stop) (a tol : ℝ) (h0 : 0 ≤ a) (h1 : a ≤ s.length)
    (ht : 0 < tol) :
    ∃ p, s.pointAtAbscissa a = some p ∧ OnSeg3 s.start s.stop p ∧ V3.pointDistance p s.start = a ∧
      V3.pointDistance p s.stop = s.length - a ∧
      (tol ≤ a → tol ≤ s.length - a → s.abscissa p tol = .ok a) ∧
      (a < tol → s.abscissa p tol = .ok 0) ∧
      (tol ≤ a → s.length - a < tol → s.abscissa p tol = .ok s.length) := by
  obtain ⟨u, hu⟩ := V3.unitVector_some (u := s.stop - s.start) (by rw [Ne, V3.sub_eq_zero_iff]; exact hs)
  obtain ⟨npos, hu1, hu2⟩ := V3.unitVector_spec hu
  have hlen : s.length = V3.norm (s.stop - s.start) := rfl
  set n := V3.norm (s.stop - s.start) with hn
  have hx := congrArg V3.x hu1
  have hy := congrArg V3.y hu1
  have hz := congrArg V3.z hu1
  simp only [V3.sub_x, V3.sub_y, V3.sub_z, V3.smul_x, V3.smul_y, V3.smul_z] at hx hy hz
  have hn0 := npos.ne'
  have d1 : V3.pointDistance (s.start + V3.smul a u) s.start = a := by
    unfold V3.pointDistance V3.norm
    rw [← Real.sqrt_mul_self h0]
    congr 1
    simp only [V3.dot] at hu2
    simp only [V3.sub_x, V3.sub_y, V3.sub_z, V3.add_x, V3.add_y, V3.add_z, V3.smul_x, V3.smul_y, V3.smul_z]
    rw [Real.sqrt_mul_self h0]
    linear_combination a * a * hu2
  have d2 : V3.pointDistance (s.start + V3.smul a u) s.stop = s.length - a := by
    rw [hlen] at h1 ⊢
    have h2 : 0 ≤ n - a := by linarith
    rw [← Real.sqrt_mul_self h2]
    unfold V3.pointDistance V3.norm
    congr 1
    simp only [V3.dot] at hu2
    simp only [V3.sub_x, V3.sub_y, V3.sub_z, V3.add_x, V3.add_y, V3.add_z, V3.smul_x, V3.smul_y, V3.smul_z]
    rw [show s.start.x + u.x * a - s.stop.x = u.x * (a - n) by linarith,
        show s.start.y + u.y * a - s.stop.y = u.y * (a - n) by linarith,
        show s.start.z + u.z * a - s.stop.z = u.z * (a - n) by linarith]
    linear_combination (a - n) * (a - n) * hu2
  refine ⟨s.start + V3.smul a u, ?_, ⟨a / n, ?_, ?_, ?_, ?_, ?_⟩, d1, d2, ?_, ?_, ?_⟩
  · unfold Seg3.pointAtAbscissa; rw [hu]; rfl
  · exact div_nonneg h0 npos.le
  · rw [div_le_one npos]; exact h1
  · simp only [V3.add_x, V3.smul_x]; rw [hx]; field_simp
  · simp only [V3.add_y, V3.smul_y]; rw [hy]; field_simp
  · simp only [V3.add_z, V3.smul_z]; rw [hz]; field_simp
  · intro ha hb
    unfold Seg3.abscissa
    rw [d1, d2, if_neg (not_lt.mpr ha), if_neg (not_lt.mpr hb)]
    dsimp only
    rw [← hn, if_neg hn0]
    have e : V3.dot (s.start + V3.smul a u - s.start) (s.stop - s.start) / n = a := by
      rw [div_eq_iff hn0]
      simp only [V3.dot] at hu2
      simp only [V3.dot, V3.sub_x, V3.sub_y, V3.sub_z, V3.add_x, V3.add_y, V3.add_z, V3.smul_x, V3.smul_y, V3.smul_z]
      rw [hx, hy, hz]
      linear_combination a * n * hu2
    rw [e, if_neg]
    rintro (hc | hc)
    · have : (0:ℝ) < 1 / 10 ^ 9 := by positivity
      linarith
    · have : (0:ℝ) < 1 / 10 ^ 9 := by positivity
      rw [hlen] at h1; linarith
  · intro ha
    unfold Seg3.abscissa; rw [d1, if_pos ha]
  · intro ha hb
    unfold Seg3.abscissa; rw [d1, d2, if_neg (not_lt.mpr ha), if_pos hb]

/-- C61: a point of the segment splits it in two segments whose lengths add up. -/
theorem C61_split (s : Seg3) (p : V3 ℝ) (tol : ℝ) (hp : OnSeg3 s.start s.stop p) (htol : 0 ≤ tol)
    (h0 : tol < V3.pointDistance p s.start) (h1 : tol < V3.pointDistance p s.stop) :
    ∃ a b, s.split p tol = .ok (some a, some b) ∧ a.start = s.start ∧ a.stop = p ∧ b.start = p ∧
      b.stop = s.stop ∧ a.length + b.length = s.length := by
  have ne1 : s.start ≠ p := by
    rintro rfl
    have : V3.pointDistance s.start s.start = 0 := by unfold V3.pointDistance V3.norm; simp
    linarith
  have ne2 : p ≠ s.stop := by
    rintro rfl
    have : V3.pointDistance s.stop s.stop = 0 := by unfold V3.pointDistance V3.norm; simp
    linarith
  refine ⟨⟨s.start, p⟩, ⟨p, s.stop⟩, ?_, rfl, rfl, rfl, rfl, ?_⟩
  · unfold Seg3.split Seg3.mk?
    rw [if_neg (not_le.mpr h0), if_neg (not_le.mpr h1), if_neg ne1, if_neg ne2]; rfl
  · obtain ⟨t, t0, t1, hx, hy, hz⟩ := hp
    have e1 : Seg3.length ⟨s.start, p⟩ = t * s.length := by
      unfold Seg3.length V3.pointDistance V3.norm
      rw [← Real.sqrt_mul_self t0, ← Real.sqrt_mul (mul_self_nonneg t)]
      congr 1
      simp only [V3.sub_x, V3.sub_y, V3.sub_z, hx, hy, hz]; ring
    have e2 : Seg3.length ⟨p, s.stop⟩ = (1 - t) * s.length := by
      have h' : 0 ≤ 1 - t := by linarith
      unfold Seg3.length V3.pointDistance V3.norm
      rw [← Real.sqrt_mul_self h', ← Real.sqrt_mul (mul_self_nonneg (1 - t))]
      congr 1
      simp only [V3.sub_x, V3.sub_y, V3.sub_z, hx, hy, hz]; ring
    rw [e1, e2]; ring

theorem V3.dot_le_norms (u v : V3 ℝ) : V3.dot u v ≤ V3.norm u * V3.norm v := by
  refine le_of_abs_le (abs_le_of_sq_le_sq ?_ (mul_nonneg (V3.norm_nonneg u) (V3.norm_nonneg v)))
  have e1 := V3.norm_sq u
  have e2 := V3.norm_sq v
  have : (V3.norm u * V3.norm v) ^ 2 = V3.dot u u * V3.dot v v := by rw [← e1, ← e2]; ring
  rw [this]; unfold V3.dot
  nlinarith [sq_nonneg (u.x * v.y - u.y * v.x), sq_nonneg (u.x * v.z - u.z * v.x), sq_nonneg (u.y * v.z - u.z * v.y)]

theorem V3.pointDistance_symm (p q : V3 ℝ) : V3.pointDistance p q = V3.pointDistance q p := by
  unfold V3.pointDistance V3.norm; congr 1; simp only [V3.sub_x, V3.sub_y, V3.sub_z]; ring

theorem V3.pointDistance_triangle (p q r : V3 ℝ) :
    V3.pointDistance p r ≤ V3.pointDistance p q + V3.pointDistance q r := by
  unfold V3.pointDistance
  refine le_of_abs_le (abs_le_of_sq_le_sq ?_ (add_nonneg (V3.norm_nonneg _) (V3.norm_nonneg _)))
  have e0 := V3.norm_sq (p - r)
  have e1 := V3.norm_sq (p - q)
  have e2 := V3.norm_sq (q - r)
  have e3 := V3.dot_le_norms (p - q) (q - r)
  have : V3.dot (p - r) (p - r) = V3.dot (p - q) (p - q) + 2 * V3.dot (p - q) (q - r) + V3.dot (q - r) (q - r) := by
    simp only [V3.dot, V3.sub_x, V3.sub_y, V3.sub_z]; ring
  nlinarith

/-- C61: at the start (within the tolerance) nothing precedes the split point, at the end nothing follows it; a
segment longer than twice the tolerance never meets both cases. -/
theorem C61_split_ends (s : Seg3) (p : V3 ℝ) (tol : ℝ) :
    (V3.pointDistance p s.start ≤ tol → s.split p tol = .ok (none, some s)) ∧
    (2 * tol < s.length → V3.pointDistance p s.stop ≤ tol → s.split p tol = .ok (some s, none)) := by
  refine ⟨fun h => by rw [Seg3.split, if_pos h], fun hl h => ?_⟩
  have tri : s.length ≤ V3.pointDistance s.start p + V3.pointDistance p s.stop := by
    have := V3.pointDistance_triangle s.start p s.stop
    unfold Seg3.length; first | exact this | (rw [V3.pointDistance_symm]; exact this)
  have sym : V3.pointDistance s.start p = V3.pointDistance p s.start := V3.pointDistance_symm _ _
  rw [Seg3.split, if_neg (by rw [← sym]; linarith), if_pos h]

example : (⟨⟨0, 0, 0⟩, ⟨3, 0, 0⟩⟩ : Seg3).split ⟨3, 0, 0⟩ (1 / 10 ^ 6) = .ok (some ⟨⟨0, 0, 0⟩, ⟨3, 0, 0⟩⟩, none) := by
  refine (C61_split_ends _ _ _).2 ?_ ?_ <;> simp [Seg3.length, V3.pointDistance, V3.norm]
  norm_num

/-- C61: the middle point is on the segment, at half its length from both ends. -/
theorem C61_middle (s : Seg3) : OnSeg3 s.start s.stop s.middlePoint ∧
    V3.pointDistance s.middlePoint s.start = s.length / 2 ∧
    V3.pointDistance s.middlePoint s.stop = s.length / 2 := by
  refine ⟨⟨1/2, by norm_num, by norm_num, ?_, ?_, ?_⟩, ?_, ?_⟩
  · simp [Seg3.middlePoint]; ring
  · simp [Seg3.middlePoint]; ring
  · simp [Seg3.middlePoint]; ring
  all_goals
    unfold Seg3.length V3.pointDistance V3.norm
    rw [div_eq_mul_one_div, mul_comm _ (1/2:ℝ)]
    rw [← Real.sqrt_mul_self (show (0:ℝ) ≤ 1/2 by norm_num), ← Real.sqrt_mul (mul_self_nonneg (1/2:ℝ))]
    congr 1
    simp [Seg3.middlePoint]; ring

/-- C61: `point_projection` returns the foot of the perpendicular on the carrier line together with its
signed abscissa from the start. -/
theorem C61_pointProjection (p a b : V3 ℝ) (h : a ≠ b) :
    ∃ q c, pointProjection3 p a b = some (q, c) ∧ V3.dot (p - q) (b - a) = 0 ∧
      ∃ u, V3.unitVector (b - a) = some u ∧ q = a + V3.smul c u := by
  obtain ⟨u, hu⟩ := V3.unitVector_some (u := b - a) (by rw [Ne, V3.sub_eq_zero_iff]; exact h)
  obtain ⟨npos, hu1, hu2⟩ := V3.unitVector_spec hu
  have hnz : ¬ V3.norm (b - a) ^ 2 = 0 := fun h' => h ((V3.norm_sq_zero a b).mp h')
  unfold pointProjection3
  simp only [if_neg hnz]
  refine ⟨_, _, rfl, ?_, u, hu, ?_⟩
  · have hne : V3.dot (b - a) (b - a) ≠ 0 := by rw [← V3.norm_pow_two]; exact hnz
    rw [V3.norm_pow_two]
    obtain ⟨t, ht⟩ : ∃ t, t = V3.dot (p - a) (b - a) / V3.dot (b - a) (b - a) := ⟨_, rfl⟩
    rw [← ht]
    have : t * V3.dot (b - a) (b - a) = V3.dot (p - a) (b - a) := by rw [ht]; field_simp
    simp only [V3.dot, V3.sub_x, V3.sub_y, V3.sub_z, V3.add_x, V3.add_y, V3.add_z, V3.smul_x, V3.smul_y, V3.smul_z] at *
    linear_combination -this
  · generalize V3.dot (p - a) (b - a) / V3.norm (b - a) ^ 2 = t
    conv_lhs => rw [hu1]
    generalize V3.norm (b - a) = n
    ext <;> simp <;> ring

example : OnSeg3 (⟨0, 0, 0⟩ : V3 ℝ) ⟨3, 0, 0⟩ ⟨1, 0, 0⟩ ∧ (1/10^6 : ℝ) < V3.pointDistance ⟨1, 0, 0⟩ ⟨0, 0, 0⟩ := by
  refine ⟨⟨1/3, ?_⟩, ?_⟩
  · norm_num
  · have : V3.pointDistance (⟨1, 0, 0⟩ : V3 ℝ) ⟨0, 0, 0⟩ = 1 := by unfold V3.pointDistance V3.norm; norm_num
    rw [this]; norm_num

end Volmdlr
