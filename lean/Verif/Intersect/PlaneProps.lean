import Verif.Intersect.Model
import Verif.Segment.Props
import Verif.Arc.Props

/-!
# C56: intersections with planes
-/

namespace Volmdlr.Intersect

open Volmdlr.Angle Volmdlr.Arc

/-- A point of the plane through the origin of the frame, normal to its third vector (specification). -/
def OnPlane (f : Frame3 ℝ) (p : V3 ℝ) : Prop := V3.dot f.basis.w (p - f.origin) = 0

/-- A point of the line through two points of space (specification). -/
def OnLine3 (a b p : V3 ℝ) : Prop := ∃ t : ℝ, p.x = a.x + t * (b.x - a.x) ∧ p.y = a.y + t * (b.y - a.y) ∧ p.z = a.z + t * (b.z - a.z)

lemma mathIsClose_zero {a tol : ℝ} (h : 0 ≤ tol) : mathIsClose a 0 tol ↔ |a| ≤ tol := by
  unfold mathIsClose
  rw [sub_zero, abs_zero, max_eq_left (abs_nonneg a), le_max_iff]
  constructor
  · rintro (h1 | h1)
    · have : |a| = 0 := by
        have := abs_nonneg a
        linarith
      rw [this]; exact h
    · exact h1
  · exact Or.inr

/-! ## Plane and line -/

/-- C56: a point returned for a plane and a line lies exactly on both, and it is their only common point. -/
theorem C56_plane_line_sound (f : Frame3 ℝ) (l : Line3) (tol : ℝ) (ht : 0 ≤ tol) (p : V3 ℝ) (h : p ∈ planeLine f l tol) :
    OnPlane f p ∧ OnLine3 l.point1 l.point2 p ∧ ∀ q, OnPlane f q → OnLine3 l.point1 l.point2 q → q = p := by
  unfold planeLine at h
  dsimp only at h
  split_ifs at h with h0
  · cases h
  · rw [List.mem_singleton] at h
    rw [mathIsClose_zero ht, not_le] at h0
    have hne : V3.dot f.basis.w (l.point2 - l.point1) ≠ 0 := by
      intro hz
      rw [hz, abs_zero] at h0
      linarith
    obtain ⟨t, htd⟩ : ∃ t, t = -V3.dot f.basis.w (l.point1 - f.origin) / V3.dot f.basis.w (l.point2 - l.point1) := ⟨_, rfl⟩
    rw [← htd] at h
    rw [eq_div_iff hne] at htd
    subst h
    refine ⟨?_, ⟨t, by simp; ring, by simp; ring, by simp; ring⟩, ?_⟩
    · simp only [OnPlane, V3.dot, V3.sub_x, V3.sub_y, V3.sub_z, V3.add_x, V3.add_y, V3.add_z, V3.smul_x, V3.smul_y, V3.smul_z] at htd ⊢
      linear_combination htd
    · rintro q hq ⟨s, hx, hy, hz⟩
      have hs : s = t := by
        apply mul_right_cancel₀ hne
        rw [htd]
        simp only [OnPlane, V3.dot, V3.sub_x, V3.sub_y, V3.sub_z] at hq ⊢
        rw [hx, hy, hz] at hq
        linear_combination hq
      subst hs
      ext <;> simp [hx, hy, hz] <;> ring

/-- The full statement on planes and lines: the list returned holds exactly the common points, when the line is not in the plane. -/
def C56_plane_line_full_statement : Prop :=
  ∀ (f : Frame3 ℝ) (l : Line3), V3.norm f.basis.w = 1 → l.point1 ≠ l.point2 → ¬(OnPlane f l.point1 ∧ OnPlane f l.point2) →
    ∀ q, q ∈ planeLine f l ↔ OnPlane f q ∧ OnLine3 l.point1 l.point2 q

/-- C56, plane and line: outside the band in which the two points are within the tolerance of a common parallel plane, the list holds
exactly the common points. -/
theorem C56_plane_line_partial (f : Frame3 ℝ) (l : Line3) (tol : ℝ) (ht : 0 ≤ tol) (h : tol < |V3.dot f.basis.w (l.point2 - l.point1)|) :
    ∃ p, planeLine f l tol = [p] ∧ ∀ q, q = p ↔ OnPlane f q ∧ OnLine3 l.point1 l.point2 q := by
  have h0 : ¬mathIsClose (V3.dot f.basis.w (l.point2 - l.point1)) 0 tol := by rw [mathIsClose_zero ht, not_le]; exact h
  obtain ⟨p, hp⟩ : ∃ p, planeLine f l tol = [p] := by
    unfold planeLine
    dsimp only
    rw [if_neg h0]
    exact ⟨_, rfl⟩
  refine ⟨p, hp, fun q => ⟨?_, ?_⟩⟩
  · rintro rfl
    have := C56_plane_line_sound f l tol ht q (by rw [hp]; simp)
    exact ⟨this.1, this.2.1⟩
  · rintro ⟨h1, h2⟩
    exact (C56_plane_line_sound f l tol ht p (by rw [hp]; simp)).2.2 q h1 h2

/-- A line parallel to the plane and outside it: the empty list is right, whatever the tolerance. -/
theorem C56_plane_line_parallel (f : Frame3 ℝ) (l : Line3) (tol : ℝ) (ht : 0 ≤ tol) (h : V3.dot f.basis.w (l.point2 - l.point1) = 0) :
    planeLine f l tol = [] := by
  unfold planeLine
  dsimp only
  rw [if_pos]
  rw [mathIsClose_zero ht, h, abs_zero]
  exact ht

/-- The frame of the plane `z = 0`. -/
def planeXY : Frame3 ℝ := ⟨⟨0, 0, 0⟩, ⟨⟨1, 0, 0⟩, ⟨0, 1, 0⟩, ⟨0, 0, 1⟩⟩⟩

example : (1 / 10 ^ 6 : ℝ) < |V3.dot planeXY.basis.w ((⟨3, 0, 5⟩ : V3 ℝ) - ⟨1, 0, 1⟩)| := by norm_num [planeXY, V3.dot]

/-- C56, plane and line: false for a line given by two points close to each other: the line through (0,0,-5e-7) and (0,0,5e-7) is
orthogonal to the plane z = 0 and nothing is returned. -/
theorem C56_plane_line_counterexample : ¬C56_plane_line_full_statement := by
  intro h
  have h1 := h planeXY ⟨⟨0, 0, -1 / 2000000⟩, ⟨0, 0, 1 / 2000000⟩⟩ (by norm_num [planeXY, V3.norm])
    (by intro h; have := congrArg V3.z h; norm_num at this) (by norm_num [planeXY, OnPlane, V3.dot]) ⟨0, 0, 0⟩
  have h2 : OnPlane planeXY ⟨0, 0, 0⟩ ∧ OnLine3 ⟨0, 0, -1 / 2000000⟩ ⟨0, 0, 1 / 2000000⟩ ⟨0, 0, 0⟩ :=
    ⟨by norm_num [planeXY, OnPlane, V3.dot], 1 / 2, by norm_num, by norm_num, by norm_num⟩
  have h3 := h1.2 h2
  unfold planeLine at h3
  dsimp only at h3
  rw [if_pos] at h3
  · cases h3
  · rw [mathIsClose_zero (by norm_num)]
    norm_num [planeXY, V3.dot, abs_le]

/-! ## Plane and segment -/

/-- C56, plane and segment: the function never divides by zero. -/
theorem C56_plane_segment_total (f : Frame3 ℝ) (s : Seg3) (tol : ℝ) : ∃ r, planeSegment f s tol = some r := by
  unfold planeSegment
  dsimp only
  by_cases h0 : V3.dot f.basis.w (s.stop - s.start) = 0
  · rw [if_pos h0]; exact ⟨_, rfl⟩
  · rw [if_neg h0]
    have hw : V3.norm f.basis.w ≠ 0 := by
      rw [Ne, V3.norm_eq_zero_iff]
      intro h
      apply h0
      rw [h]
      simp [V3.dot]
    have hu : V3.norm (s.stop - s.start) ≠ 0 := by
      rw [Ne, V3.norm_eq_zero_iff]
      intro h
      apply h0
      rw [h]
      simp [V3.dot]
    simp only [V3.unitVector, if_neg hw, if_neg hu, Option.bind_some]
    split_ifs <;> exact ⟨_, rfl⟩

lemma mathIsClose_one {t tol : ℝ} (ht : 1 / 10 ^ 6 ≤ tol) (ht1 : tol ≤ 1) (h : mathIsClose t 1 tol) : |t - 1| ≤ tol := by
  unfold mathIsClose at h
  rw [le_max_iff] at h
  rcases h with h | h
  · by_contra hc
    rw [not_le] at hc
    have h2 : max |t| |(1 : ℝ)| ≤ |t - 1| + 1 := by
      apply max_le
      · have := abs_add_le (t - 1) 1
        rw [sub_add_cancel, abs_one] at this
        exact this
      · rw [abs_one]; linarith [abs_nonneg (t - 1)]
    have : |t - 1| ≤ 1 / 10 ^ 9 * (|t - 1| + 1) := h.trans (mul_le_mul_of_nonneg_left h2 (by norm_num))
    norm_num at this ht
    linarith
  · exact h

/-- C56, plane and segment: a returned point is on the segment, and its offset from the plane, measured along the normal, is at most the tolerance times
that of the two ends from each other (zero when the crossing parameter is between 0 and 1). -/
theorem C56_plane_segment_sound (f : Frame3 ℝ) (s : Seg3) (tol : ℝ) (ht : 1 / 10 ^ 6 ≤ tol) (ht1 : tol ≤ 1) (r : List (V3 ℝ)) (hr : planeSegment f s tol = some r)
    (p : V3 ℝ) (h : p ∈ r) :
    OnSeg3 s.start s.stop p ∧ |V3.dot f.basis.w (p - f.origin)| ≤ tol * |V3.dot f.basis.w (s.stop - s.start)| := by
  have ht0 : 0 ≤ tol := le_trans (by norm_num) ht
  unfold planeSegment at hr
  dsimp only at hr
  by_cases h0 : V3.dot f.basis.w (s.stop - s.start) = 0
  · rw [if_pos h0] at hr; cases hr; cases h
  rw [if_neg h0, Option.bind_eq_some_iff] at hr
  obtain ⟨n, hn, hr⟩ := hr
  rw [Option.bind_eq_some_iff] at hr
  obtain ⟨d, hd, hr⟩ := hr
  obtain ⟨t, htd⟩ : ∃ t, t = -V3.dot f.basis.w (s.start - f.origin) / V3.dot f.basis.w (s.stop - s.start) := ⟨_, rfl⟩
  rw [← htd] at hr
  rw [eq_div_iff h0] at htd
  split_ifs at hr with h1 h2 h3 h4
  · cases hr; cases h
  · cases hr
    rw [List.mem_singleton] at h
    subst h
    rw [mathIsClose_zero ht0, abs_abs] at h3
    refine ⟨⟨0, le_refl _, zero_le_one, by ring, by ring, by ring⟩, ?_⟩
    rw [show V3.dot f.basis.w (s.start - f.origin) = -(t * V3.dot f.basis.w (s.stop - s.start)) by linarith, abs_neg, abs_mul]
    exact mul_le_mul_of_nonneg_right h3 (abs_nonneg _)
  · cases hr
    rw [List.mem_singleton] at h
    subst h
    refine ⟨⟨1, zero_le_one, le_refl _, by ring, by ring, by ring⟩, ?_⟩
    have h5 : V3.dot f.basis.w (s.stop - f.origin) = -((t - 1) * V3.dot f.basis.w (s.stop - s.start)) := by
      simp only [V3.dot, V3.sub_x, V3.sub_y, V3.sub_z] at htd ⊢
      linear_combination htd
    rw [h5, abs_neg, abs_mul]
    exact mul_le_mul_of_nonneg_right (mathIsClose_one ht ht1 h4) (abs_nonneg _)
  · cases hr; cases h
  · cases hr
    rw [List.mem_singleton] at h
    subst h
    rw [not_or, not_lt, gt_iff_lt, not_lt] at h2
    refine ⟨⟨t, h2.1, h2.2, by simp; ring, by simp; ring, by simp; ring⟩, ?_⟩
    have h5 : V3.dot f.basis.w (s.start + V3.smul t (s.stop - s.start) - f.origin) = 0 := by
      simp only [V3.dot, V3.sub_x, V3.sub_y, V3.sub_z, V3.add_x, V3.add_y, V3.add_z, V3.smul_x, V3.smul_y, V3.smul_z] at htd ⊢
      linear_combination htd
    rw [h5, abs_zero]
    positivity

/-- C56, plane and segment: a segment whose direction makes with the plane an angle of sine more than the tolerance, and that meets
the plane: the common point is returned. -/
theorem C56_plane_segment_complete_partial (f : Frame3 ℝ) (s : Seg3) (tol : ℝ) (ht : 0 ≤ tol)
    (h : tol * V3.norm f.basis.w * V3.norm (s.stop - s.start) < |V3.dot f.basis.w (s.stop - s.start)|) (q : V3 ℝ)
    (h1 : OnPlane f q) (h2 : OnSeg3 s.start s.stop q) : planeSegment f s tol = some [q] := by
  have h0 : V3.dot f.basis.w (s.stop - s.start) ≠ 0 := by
    intro hz
    rw [hz, abs_zero] at h
    have : 0 ≤ tol * V3.norm f.basis.w * V3.norm (s.stop - s.start) := by
      have := V3.norm_nonneg f.basis.w
      have := V3.norm_nonneg (s.stop - s.start)
      positivity
    linarith
  have hw : V3.norm f.basis.w ≠ 0 := by
    rw [Ne, V3.norm_eq_zero_iff]
    intro h'
    apply h0
    rw [h']
    simp [V3.dot]
  have hu : V3.norm (s.stop - s.start) ≠ 0 := by
    rw [Ne, V3.norm_eq_zero_iff]
    intro h'
    apply h0
    rw [h']
    simp [V3.dot]
  have hw' : 0 < V3.norm f.basis.w := lt_of_le_of_ne (V3.norm_nonneg _) (Ne.symm hw)
  have hu' : 0 < V3.norm (s.stop - s.start) := lt_of_le_of_ne (V3.norm_nonneg _) (Ne.symm hu)
  obtain ⟨t, t0, t1, hx, hy, hz⟩ := h2
  have htd : -V3.dot f.basis.w (s.start - f.origin) / V3.dot f.basis.w (s.stop - s.start) = t := by
    rw [div_eq_iff h0]
    simp only [OnPlane, V3.dot, V3.sub_x, V3.sub_y, V3.sub_z] at h1 ⊢
    rw [hx, hy, hz] at h1
    linear_combination -h1
  have hd : V3.dot (⟨f.basis.w.x / V3.norm f.basis.w, f.basis.w.y / V3.norm f.basis.w, f.basis.w.z / V3.norm f.basis.w⟩ : V3 ℝ)
      ⟨(s.stop - s.start).x / V3.norm (s.stop - s.start), (s.stop - s.start).y / V3.norm (s.stop - s.start), (s.stop - s.start).z / V3.norm (s.stop - s.start)⟩
      = V3.dot f.basis.w (s.stop - s.start) / (V3.norm f.basis.w * V3.norm (s.stop - s.start)) := by
    simp only [V3.dot]
    field_simp
  unfold planeSegment
  dsimp only
  rw [if_neg h0]
  simp only [V3.unitVector, if_neg hw, if_neg hu, Option.bind_some]
  rw [hd, htd, if_neg, if_neg]
  · congr 2
    ext <;> simp [hx, hy, hz] <;> ring
  · rw [not_or, not_lt, gt_iff_lt, not_lt]; exact ⟨t0, t1⟩
  · rw [mathIsClose_zero ht, not_le, abs_div, abs_of_pos (mul_pos hw' hu'), lt_div_iff₀ (mul_pos hw' hu')]
    linarith

example : OnPlane planeXY ⟨2, 0, 0⟩ ∧ OnSeg3 (⟨1, 0, -1⟩ : V3 ℝ) ⟨3, 0, 1⟩ ⟨2, 0, 0⟩ :=
  ⟨by norm_num [planeXY, OnPlane, V3.dot], 1 / 2, by norm_num, by norm_num, by norm_num, by norm_num, by norm_num⟩

/-! ## Two planes -/

/-- C56, two planes: a point computed from the coefficients of two planes satisfies both equations. -/
theorem C56_two_planes_point (a1 b1 c1 d1 a2 b2 c2 d2 : ℝ) (p : V3 ℝ) (h : twoPlanesPoint (a1, b1, c1, d1) (a2, b2, c2, d2) = .ok p) :
    a1 * p.x + b1 * p.y + c1 * p.z + d1 = 0 ∧ a2 * p.x + b2 * p.y + c2 * p.z + d2 = 0 := by
  unfold twoPlanesPoint at h
  dsimp only at h
  split_ifs at h with h1 h2 h3
  · cases h
    have : a1 * b2 - a2 * b1 ≠ 0 := by
      intro hz; rw [hz, abs_zero] at h1; norm_num at h1
    obtain ⟨D, hD⟩ : ∃ D, D = a1 * b2 - a2 * b1 := ⟨_, rfl⟩
    rw [← hD] at this
    constructor <;> dsimp only <;> rw [← hD] <;> field_simp <;> rw [hD] <;> ring
  · cases h
    have : a2 * c1 - a1 * c2 ≠ 0 := by
      intro hz; rw [hz, abs_zero] at h2; norm_num at h2
    obtain ⟨D, hD⟩ : ∃ D, D = a2 * c1 - a1 * c2 := ⟨_, rfl⟩
    rw [← hD] at this
    constructor <;> dsimp only <;> rw [← hD] <;> field_simp <;> rw [hD] <;> ring
  · cases h
    have : b1 * c2 - c1 * b2 ≠ 0 := by
      intro hz; rw [show c1 * b2 - b1 * c2 = -(b1 * c2 - c1 * b2) by ring, hz, neg_zero, abs_zero] at h3; norm_num at h3
    obtain ⟨D, hD⟩ : ∃ D, D = b1 * c2 - c1 * b2 := ⟨_, rfl⟩
    rw [← hD] at this
    constructor <;> dsimp only <;> rw [← hD] <;> field_simp <;> rw [hD] <;> ring

/-- C56, two planes: `NotImplementedError` is never raised on coefficients of planes whose normals have a cross product of norm at least 1e-8. -/
theorem C56_two_planes_total (a1 b1 c1 d1 a2 b2 c2 d2 : ℝ)
    (h : 1 / 10 ^ 8 ≤ V3.norm (V3.cross ⟨a1, b1, c1⟩ ⟨a2, b2, c2⟩)) : ∃ p, twoPlanesPoint (a1, b1, c1, d1) (a2, b2, c2, d2) = .ok p := by
  unfold twoPlanesPoint
  dsimp only
  split_ifs with h1 h2 h3
  · exact ⟨_, rfl⟩
  · exact ⟨_, rfl⟩
  · exact ⟨_, rfl⟩
  · exfalso
    rw [gt_iff_lt, not_lt] at h1 h2 h3
    have hs : V3.norm (V3.cross (⟨a1, b1, c1⟩ : V3 ℝ) ⟨a2, b2, c2⟩) ^ 2 = (c1 * b2 - b1 * c2) ^ 2 + (a2 * c1 - a1 * c2) ^ 2 + (a1 * b2 - a2 * b1) ^ 2 := by
      rw [V3.norm_pow_two]
      simp only [V3.dot, V3.cross]
      ring
    have e1 := sq_le_sq' (by linarith [abs_nonneg (a1 * b2 - a2 * b1)]) h1
    have e2 := sq_le_sq' (by linarith [abs_nonneg (a2 * c1 - a1 * c2)]) h2
    have e3 := sq_le_sq' (by linarith [abs_nonneg (c1 * b2 - b1 * c2)]) h3
    rw [sq_abs] at e1 e2 e3
    have e4 := pow_le_pow_left₀ (by norm_num) h 2
    rw [hs] at e4
    norm_num at e1 e2 e3 e4
    linarith

/-- Numbers with at most twelve decimals are unchanged by the rounding. -/
lemma round12_of (n : ℤ) : round12 ((n : ℝ) / 10 ^ 12) = (n : ℝ) / 10 ^ 12 := by
  unfold round12
  rw [div_mul_cancel₀ _ (by norm_num : (10 : ℝ) ^ 12 ≠ 0), round_intCast]

/-- A plane whose equation has coefficients with at most twelve decimals (the rounding of `get_plane_equation_coefficients` does nothing). -/
def Exact (f : Frame3 ℝ) : Prop :=
  round12 f.basis.w.x = f.basis.w.x ∧ round12 f.basis.w.y = f.basis.w.y ∧ round12 f.basis.w.z = f.basis.w.z ∧
    round12 (-V3.dot f.origin f.basis.w) = -V3.dot f.origin f.basis.w

/-- C56, two planes: when the rounding does nothing, the call succeeds and, if it returns points, they are two different points of both planes
and the line through them is the intersection of the planes. -/
theorem C56_two_planes_partial (f g : Frame3 ℝ) (hf : Exact f) (hg : Exact g) :
    ∃ r, twoPlanes f g = .ok r ∧ ∀ ps, r = some ps → ps = [] ∨
      ∃ p q, ps = [p, q] ∧ p ≠ q ∧ ∀ x, OnLine3 p q x ↔ OnPlane f x ∧ OnPlane g x := by
  unfold twoPlanes
  dsimp only
  split_ifs with h1 h2
  · exact ⟨_, rfl, fun ps h => by cases h; exact Or.inl rfl⟩
  · exact ⟨_, rfl, fun ps h => by cases h⟩
  · rw [not_lt] at h2
    have ef : planeCoefficients f = (f.basis.w.x, f.basis.w.y, f.basis.w.z, -V3.dot f.origin f.basis.w) := by
      unfold planeCoefficients; dsimp only; rw [hf.1, hf.2.1, hf.2.2.1, hf.2.2.2]
    have eg : planeCoefficients g = (g.basis.w.x, g.basis.w.y, g.basis.w.z, -V3.dot g.origin g.basis.w) := by
      unfold planeCoefficients; dsimp only; rw [hg.1, hg.2.1, hg.2.2.1, hg.2.2.2]
    rw [ef, eg]
    obtain ⟨p, hp⟩ := C56_two_planes_total f.basis.w.x f.basis.w.y f.basis.w.z (-V3.dot f.origin f.basis.w)
      g.basis.w.x g.basis.w.y g.basis.w.z (-V3.dot g.origin g.basis.w) h2
    rw [hp]
    refine ⟨_, rfl, fun ps h => ?_⟩
    obtain ⟨q1, q2⟩ := C56_two_planes_point _ _ _ _ _ _ _ _ _ hp
    cases h
    refine Or.inr ⟨_, _, rfl, ?_, ?_⟩
    · intro he
      have hx := congrArg V3.x he
      have hy := congrArg V3.y he
      have hz := congrArg V3.z he
      simp only [V3.add_x, V3.add_y, V3.add_z, left_eq_add] at hx hy hz
      have : V3.cross f.basis.w g.basis.w = ⟨0, 0, 0⟩ := by ext <;> assumption
      rw [this, V3.norm_eq_zero_iff _ |>.mpr rfl] at h2
      norm_num at h2
    · obtain ⟨n, hn⟩ : ∃ n, n = V3.cross f.basis.w g.basis.w := ⟨_, rfl⟩
      have hnn : V3.dot n n ≠ 0 := by
        rw [← V3.norm_pow_two, hn]
        have : (0 : ℝ) < V3.norm (V3.cross f.basis.w g.basis.w) := lt_of_lt_of_le (by norm_num) h2
        positivity
      have hn1 : n.x = f.basis.w.y * g.basis.w.z - f.basis.w.z * g.basis.w.y := by rw [hn]; rfl
      have hn2 : n.y = f.basis.w.z * g.basis.w.x - f.basis.w.x * g.basis.w.z := by rw [hn]; rfl
      have hn3 : n.z = f.basis.w.x * g.basis.w.y - f.basis.w.y * g.basis.w.x := by rw [hn]; rfl
      intro x
      rw [← hn]
      simp only [V3.dot] at q1 q2 hnn
      constructor
      · rintro ⟨t, hx, hy, hz⟩
        simp only [V3.add_x, V3.add_y, V3.add_z] at hx hy hz
        constructor
        · simp only [OnPlane, V3.dot, V3.sub_x, V3.sub_y, V3.sub_z]
          rw [hx, hy, hz, hn1, hn2, hn3]
          linear_combination q1
        · simp only [OnPlane, V3.dot, V3.sub_x, V3.sub_y, V3.sub_z]
          rw [hx, hy, hz, hn1, hn2, hn3]
          linear_combination q2
      · rintro ⟨hxf, hxg⟩
        simp only [OnPlane, V3.dot, V3.sub_x, V3.sub_y, V3.sub_z] at hxf hxg
        have e1 : f.basis.w.x * (x.x - p.x) + f.basis.w.y * (x.y - p.y) + f.basis.w.z * (x.z - p.z) = 0 := by linear_combination hxf - q1
        have e2 : g.basis.w.x * (x.x - p.x) + g.basis.w.y * (x.y - p.y) + g.basis.w.z * (x.z - p.z) = 0 := by linear_combination hxg - q2
        have k1 : (x.y - p.y) * n.z - (x.z - p.z) * n.y = 0 := by
          rw [hn2, hn3]; linear_combination f.basis.w.x * e2 - g.basis.w.x * e1
        have k2 : (x.z - p.z) * n.x - (x.x - p.x) * n.z = 0 := by
          rw [hn1, hn3]; linear_combination f.basis.w.y * e2 - g.basis.w.y * e1
        have k3 : (x.x - p.x) * n.y - (x.y - p.y) * n.x = 0 := by
          rw [hn1, hn2]; linear_combination f.basis.w.z * e2 - g.basis.w.z * e1
        refine ⟨(n.x * (x.x - p.x) + n.y * (x.y - p.y) + n.z * (x.z - p.z)) / (n.x * n.x + n.y * n.y + n.z * n.z), ?_, ?_, ?_⟩
        all_goals
          simp only [V3.add_x, V3.add_y, V3.add_z, add_sub_cancel_left]
          rw [div_mul_eq_mul_div, ← sub_eq_iff_eq_add', eq_div_iff hnn]
        · linear_combination n.y * k3 - n.z * k2
        · linear_combination n.z * k1 - n.x * k3
        · linear_combination n.x * k2 - n.y * k1

/-- C56, two planes: parallel planes give the empty list. -/
theorem C56_two_planes_parallel (f g : Frame3 ℝ) (hf : f.basis.w ≠ ⟨0, 0, 0⟩) (k : ℝ) (hk : k ≠ 0) (h : g.basis.w = V3.smul k f.basis.w) :
    twoPlanes f g = .ok (some []) := by
  have hn : V3.norm f.basis.w ≠ 0 := by rwa [Ne, V3.norm_eq_zero_iff]
  have hpos : 0 < V3.norm f.basis.w := lt_of_le_of_ne (V3.norm_nonneg _) (Ne.symm hn)
  have hg : V3.norm g.basis.w = |k| * V3.norm f.basis.w := by
    rw [← abs_of_nonneg (V3.norm_nonneg g.basis.w), ← abs_of_nonneg (V3.norm_nonneg f.basis.w), ← abs_mul, ← sq_eq_sq_iff_abs_eq_abs, V3.norm_pow_two, mul_pow,
      V3.norm_pow_two, h]
    simp only [V3.dot, V3.smul_x, V3.smul_y, V3.smul_z]
    ring
  have hd : |V3.dot f.basis.w g.basis.w| = |k| * V3.norm f.basis.w ^ 2 := by
    rw [V3.norm_pow_two, ← abs_of_nonneg (show 0 ≤ V3.dot f.basis.w f.basis.w by rw [← V3.norm_pow_two]; positivity), ← abs_mul, h]
    congr 1
    simp only [V3.dot, V3.smul_x, V3.smul_y, V3.smul_z]
    ring
  have hk' : 0 < |k| := abs_pos.mpr hk
  have hc : isColinear f.basis.w g.basis.w (1 / 10 ^ 8) = true := by
    classical
    unfold isColinear
    rw [if_neg, decide_eq_true_iff, hd, hg]
    · rw [show |k| * V3.norm f.basis.w ^ 2 / V3.norm f.basis.w / (|k| * V3.norm f.basis.w) = 1 by field_simp]
      unfold mathIsClose
      rw [sub_self, abs_zero]
      exact le_max_of_le_right (by norm_num)
    · rw [hg, not_or]
      exact ⟨hn, by positivity⟩
  unfold twoPlanes
  rw [if_pos hc]

/-- The full statement on two planes: the empty list is returned for parallel planes only. -/
def C56_two_planes_full_statement : Prop :=
  ∀ f g : Frame3 ℝ, V3.norm f.basis.w = 1 → V3.norm g.basis.w = 1 → twoPlanes f g = .ok (some []) →
    V3.cross f.basis.w g.basis.w = ⟨0, 0, 0⟩

/-- C56, two planes: false.  Planes at an angle of 2e-5 radian are taken for parallel ones. -/
theorem C56_two_planes_counterexample : ¬C56_two_planes_full_statement := by
  intro h
  have n1 : V3.norm (⟨0, 0, 1⟩ : V3 ℝ) = 1 := by norm_num [V3.norm]
  have n2 : V3.norm (⟨200000 / 10000000001, 0, 9999999999 / 10000000001⟩ : V3 ℝ) = 1 := by norm_num [V3.norm]
  have hc : isColinear (⟨0, 0, 1⟩ : V3 ℝ) ⟨200000 / 10000000001, 0, 9999999999 / 10000000001⟩ (1 / 10 ^ 8) = true := by
    classical
    unfold isColinear
    rw [n1, n2, if_neg (by norm_num), decide_eq_true_iff]
    unfold mathIsClose
    refine le_max_of_le_right ?_
    norm_num [V3.dot, abs_le]
  have h1 := h planeXY ⟨⟨0, 0, 0⟩, ⟨⟨9999999999 / 10000000001, 0, -200000 / 10000000001⟩, ⟨0, 1, 0⟩, ⟨200000 / 10000000001, 0, 9999999999 / 10000000001⟩⟩⟩
    n1 n2 (by unfold twoPlanes; exact if_pos hc)
  have := congrArg V3.y h1
  norm_num [V3.cross, planeXY] at this

/-! ## Plane and point -/

/-- C56: the distance from a point to a plane is the distance to its nearest point, when the rounding does nothing. -/
theorem C56_plane_point_distance_partial (f : Frame3 ℝ) (hf : Exact f) (hw : f.basis.w ≠ ⟨0, 0, 0⟩) (p : V3 ℝ) :
    ∃ d, planePointDistance f p = some d ∧ (∃ q, OnPlane f q ∧ V3.pointDistance p q = d) ∧ ∀ q, OnPlane f q → d ≤ V3.pointDistance p q := by
  have hn : V3.norm f.basis.w ≠ 0 := by rwa [Ne, V3.norm_eq_zero_iff]
  have hpos : 0 < V3.norm f.basis.w := lt_of_le_of_ne (V3.norm_nonneg _) (Ne.symm hn)
  have hsq : f.basis.w.x ^ 2 + f.basis.w.y ^ 2 + f.basis.w.z ^ 2 = V3.norm f.basis.w ^ 2 := by
    rw [V3.norm_pow_two]; simp only [V3.dot]; ring
  have hval : planePointDistance f p = some (|V3.dot f.basis.w (p - f.origin)| / V3.norm f.basis.w) := by
    unfold planePointDistance planeCoefficients
    dsimp only
    rw [hf.1, hf.2.1, hf.2.2.1, hf.2.2.2, hsq, if_neg (by positivity), Real.sqrt_sq hpos.le]
    congr 3
    simp only [V3.dot, V3.sub_x, V3.sub_y, V3.sub_z]
    ring
  obtain ⟨k, hk⟩ : ∃ k, k = V3.dot f.basis.w (p - f.origin) := ⟨_, rfl⟩
  obtain ⟨N, hN⟩ : ∃ N, N = V3.norm f.basis.w := ⟨_, rfl⟩
  rw [← hk, ← hN] at hval
  rw [← hN] at hsq hpos
  refine ⟨_, hval, ⟨p - V3.smul (k / N ^ 2) f.basis.w, ?_, ?_⟩, ?_⟩
  · simp only [OnPlane, V3.dot, V3.sub_x, V3.sub_y, V3.sub_z, V3.smul_x, V3.smul_y, V3.smul_z] at hk ⊢
    have : k / N ^ 2 * (f.basis.w.x ^ 2 + f.basis.w.y ^ 2 + f.basis.w.z ^ 2) = k := by rw [hsq]; field_simp
    linear_combination -this - hk
  · unfold V3.pointDistance
    have h1 : 0 ≤ |k| / N := by positivity
    rw [← abs_of_nonneg (V3.norm_nonneg (p - (p - V3.smul (k / N ^ 2) f.basis.w))), ← abs_of_nonneg h1, ← sq_eq_sq_iff_abs_eq_abs, V3.norm_pow_two, div_pow, sq_abs]
    simp only [V3.dot, V3.sub_x, V3.sub_y, V3.sub_z, V3.smul_x, V3.smul_y, V3.smul_z]
    have : (k / N ^ 2) ^ 2 * (f.basis.w.x ^ 2 + f.basis.w.y ^ 2 + f.basis.w.z ^ 2) = k ^ 2 / N ^ 2 := by rw [hsq]; field_simp
    linear_combination this
  · intro q hq
    rw [div_le_iff₀ hpos]
    have h2 : k = V3.dot f.basis.w (p - q) := by
      simp only [OnPlane, V3.dot, V3.sub_x, V3.sub_y, V3.sub_z] at hq hk ⊢
      linear_combination hk + hq
    unfold V3.pointDistance
    rw [hN, ← abs_of_nonneg (mul_nonneg (V3.norm_nonneg (p - q)) (V3.norm_nonneg f.basis.w)), ← sq_le_sq, mul_pow, V3.norm_pow_two, V3.norm_pow_two, h2]
    simp only [V3.dot]
    obtain ⟨e, he⟩ : ∃ e, e = p - q := ⟨_, rfl⟩
    rw [← he]
    nlinarith [sq_nonneg (f.basis.w.x * e.y - f.basis.w.y * e.x), sq_nonneg (f.basis.w.y * e.z - f.basis.w.z * e.y),
      sq_nonneg (f.basis.w.z * e.x - f.basis.w.x * e.z)]

example : Exact planeXY := by
  refine ⟨?_, ?_, ?_, ?_⟩ <;> simp [planeXY, round12, V3.dot] <;> norm_num

end Volmdlr.Intersect
