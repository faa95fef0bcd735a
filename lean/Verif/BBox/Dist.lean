import Verif.BBox.Props

/-!
# C15, C17 (sample points), C18: box distances and caches
-/

namespace Volmdlr

/-! ## C15 -/

/-- Specification: `d` is the minimum of the distances between a point of `a` and a point of `b`. -/
def Rect.IsMinDist (a b : Rect ℝ) (d : ℝ) : Prop :=
  (∃ p q, a.Mem p ∧ b.Mem q ∧ V2.norm (p - q) = d) ∧ ∀ p q, a.Mem p → b.Mem q → d ≤ V2.norm (p - q)
/-- Specification: `d` is the minimum of the distances between a point of `a` and a point of `b`. -/
def Box3.IsMinDist (a b : Box3 ℝ) (d : ℝ) : Prop :=
  (∃ p q, a.Mem p ∧ b.Mem q ∧ V3.norm (p - q) = d) ∧ ∀ p q, a.Mem p → b.Mem q → d ≤ V3.norm (p - q)

/-- Gap between two intervals. -/
noncomputable def gap (l u l' u' : ℝ) : ℝ := max (max (l' - u) (l - u')) 0

theorem gap_eq_ite {l u l' u' : ℝ} (h : l ≤ u) (h' : l' ≤ u') :
    gap l u l' u' = if l' < l then max (l - u') 0 else max (l' - u) 0 := by
  unfold gap
  split
  · rename_i hlt
    rcases le_total (l' - u) (l - u') with hh | hh
    · rw [max_eq_right hh]
    · rw [max_eq_left hh, max_eq_right (by linarith), max_eq_right (by linarith)]
  · rename_i hlt
    push Not at hlt
    rcases le_total (l' - u) (l - u') with hh | hh
    · rw [max_eq_right hh, max_eq_right (by linarith), max_eq_right (by linarith)]
    · rw [max_eq_left hh]

theorem gap_attained {l u l' u' : ℝ} (h : l ≤ u) (h' : l' ≤ u') :
    ∃ x y, l ≤ x ∧ x ≤ u ∧ l' ≤ y ∧ y ≤ u' ∧ (x - y) ^ 2 = gap l u l' u' ^ 2 := by
  unfold gap
  by_cases c1 : u < l'
  · refine ⟨u, l', h, le_rfl, le_rfl, h', ?_⟩
    rw [max_eq_left (by linarith : l - u' ≤ l' - u), max_eq_left (by linarith)]; ring
  · by_cases c2 : u' < l
    · refine ⟨l, u', le_rfl, h, h', le_rfl, ?_⟩
      rw [max_eq_right (by linarith : l' - u ≤ l - u'), max_eq_left (by linarith)]
    · obtain ⟨x, a1, a2, a3, a4⟩ := interval_meet h h' (not_lt.1 c1) (not_lt.1 c2)
      refine ⟨x, x, a1, a2, a3, a4, ?_⟩
      rw [max_eq_right (max_le (by linarith) (by linarith))]; ring

theorem gap_le {l u l' u' x y : ℝ} (h1 : l ≤ x) (h2 : x ≤ u) (h3 : l' ≤ y) (h4 : y ≤ u') :
    gap l u l' u' ^ 2 ≤ (x - y) ^ 2 := by
  have : gap l u l' u' ≤ |x - y| := by
    unfold gap
    have := neg_abs_le (x - y)
    have := le_abs_self (x - y)
    exact max_le (max_le (by linarith) (by linarith)) (abs_nonneg _)
  have h0 : 0 ≤ gap l u l' u' := le_max_right _ _
  rw [← sq_abs (x - y)]
  nlinarith

theorem V2.norm_sub_eq (p q : V2 ℝ) : V2.norm (p - q) = Real.sqrt ((p.x - q.x) ^ 2 + (p.y - q.y) ^ 2) := by
  unfold V2.norm; congr 1; simp only [V2.sub_x, V2.sub_y]; ring
theorem V3.norm_sub_eq (p q : V3 ℝ) :
    V3.norm (p - q) = Real.sqrt ((p.x - q.x) ^ 2 + (p.y - q.y) ^ 2 + (p.z - q.z) ^ 2) := by
  unfold V3.norm; congr 1; simp only [V3.sub_x, V3.sub_y, V3.sub_z]; ring

theorem Rect.isMinDist_gap (a b : Rect ℝ) (ha : a.Valid) (hb : b.Valid) :
    a.IsMinDist b (Real.sqrt (gap a.xmin a.xmax b.xmin b.xmax ^ 2 + gap a.ymin a.ymax b.ymin b.ymax ^ 2)) := by
  constructor
  · obtain ⟨x, x', a1, a2, a3, a4, a5⟩ := gap_attained ha.1 hb.1
    obtain ⟨y, y', b1, b2, b3, b4, b5⟩ := gap_attained ha.2 hb.2
    refine ⟨⟨x, y⟩, ⟨x', y'⟩, ⟨a1, a2, b1, b2⟩, ⟨a3, a4, b3, b4⟩, ?_⟩
    rw [V2.norm_sub_eq, a5, b5]
  · rintro p q ⟨a1, a2, a3, a4⟩ ⟨b1, b2, b3, b4⟩
    rw [V2.norm_sub_eq]
    exact Real.sqrt_le_sqrt (add_le_add (gap_le a1 a2 b1 b2) (gap_le a3 a4 b3 b4))
theorem Box3.isMinDist_gap (a b : Box3 ℝ) (ha : a.Valid) (hb : b.Valid) :
    a.IsMinDist b (Real.sqrt (gap a.xmin a.xmax b.xmin b.xmax ^ 2 + gap a.ymin a.ymax b.ymin b.ymax ^ 2 +
      gap a.zmin a.zmax b.zmin b.zmax ^ 2)) := by
  constructor
  · obtain ⟨x, x', a1, a2, a3, a4, a5⟩ := gap_attained ha.1 hb.1
    obtain ⟨y, y', b1, b2, b3, b4, b5⟩ := gap_attained ha.2.1 hb.2.1
    obtain ⟨z, z', c1, c2, c3, c4, c5⟩ := gap_attained ha.2.2 hb.2.2
    refine ⟨⟨x, y, z⟩, ⟨x', y', z'⟩, ⟨a1, a2, b1, b2, c1, c2⟩, ⟨a3, a4, b3, b4, c3, c4⟩, ?_⟩
    rw [V3.norm_sub_eq, a5, b5, c5]
  · rintro p q ⟨a1, a2, a3, a4, a5, a6⟩ ⟨b1, b2, b3, b4, b5, b6⟩
    rw [V3.norm_sub_eq]
    exact Real.sqrt_le_sqrt (add_le_add (add_le_add (gap_le a1 a2 b1 b2) (gap_le a3 a4 b3 b4)) (gap_le a5 a6 b5 b6))

theorem gap_swap (l u l' u' : ℝ) : gap l u l' u' = gap l' u' l u := by
  unfold gap; rw [max_comm (l' - u)]

/-- **C15** `BoundingRectangle.distance_to_b_rectangle` is the minimum distance between the two
rectangles (0 when they meet). -/
theorem C15_rect_distance (a b : Rect ℝ) (ha : a.Valid) (hb : b.Valid) :
    a.IsMinDist b (a.distanceToBRectangle b) := by
  have h := Rect.isMinDist_gap a b ha hb
  have hgoal : a.distanceToBRectangle b =
      Real.sqrt (gap a.xmin a.xmax b.xmin b.xmax ^ 2 + gap a.ymin a.ymax b.ymin b.ymax ^ 2) := by
    unfold Rect.distanceToBRectangle
    split
    · rename_i hi
      simp only [Rect.isIntersecting, Bool.and_eq_true, decide_eq_true_eq] at hi
      obtain ⟨⟨⟨h1, h2⟩, h3⟩, h4⟩ := hi
      have e1 : gap a.xmin a.xmax b.xmin b.xmax = 0 := max_eq_right (max_le (by linarith) (by linarith))
      have e2 : gap a.ymin a.ymax b.ymin b.ymax = 0 := max_eq_right (max_le (by linarith) (by linarith))
      simp [e1, e2]
    · by_cases c : b.xmin < a.xmin
      · dsimp only
        rw [if_pos c, gap_eq_ite ha.1 hb.1, if_pos c, gap_swap a.ymin, gap_eq_ite hb.2 ha.2]
        split <;> rfl
      · dsimp only
        rw [if_neg c, gap_eq_ite ha.1 hb.1, if_neg c, gap_eq_ite ha.2 hb.2]
        split <;> rfl
  rw [hgoal]; exact h
example : (⟨0, 1, 0, 1⟩ : Rect ℝ).Valid ∧ (⟨4, 5, 5, 6⟩ : Rect ℝ).Valid := by
  unfold Rect.Valid; norm_num

theorem Box3.distance_eq_gap (a b : Box3 ℝ) (ha : a.Valid) (hb : b.Valid) (h : a.isIntersecting b = false) :
    a.distanceToBbox b = Real.sqrt (gap a.xmin a.xmax b.xmin b.xmax ^ 2 + gap a.ymin a.ymax b.ymin b.ymax ^ 2 +
      gap a.zmin a.zmax b.zmin b.zmax ^ 2) := by
  unfold Box3.distanceToBbox
  rw [if_neg (by rw [h]; simp)]
  dsimp only
  by_cases c : b.xmin < a.xmin
  · rw [if_pos c, gap_eq_ite ha.1 hb.1, if_pos c]
    by_cases d : a.ymin < b.ymin
    · simp only [d, if_true]
      rw [gap_swap a.ymin, gap_eq_ite hb.2.1 ha.2.1, if_pos d, gap_eq_ite ha.2.2 hb.2.2]
      split <;> rfl
    · simp only [d, if_false]
      rw [gap_swap a.ymin, gap_eq_ite hb.2.1 ha.2.1, if_neg d, gap_swap a.zmin, gap_eq_ite hb.2.2 ha.2.2]
      split <;> rfl
  · rw [if_neg c, gap_eq_ite ha.1 hb.1, if_neg c]
    by_cases d : b.ymin < a.ymin
    · simp only [d, if_true]
      rw [gap_eq_ite ha.2.1 hb.2.1, if_pos d, gap_swap a.zmin, gap_eq_ite hb.2.2 ha.2.2]
      split <;> rfl
    · simp only [d, if_false]
      rw [gap_eq_ite ha.2.1 hb.2.1, if_neg d, gap_eq_ite ha.2.2 hb.2.2]
      split <;> rfl

/-- **C15** full statement for `distance_to_bbox`. -/
def C15_bbox_full_statement : Prop :=
  ∀ a b : Box3 ℝ, a.Valid → b.Valid → a.IsMinDist b (a.distanceToBbox b)

/-- **C15** the tolerance of `is_intersecting` (`1e-6` on both boxes) breaks exactness: two boxes
`10⁻⁶` apart are reported at distance 0. -/
theorem C15_bbox_counterexample : ¬ C15_bbox_full_statement := by
  intro h
  have hv : (⟨0, 1, 0, 1, 0, 1⟩ : Box3 ℝ).Valid := by unfold Box3.Valid; norm_num
  have hv' : (⟨1 + 1 / 10 ^ 6, 2, 0, 1, 0, 1⟩ : Box3 ℝ).Valid := by unfold Box3.Valid; norm_num
  obtain ⟨⟨p, q, hp, hq, hd⟩, -⟩ := h ⟨0, 1, 0, 1, 0, 1⟩ ⟨1 + 1 / 10 ^ 6, 2, 0, 1, 0, 1⟩ hv hv'
  have hi : (⟨0, 1, 0, 1, 0, 1⟩ : Box3 ℝ).isIntersecting ⟨1 + 1 / 10 ^ 6, 2, 0, 1, 0, 1⟩ = true := by
    rw [Box3.isIntersecting_iff]; norm_num
  unfold Box3.distanceToBbox at hd
  rw [if_pos hi, V3.norm_eq_zero_iff] at hd
  have hx := congrArg V3.x hd
  simp only [V3.sub_x] at hx
  have h1 := hp.2.1
  have h2 := hq.1
  norm_num at h1 h2
  linarith

/-- **C15** `distance_to_bbox`: exact for boxes that share a point or that `is_intersecting` reports
apart; in the remaining case (apart by less than the tolerance) 0 is returned and the true minimum is
at most `4·10⁻⁶`. -/
theorem C15_bbox_distance_partial (a b : Box3 ℝ) (ha : a.Valid) (hb : b.Valid) :
    (a.isIntersecting b = false → a.IsMinDist b (a.distanceToBbox b)) ∧
    ((∃ p, a.Mem p ∧ b.Mem p) → a.distanceToBbox b = 0 ∧ a.IsMinDist b 0) ∧
    (∃ d, a.IsMinDist b d ∧ a.distanceToBbox b ≤ d ∧ d ≤ a.distanceToBbox b + 4 / 10 ^ 6) := by
  have hmin := Box3.isMinDist_gap a b ha hb
  refine ⟨?_, ?_, ?_⟩
  · intro h
    rw [Box3.distance_eq_gap a b ha hb h]; exact hmin
  · rintro ⟨p, hp, hq⟩
    have h0 : a.isIntersecting b = true :=
      C16_isIntersecting_mono a b 0 _ (by positivity) (((C16_isIntersecting a b ha hb 0 le_rfl).2.1).2 ⟨p, hp, hq⟩)
    refine ⟨by unfold Box3.distanceToBbox; rw [if_pos h0], ⟨p, p, hp, hq, ?_⟩, fun p q _ _ => V3.norm_nonneg _⟩
    rw [V3.norm_eq_zero_iff]; ext <;> simp
  · refine ⟨_, hmin, ?_⟩
    cases h : a.isIntersecting b with
    | false =>
      rw [Box3.distance_eq_gap a b ha hb h]
      exact ⟨le_rfl, by linarith [show (0 : ℝ) ≤ 4 / 10 ^ 6 by positivity]⟩
    | true =>
      have e : a.distanceToBbox b = 0 := by unfold Box3.distanceToBbox; rw [if_pos h]
      rw [e]
      refine ⟨Real.sqrt_nonneg _, ?_⟩
      rw [Box3.isIntersecting_iff] at h
      obtain ⟨⟨h1, h2⟩, ⟨h3, h4⟩, ⟨h5, h6⟩⟩ := h
      have bound : ∀ {l u l' u' : ℝ}, l' - 1 / 10 ^ 6 ≤ u + 1 / 10 ^ 6 → l - 1 / 10 ^ 6 ≤ u' + 1 / 10 ^ 6 →
          gap l u l' u' ^ 2 ≤ (2 / 10 ^ 6) ^ 2 := by
        intro l u l' u' k1 k2
        have : gap l u l' u' ≤ 2 / 10 ^ 6 := max_le (max_le (by linarith) (by linarith)) (by positivity)
        have h0 : 0 ≤ gap l u l' u' := le_max_right _ _
        nlinarith
      rw [zero_add]
      apply Real.sqrt_le_iff.2 ⟨by positivity, ?_⟩
      have := bound h1 h2
      have := bound h3 h4
      have := bound h5 h6
      nlinarith
example : (⟨0, 1, 0, 1, 0, 1⟩ : Box3 ℚ).isIntersecting ⟨4, 5, 5, 6, 0, 1⟩ = false := by decide +kernel

/-- Specification: the boundary of a box. -/
def Box3.Boundary (b : Box3 ℝ) (q : V3 ℝ) : Prop :=
  b.Mem q ∧ (q.x = b.xmin ∨ q.x = b.xmax ∨ q.y = b.ymin ∨ q.y = b.ymax ∨ q.z = b.zmin ∨ q.z = b.zmax)

theorem clamp_gap {l u x : ℝ} (h : l ≤ u) :
    (if x < l then l - x else if u < x then x - u else 0) = gap l u x x := by
  unfold gap
  split
  · rw [max_eq_right (by linarith : x - u ≤ l - x), max_eq_left (by linarith)]
  · split
    · rw [max_eq_left (by linarith : l - x ≤ x - u), max_eq_left (by linarith)]
    · rw [max_eq_right (max_le (by linarith) (by linarith))]

/-- **C15** `BoundingBox.distance_to_point`: for a point that `point_belongs` reports outside it is the
minimum distance to a point of the box; for a point of the box it is the distance to its *boundary*. -/
theorem C15_box_point_partial (b : Box3 ℝ) (hb : b.Valid) (p : V3 ℝ) :
    (b.pointBelongs p = false →
      (∃ q, b.Mem q ∧ V3.norm (q - p) = b.distanceToPoint p) ∧
      ∀ q, b.Mem q → b.distanceToPoint p ≤ V3.norm (q - p)) ∧
    (b.Mem p →
      (∃ q, b.Boundary q ∧ V3.norm (q - p) = b.distanceToPoint p) ∧
      ∀ q, b.Boundary q → b.distanceToPoint p ≤ V3.norm (q - p)) := by
  constructor
  · intro h
    have hm := Box3.isMinDist_gap b ⟨p.x, p.x, p.y, p.y, p.z, p.z⟩ hb ⟨le_rfl, le_rfl, le_rfl⟩
    have e : b.distanceToPoint p = Real.sqrt (gap b.xmin b.xmax p.x p.x ^ 2 + gap b.ymin b.ymax p.y p.y ^ 2 +
        gap b.zmin b.zmax p.z p.z ^ 2) := by
      unfold Box3.distanceToPoint
      rw [if_neg (by rw [h]; simp)]
      dsimp only
      rw [clamp_gap hb.1, clamp_gap hb.2.1, clamp_gap hb.2.2]
    rw [e]
    have hpm : ∀ q, (⟨p.x, p.x, p.y, p.y, p.z, p.z⟩ : Box3 ℝ).Mem q ↔ q = p := by
      intro q
      constructor
      · rintro ⟨h1, h2, h3, h4, h5, h6⟩
        ext
        · exact le_antisymm h2 h1
        · exact le_antisymm h4 h3
        · exact le_antisymm h6 h5
      · rintro rfl; exact ⟨le_rfl, le_rfl, le_rfl, le_rfl, le_rfl, le_rfl⟩
    obtain ⟨⟨q, p', hq, hp', hd⟩, hl⟩ := hm
    rw [hpm] at hp'
    subst hp'
    exact ⟨⟨q, hq, hd⟩, fun q hq => hl q p' hq ((hpm p').2 rfl)⟩
  · rintro ⟨h1, h2, h3, h4, h5, h6⟩
    have hbel : b.pointBelongs p = true := by
      have ht : (0 : ℝ) ≤ 1 / 10 ^ 6 := by positivity
      simp only [Box3.pointBelongs, Bool.and_eq_true, decide_eq_true_eq, and_assoc]
      exact ⟨by linarith, by linarith, by linarith, by linarith, by linarith, by linarith⟩
    have e : b.distanceToPoint p = min (min (min (min (min (b.xmax - p.x) (p.x - b.xmin)) (b.ymax - p.y))
        (p.y - b.ymin)) (b.zmax - p.z)) (p.z - b.zmin) := by
      unfold Box3.distanceToPoint; rw [if_pos hbel]
    have ax : ∀ t : ℝ, 0 ≤ t → ∀ x y z : ℝ, x ^ 2 + y ^ 2 + z ^ 2 = t ^ 2 → Real.sqrt (x ^ 2 + y ^ 2 + z ^ 2) = t := by
      intro t ht x y z h; rw [h]; exact Real.sqrt_sq ht
    constructor
    · rw [e]
      have key : ∀ (m : ℝ), (m = b.xmax - p.x ∨ m = p.x - b.xmin ∨ m = b.ymax - p.y ∨ m = p.y - b.ymin ∨
          m = b.zmax - p.z ∨ m = p.z - b.zmin) → ∃ q, b.Boundary q ∧ V3.norm (q - p) = m := by
        rintro m (rfl | rfl | rfl | rfl | rfl | rfl)
        · exact ⟨⟨b.xmax, p.y, p.z⟩, ⟨⟨hb.1, le_rfl, h3, h4, h5, h6⟩, by simp⟩, by
            rw [V3.norm_sub_eq]; apply ax _ (by linarith); dsimp only; ring⟩
        · exact ⟨⟨b.xmin, p.y, p.z⟩, ⟨⟨le_rfl, hb.1, h3, h4, h5, h6⟩, by simp⟩, by
            rw [V3.norm_sub_eq]; apply ax _ (by linarith); dsimp only; ring⟩
        · exact ⟨⟨p.x, b.ymax, p.z⟩, ⟨⟨h1, h2, hb.2.1, le_rfl, h5, h6⟩, by simp⟩, by
            rw [V3.norm_sub_eq]; apply ax _ (by linarith); dsimp only; ring⟩
        · exact ⟨⟨p.x, b.ymin, p.z⟩, ⟨⟨h1, h2, le_rfl, hb.2.1, h5, h6⟩, by simp⟩, by
            rw [V3.norm_sub_eq]; apply ax _ (by linarith); dsimp only; ring⟩
        · exact ⟨⟨p.x, p.y, b.zmax⟩, ⟨⟨h1, h2, h3, h4, hb.2.2, le_rfl⟩, by simp⟩, by
            rw [V3.norm_sub_eq]; apply ax _ (by linarith); dsimp only; ring⟩
        · exact ⟨⟨p.x, p.y, b.zmin⟩, ⟨⟨h1, h2, h3, h4, le_rfl, hb.2.2⟩, by simp⟩, by
            rw [V3.norm_sub_eq]; apply ax _ (by linarith); dsimp only; ring⟩
      apply key
      rcases min_choice (min (min (min (min (b.xmax - p.x) (p.x - b.xmin)) (b.ymax - p.y)) (p.y - b.ymin)) (b.zmax - p.z)) (p.z - b.zmin) with h | h
      · rw [h]
        rcases min_choice (min (min (min (b.xmax - p.x) (p.x - b.xmin)) (b.ymax - p.y)) (p.y - b.ymin)) (b.zmax - p.z) with h | h
        · rw [h]
          rcases min_choice (min (min (b.xmax - p.x) (p.x - b.xmin)) (b.ymax - p.y)) (p.y - b.ymin) with h | h
          · rw [h]
            rcases min_choice (min (b.xmax - p.x) (p.x - b.xmin)) (b.ymax - p.y) with h | h
            · rw [h]
              rcases min_choice (b.xmax - p.x) (p.x - b.xmin) with h | h <;> rw [h] <;> simp
            · rw [h]; simp
          · rw [h]; simp
        · rw [h]; simp
      · rw [h]; simp
    · rintro q ⟨-, hq⟩
      rw [e, V3.norm_sub_eq]
      have hx : |q.x - p.x| ≤ Real.sqrt ((q.x - p.x) ^ 2 + (q.y - p.y) ^ 2 + (q.z - p.z) ^ 2) :=
        Real.abs_le_sqrt (by nlinarith [sq_nonneg (q.y - p.y), sq_nonneg (q.z - p.z)])
      have hy : |q.y - p.y| ≤ Real.sqrt ((q.x - p.x) ^ 2 + (q.y - p.y) ^ 2 + (q.z - p.z) ^ 2) :=
        Real.abs_le_sqrt (by nlinarith [sq_nonneg (q.x - p.x), sq_nonneg (q.z - p.z)])
      have hz : |q.z - p.z| ≤ Real.sqrt ((q.x - p.x) ^ 2 + (q.y - p.y) ^ 2 + (q.z - p.z) ^ 2) :=
        Real.abs_le_sqrt (by nlinarith [sq_nonneg (q.x - p.x), sq_nonneg (q.y - p.y)])
      have l1 := le_abs_self (q.x - p.x); have l2 := neg_le_abs (q.x - p.x)
      have l3 := le_abs_self (q.y - p.y); have l4 := neg_le_abs (q.y - p.y)
      have l5 := le_abs_self (q.z - p.z); have l6 := neg_le_abs (q.z - p.z)
      simp only [min_le_iff]
      rcases hq with hq | hq | hq | hq | hq | hq
      · left; left; left; left; right; linarith
      · left; left; left; left; left; linarith
      · left; left; right; linarith
      · left; left; left; right; linarith
      · right; linarith
      · left; right; linarith

/-- **C15** full statement for `BoundingBox.distance_to_point` as documented ("minimum Euclidean distance
between the bounding box and a point"). -/
def C15_box_point_full_statement : Prop := ∀ (b : Box3 ℝ) (p : V3 ℝ), b.Valid →
  (∃ q, b.Mem q ∧ V3.norm (q - p) = b.distanceToPoint p) ∧ ∀ q, b.Mem q → b.distanceToPoint p ≤ V3.norm (q - p)
/-- **C15** it is false: the centre of a cube is reported at a positive distance, and a point just
outside a face at a *negative* distance. -/
theorem C15_box_point_counterexample : ¬ C15_box_point_full_statement ∧
    (⟨0, 1, 0, 1, 0, 1⟩ : Box3 ℝ).distanceToPoint ⟨1 + 1 / 10 ^ 7, 1 / 2, 1 / 2⟩ < 0 := by
  constructor
  · intro h
    have hv : (⟨0, 2, 0, 2, 0, 2⟩ : Box3 ℝ).Valid := by unfold Box3.Valid; norm_num
    have := (h ⟨0, 2, 0, 2, 0, 2⟩ ⟨1, 1, 1⟩ hv).2 ⟨1, 1, 1⟩ (by unfold Box3.Mem; norm_num)
    have e : (⟨0, 2, 0, 2, 0, 2⟩ : Box3 ℝ).distanceToPoint ⟨1, 1, 1⟩ = 1 := by
      unfold Box3.distanceToPoint
      rw [if_pos (by simp only [Box3.pointBelongs]; norm_num)]
      norm_num
    rw [e, V3.norm_sub_eq] at this
    norm_num at this
  · unfold Box3.distanceToPoint
    rw [if_pos (by simp only [Box3.pointBelongs]; norm_num)]
    dsimp only
    norm_num

/-- **C15** `BoundingRectangle.distance_to_point`: minimum distance for points not strictly inside. -/
theorem C15_rect_point_partial (r : Rect ℝ) (hr : r.Valid) (p : V2 ℝ) (h : r.pointBelongs p = false) :
    (∃ q, r.Mem q ∧ V2.norm (q - p) = r.distanceToPoint p) ∧
    ∀ q, r.Mem q → r.distanceToPoint p ≤ V2.norm (q - p) := by
  have hm := Rect.isMinDist_gap r ⟨p.x, p.x, p.y, p.y⟩ hr ⟨le_rfl, le_rfl⟩
  have e : r.distanceToPoint p = Real.sqrt (gap r.xmin r.xmax p.x p.x ^ 2 + gap r.ymin r.ymax p.y p.y ^ 2) := by
    unfold Rect.distanceToPoint
    rw [if_neg (by rw [h]; simp)]
    dsimp only
    rw [clamp_gap hr.1, clamp_gap hr.2]
  rw [e]
  have hpm : ∀ q, (⟨p.x, p.x, p.y, p.y⟩ : Rect ℝ).Mem q ↔ q = p := by
    intro q
    constructor
    · rintro ⟨h1, h2, h3, h4⟩
      ext
      · exact le_antisymm h2 h1
      · exact le_antisymm h4 h3
    · rintro rfl; exact ⟨le_rfl, le_rfl, le_rfl, le_rfl⟩
  obtain ⟨⟨q, p', hq, hp', hd⟩, hl⟩ := hm
  rw [hpm] at hp'
  subst hp'
  exact ⟨⟨q, hq, hd⟩, fun q hq => hl q p' hq ((hpm p').2 rfl)⟩
example : (⟨0, 1, 0, 1⟩ : Rect ℚ).pointBelongs ⟨4, 5⟩ = false := by decide +kernel

/-- **C15** inside, `BoundingRectangle.distance_to_point` is not even the distance to the boundary:
line 505 subtracts `xmin` from `point.y`, and the result can be negative. -/
theorem C15_rect_point_counterexample :
    (⟨10, 20, 0, 8⟩ : Rect ℝ).distanceToPoint ⟨15, 4⟩ = -6 := by
  unfold Rect.distanceToPoint
  rw [if_pos (by simp only [Rect.pointBelongs]; norm_num)]
  norm_num

/-! ## C17 sample points -/
section
variable {K : Type*} [Field K] [LinearOrder K] [IsStrictOrderedRing K]
/-- **C17** `get_points_inside_bbox nx ny nz` gives `nx·ny·nz` points, all of them in the box. -/
theorem C17_points_inside (b : Box3 K) (hb : b.Valid) (nx ny nz : ℕ) :
    (b.getPointsInsideBbox nx ny nz).length = nx * ny * nz ∧
    ∀ p ∈ b.getPointsInsideBbox nx ny nz, b.Mem p := by
  constructor
  · simp [Box3.getPointsInsideBbox, List.length_flatMap]; ring
  · intro p hp
    simp only [Box3.getPointsInsideBbox, List.mem_flatMap, List.mem_map, List.mem_range] at hp
    obtain ⟨k, hk, j, hj, i, hi, rfl⟩ := hp
    have axis : ∀ (l u : K) (n i : ℕ), l ≤ u → i < n →
        l ≤ 1 / 2 * (l + u) + -((u - l) / 2 - (u - l) / n / 2) + (i : K) * ((u - l) / n) ∧
        1 / 2 * (l + u) + -((u - l) / 2 - (u - l) / n / 2) + (i : K) * ((u - l) / n) ≤ u := by
      intro l u n i hlu hin
      have hn : (0 : K) < n := by exact_mod_cast (Nat.zero_lt_of_lt hin)
      have hin' : (i : K) + 1 ≤ n := by exact_mod_cast hin
      have hi0 : (0 : K) ≤ i := Nat.cast_nonneg i
      obtain ⟨s, hs⟩ : ∃ s, s = (u - l) / n := ⟨_, rfl⟩
      have hs' : u - l = s * n := by rw [hs]; field_simp
      have hs0 : 0 ≤ s := by rw [hs]; exact div_nonneg (by linarith) hn.le
      rw [← hs]
      constructor <;> nlinarith
    obtain ⟨a1, a2⟩ := axis b.xmin b.xmax nx i hb.1 hi
    obtain ⟨a3, a4⟩ := axis b.ymin b.ymax ny j hb.2.1 hj
    obtain ⟨a5, a6⟩ := axis b.zmin b.zmax nz k hb.2.2 hk
    exact ⟨a1, a2, a3, a4, a5, a6⟩
example : ((⟨0, 2, 0, 4, -1, 1⟩ : Box3 ℚ).getPointsInsideBbox 2 3 4).length = 24 := by decide
end

/-! ## C18 caches -/
section
variable {K : Type*} [Field K] [LinearOrder K]

/-- Specification: an answer is right for the box as it is at that moment. -/
def BoxOut.Fresh (b : Box3 K) : BoxOut K → Prop
  | .none => True
  | .size s => s = b.size
  | .octree l => l = b.octree
  | .volume v => v = b.volume

/-- **C18** full statement for `BoundingBox.size/octree`: every answer of every history is the value
computed from the coordinates at that moment. -/
def C18_box_full_statement : Prop :=
  ∀ (b : Box3 ℚ) (ops : List (BoxOp ℚ)), ∀ a ∈ (BoxObj.new b).run ops, a.2.Fresh a.1

/-- **C18** false: after `bbox.xmax = 5` the cached `size` (and `octree`) is stale. -/
theorem C18_box_counterexample : ¬ C18_box_full_statement := by
  intro h
  have := h ⟨0, 1, 0, 1, 0, 1⟩ [.readSize, .assign ⟨0, 5, 0, 1, 0, 1⟩, .readSize]
    (⟨0, 5, 0, 1, 0, 1⟩, .size ⟨1, 1, 1⟩) (by simp [BoxObj.run, BoxObj.step, BoxObj.new, Box3.size])
  simp [BoxOut.Fresh, Box3.size] at this
end

section
variable {K : Type*} [Field K] [LinearOrder K] [IsStrictOrderedRing K]

theorem box_of_center_size (b : Box3 K) :
    (⟨b.center.x - b.size.x / 2, b.center.x + b.size.x / 2, b.center.y - b.size.y / 2, b.center.y + b.size.y / 2,
      b.center.z - b.size.z / 2, b.center.z + b.size.z / 2⟩ : Box3 K) = b := by
  ext <;> simp [Box3.center, Box3.size] <;> ring

/-- **C18** the true part: along a history in which the coordinates are assigned only before the first
read of a cached value, every answer is fresh. -/
theorem C18_box_partial (b : Box3 K) (assigns reads : List (BoxOp K))
    (h1 : ∀ op ∈ assigns, (∃ c, op = .assign c) ∨ op = .readVolume)
    (h2 : ∀ op ∈ reads, op = .readSize ∨ op = .readOctree ∨ op = .readVolume) :
    ∀ a ∈ (BoxObj.new b).run (assigns ++ reads), a.2.Fresh a.1 := by
  have part2 : ∀ (reads : List (BoxOp K)) (o : BoxObj K),
      (∀ op ∈ reads, op = .readSize ∨ op = .readOctree ∨ op = .readVolume) →
      (∀ s, o.size = some s → s = o.box.size) → (∀ l, o.octree = some l → l = o.box.octree) →
      ∀ a ∈ o.run reads, a.2.Fresh a.1 := by
    intro reads
    induction reads with
    | nil => intro o _ _ _ a ha; simp [BoxObj.run] at ha
    | cons op ops ih =>
      intro o hops hs ho a ha
      have hrest : ∀ op ∈ ops, op = .readSize ∨ op = .readOctree ∨ op = .readVolume :=
        fun p hp => hops p (List.mem_cons_of_mem _ hp)
      rw [BoxObj.run, List.mem_cons] at ha
      rcases hops op List.mem_cons_self with rfl | rfl | rfl
      · cases hsz : o.size with
        | some s =>
          rcases ha with rfl | ha
          · simp [BoxObj.step, hsz, BoxOut.Fresh, hs s hsz]
          · exact ih (o.step .readSize).1 hrest (by simpa [BoxObj.step, hsz] using hs s hsz)
              (by simpa [BoxObj.step, hsz] using ho) a ha
        | none =>
          rcases ha with rfl | ha
          · simp [BoxObj.step, hsz, BoxOut.Fresh]
          · exact ih (o.step .readSize).1 hrest (by simp [BoxObj.step, hsz])
              (by simpa [BoxObj.step, hsz] using ho) a ha
      · cases hoc : o.octree with
        | some l =>
          rcases ha with rfl | ha
          · simp [BoxObj.step, hoc, BoxOut.Fresh, ho l hoc]
          · exact ih (o.step .readOctree).1 hrest (by simpa [BoxObj.step, hoc] using hs)
              (by simpa [BoxObj.step, hoc] using ho l hoc) a ha
        | none =>
          have hval : o.size.getD o.box.size = o.box.size := by
            cases hsz : o.size with
            | some s => exact hs s hsz
            | none => rfl
          rcases ha with rfl | ha
          · simp only [BoxObj.step, hoc, BoxOut.Fresh, hval, box_of_center_size]
          · refine ih (o.step .readOctree).1 hrest ?_ ?_ a ha
            · intro s; simp only [BoxObj.step, hoc, hval, Option.some.injEq]; exact fun h => h.symm
            · intro l; simp only [BoxObj.step, hoc, hval, Option.some.injEq, box_of_center_size]; exact fun h => h.symm
      · rcases ha with rfl | ha
        · simp [BoxObj.step, BoxOut.Fresh]
        · exact ih (o.step .readVolume).1 hrest (by simpa [BoxObj.step] using hs) (by simpa [BoxObj.step] using ho) a ha
  have part1 : ∀ (assigns : List (BoxOp K)) (o : BoxObj K), (∀ op ∈ assigns, (∃ c, op = .assign c) ∨ op = .readVolume) →
      o.size = none → o.octree = none → ∀ a ∈ o.run (assigns ++ reads), a.2.Fresh a.1 := by
    intro assigns
    induction assigns with
    | nil =>
      intro o _ hs ho a ha
      exact part2 reads o h2 (by simp [hs]) (by simp [ho]) a ha
    | cons op ops ih =>
      intro o hops hs ho a ha
      rw [List.cons_append, BoxObj.run, List.mem_cons] at ha
      rcases hops op List.mem_cons_self with ⟨c, rfl⟩ | rfl
      · rcases ha with rfl | ha
        · simp [BoxObj.step, BoxOut.Fresh]
        · exact ih _ (fun p hp => hops p (List.mem_cons_of_mem _ hp)) (by simpa [BoxObj.step] using hs)
            (by simpa [BoxObj.step] using ho) a ha
      · rcases ha with rfl | ha
        · simp [BoxObj.step, BoxOut.Fresh]
        · exact ih _ (fun p hp => hops p (List.mem_cons_of_mem _ hp)) (by simpa [BoxObj.step] using hs)
            (by simpa [BoxObj.step] using ho) a ha
  exact part1 assigns (BoxObj.new b) h1 rfl rfl
end

section
variable {K : Type*} [Field K] [LinearOrder K]
/-- Specification: the answer is the bounding box of the primitives at that moment. -/
def FreshBBox (a : List (Box3 K) × Option (Except PyErr (Box3 K))) : Prop :=
  ∀ r, a.2 = some r → r = Box3.fromBoundingBoxes a.1

/-- **C18** full statement for `VolumeModel.bounding_box`: every read along every history (without the
explicit setter, which may store anything) is the bounding box of the current primitives. -/
def C18_model_full_statement : Prop :=
  ∀ (l : List (Box3 ℚ)) (ops : List (ModelOp ℚ)), (∀ op ∈ ops, ∀ b, op ≠ .setBBox (some b)) →
    ∀ a ∈ (ModelObj.mk l none).run ops, FreshBBox a

/-- **C18** false: adding a primitive after the first read leaves the old box. -/
theorem C18_model_counterexample : ¬ C18_model_full_statement := by
  intro h
  have := h [⟨0, 1, 0, 1, 0, 1⟩] [.read, .setPrimitives [⟨0, 1, 0, 1, 0, 1⟩, ⟨5, 6, 0, 1, 0, 1⟩], .read]
    (by simp) ([⟨0, 1, 0, 1, 0, 1⟩, ⟨5, 6, 0, 1, 0, 1⟩], some (.ok ⟨0, 1, 0, 1, 0, 1⟩))
    (by simp [ModelObj.run, ModelObj.step, Box3.fromBoundingBoxes, listMin, listMax])
  have := this _ rfl
  simp [Box3.fromBoundingBoxes, listMin, listMax] at this

/-- Histories in which every change of the primitives is directly followed by a reset of the cache
(`model.bounding_box = None`). -/
inductive Disciplined : List (ModelOp K) → Prop
  | nil : Disciplined []
  | read {ops} : Disciplined ops → Disciplined (.read :: ops)
  | reset {ops} : Disciplined ops → Disciplined (.setBBox none :: ops)
  | change {ops} (l) : Disciplined ops → Disciplined (.setPrimitives l :: .setBBox none :: ops)

/-- **C18** the true part: along every history in which each change of the primitives is followed by
a reset, of any length, every read returns the box of the current primitives. -/
theorem C18_model_partial (l : List (Box3 K)) (ops : List (ModelOp K)) (h : Disciplined ops) :
    ∀ a ∈ (ModelObj.mk l none).run ops, FreshBBox a := by
  have gen : ∀ o : ModelObj K, (∀ b, o.bbox = some b → .ok b = Box3.fromBoundingBoxes o.primitives) →
      ∀ a ∈ o.run ops, FreshBBox a := by
    induction h with
    | nil => intro o _ a ha; simp [ModelObj.run] at ha
    | @read ops _ ih =>
      intro o ho a ha
      rw [ModelObj.run, List.mem_cons] at ha
      cases hb : o.bbox with
      | some b =>
        rcases ha with rfl | ha
        · intro r hr
          simp only [ModelObj.step, hb, Option.some.injEq] at hr
          rw [← hr]; exact ho b hb
        · exact ih (o.step .read).1 (by simpa [ModelObj.step, hb] using ho b hb) a ha
      | none =>
        cases hf : Box3.fromBoundingBoxes o.primitives with
        | ok b =>
          rcases ha with rfl | ha
          · intro r hr
            simp only [ModelObj.step, hb, hf, Option.some.injEq] at hr
            rw [← hr]; exact hf.symm
          · exact ih (o.step .read).1 (by simp [ModelObj.step, hb, hf]) a ha
        | error e =>
          rcases ha with rfl | ha
          · intro r hr
            simp only [ModelObj.step, hb, hf, Option.some.injEq] at hr
            rw [← hr]; exact hf.symm
          · exact ih (o.step .read).1 (by simp [ModelObj.step, hb, hf]) a ha
    | @reset ops _ ih =>
      intro o ho a ha
      rw [ModelObj.run, List.mem_cons] at ha
      rcases ha with rfl | ha
      · intro r hr; simp [ModelObj.step] at hr
      · exact ih (o.step (.setBBox none)).1 (by simp [ModelObj.step]) a ha
    | @change ops l _ ih =>
      intro o ho a ha
      rw [ModelObj.run, ModelObj.run, List.mem_cons, List.mem_cons] at ha
      rcases ha with rfl | rfl | ha
      · intro r hr; simp [ModelObj.step] at hr
      · intro r hr; simp [ModelObj.step] at hr
      · exact ih _ (by simp [ModelObj.step]) a ha
  exact gen ⟨l, none⟩ (by simp)
example : Disciplined ([.read, .setPrimitives [⟨0, 1, 0, 1, 0, 1⟩], .setBBox none, .read] : List (ModelOp ℚ)) :=
  .read (.change _ (.read .nil))
end

end Volmdlr
