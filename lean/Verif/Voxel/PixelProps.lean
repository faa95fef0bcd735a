import Verif.Voxel.VoxelizeModel
import Verif.Voxel.GridProps
import Mathlib.Tactic.Ring
import Mathlib.Tactic.FieldSimp
import Mathlib.Tactic.LinearCombination
import Mathlib.Data.Rat.Floor

/-!
# The pixels met by segments
-/

namespace Volmdlr
open Voxel

variable {K : Type} [Field K] [LinearOrder K] [IsStrictOrderedRing K]

/-! ## Specification -/

/-- **Specification.** The point is on the segment from `a` to `b`. -/
def OnSegment (a b p : K × K) : Prop := ∃ t, 0 ≤ t ∧ t ≤ 1 ∧ p = (a.1 + t * (b.1 - a.1), a.2 + t * (b.2 - a.2))

/-- **Specification.** The closed pixel of numbers `i`, `j` of the grid of pixels of the given size: its corner is
`(i * size, j * size)`. -/
def InPixel (size : K) (i j : ℤ) (p : K × K) : Prop :=
  (i * size ≤ p.1 ∧ p.1 ≤ (i + 1) * size) ∧ (j * size ≤ p.2 ∧ p.2 ≤ (j + 1) * size)

/-- **Specification.** The centre of a pixel. -/
def pixelCentre (size : K) (i j : ℤ) : K × K := ((i + 1 / 2) * size, (j + 1 / 2) * size)

namespace Voxel

/-! ## The test for one segment and one pixel -/

lemma miss_iff (e1 e2 e3 e4 : K) :
    ((0 ≤ e1 ∧ 0 ≤ e2 ∧ 0 ≤ e3 ∧ 0 ≤ e4 ∨ e1 < 0 ∧ e2 < 0 ∧ e3 < 0 ∧ e4 < 0) ∧
      (0 < e1 ∧ 0 < e2 ∧ 0 < e3 ∧ 0 < e4 ∨ e1 ≤ 0 ∧ e2 ≤ 0 ∧ e3 ≤ 0 ∧ e4 ≤ 0)) ↔
      (0 < e1 ∧ 0 < e2 ∧ 0 < e3 ∧ 0 < e4) ∨ (e1 < 0 ∧ e2 < 0 ∧ e3 < 0 ∧ e4 < 0) ∨ (e1 = 0 ∧ e2 = 0 ∧ e3 = 0 ∧ e4 = 0) := by
  constructor
  · rintro ⟨⟨a1, a2, a3, a4⟩ | ⟨a1, a2, a3, a4⟩, ⟨b1, b2, b3, b4⟩ | ⟨b1, b2, b3, b4⟩⟩
    · exact Or.inl ⟨b1, b2, b3, b4⟩
    · exact Or.inr (Or.inr ⟨le_antisymm b1 a1, le_antisymm b2 a2, le_antisymm b3 a3, le_antisymm b4 a4⟩)
    · exact absurd a1 b1.not_gt
    · exact Or.inr (Or.inl ⟨a1, a2, a3, a4⟩)
  · rintro (⟨a1, a2, a3, a4⟩ | ⟨a1, a2, a3, a4⟩ | ⟨a1, a2, a3, a4⟩)
    · exact ⟨Or.inl ⟨a1.le, a2.le, a3.le, a4.le⟩, Or.inl ⟨a1, a2, a3, a4⟩⟩
    · exact ⟨Or.inr ⟨a1, a2, a3, a4⟩, Or.inr ⟨a1.le, a2.le, a3.le, a4.le⟩⟩
    · exact ⟨Or.inl ⟨a1.ge, a2.ge, a3.ge, a4.ge⟩, Or.inr ⟨a1.le, a2.le, a3.le, a4.le⟩⟩

/-- The segment misses the box: all the corners are strictly on one side, or the segment is a point, or the box is not
in front of the segment. -/
lemma hit_iff (x1 y1 x2 y2 xmin xmax ymin ymax : K) :
    lineSegmentIntersectsPixel x1 y1 x2 y2 xmin xmax ymin ymax = true ↔
      let e : K → K → K := fun x y => (y2 - y1) * x + (x1 - x2) * y + (x2 * y1 - x1 * y2)
      ¬ (0 < e xmin ymin ∧ 0 < e xmin ymax ∧ 0 < e xmax ymin ∧ 0 < e xmax ymax) ∧
      ¬ (e xmin ymin < 0 ∧ e xmin ymax < 0 ∧ e xmax ymin < 0 ∧ e xmax ymax < 0) ∧
      ¬ (e xmin ymin = 0 ∧ e xmin ymax = 0 ∧ e xmax ymin = 0 ∧ e xmax ymax = 0) ∧
      ¬ (xmax < x1 ∧ xmax < x2) ∧ ¬ (x1 < xmin ∧ x2 < xmin) ∧ ¬ (ymax < y1 ∧ ymax < y2) ∧ ¬ (y1 < ymin ∧ y2 < ymin) := by
  unfold lineSegmentIntersectsPixel
  dsimp only
  generalize (y2 - y1) * xmin + (x1 - x2) * ymin + (x2 * y1 - x1 * y2) = e1
  generalize (y2 - y1) * xmin + (x1 - x2) * ymax + (x2 * y1 - x1 * y2) = e2
  generalize (y2 - y1) * xmax + (x1 - x2) * ymin + (x2 * y1 - x1 * y2) = e3
  generalize (y2 - y1) * xmax + (x1 - x2) * ymax + (x2 * y1 - x1 * y2) = e4
  have h := miss_iff e1 e2 e3 e4
  simp only [ge_iff_le, gt_iff_lt, Bool.not_eq_true', ← Bool.not_eq_true, Bool.or_eq_true, Bool.and_eq_true, decide_eq_true_eq]
  rw [h]
  simp only [not_or, and_assoc]

/-- Meeting the box, for the parameters of the segment. -/
def SegBox (x1 y1 x2 y2 xmin xmax ymin ymax : K) : Prop :=
  ∃ t, 0 ≤ t ∧ t ≤ 1 ∧ (xmin ≤ x1 + t * (x2 - x1) ∧ x1 + t * (x2 - x1) ≤ xmax) ∧
    (ymin ≤ y1 + t * (y2 - y1) ∧ y1 + t * (y2 - y1) ≤ ymax)

/-- Intervals of parameters. -/
lemma common_param {a b c d : K} (hab : a ≤ b) (hcd : c ≤ d) (ha : a ≤ 1) (hb : 0 ≤ b) (hc : c ≤ 1) (hd : 0 ≤ d) (hcb : c ≤ b)
    (had : a ≤ d) : ∃ t, 0 ≤ t ∧ t ≤ 1 ∧ (a ≤ t ∧ t ≤ b) ∧ (c ≤ t ∧ t ≤ d) :=
  ⟨max 0 (max a c), le_max_left _ _, max_le zero_le_one (max_le ha hc), ⟨le_trans (le_max_left _ _) (le_max_right _ _),
    max_le hb (max_le hab hcb)⟩, ⟨le_trans (le_max_right _ _) (le_max_right _ _), max_le hd (max_le had hcd)⟩⟩

/-- One coordinate: the parameters at which the coordinate is in the interval. -/
lemma param_interval {x1 x2 lo hi : K} (h : lo ≤ hi) (hn : x1 ≠ x2) (h1 : ¬ (hi < x1 ∧ hi < x2)) (h2 : ¬ (x1 < lo ∧ x2 < lo)) :
    ∃ a b, a ≤ b ∧ a ≤ 1 ∧ 0 ≤ b ∧ (∀ t, (lo ≤ x1 + t * (x2 - x1) ∧ x1 + t * (x2 - x1) ≤ hi) ↔ a ≤ t ∧ t ≤ b) ∧
      ((0 < x2 - x1 ∧ a * (x2 - x1) = lo - x1 ∧ b * (x2 - x1) = hi - x1) ∨
        (x2 - x1 < 0 ∧ a * (x2 - x1) = hi - x1 ∧ b * (x2 - x1) = lo - x1)) := by
  rcases lt_or_gt_of_ne hn with hlt | hgt
  · have hd : 0 < x2 - x1 := sub_pos.2 hlt
    refine ⟨(lo - x1) / (x2 - x1), (hi - x1) / (x2 - x1), by gcongr, ?_, ?_, fun t => ?_, Or.inl ⟨hd, ?_, ?_⟩⟩
    · rw [div_le_one hd]; by_contra hc; exact h2 ⟨by linarith, by linarith⟩
    · apply div_nonneg _ hd.le; by_contra hc; exact h1 ⟨by linarith, by linarith⟩
    · rw [div_le_iff₀ hd, le_div_iff₀ hd]
      constructor <;> rintro ⟨h3, h4⟩ <;> constructor <;> linarith
    · field_simp
    · field_simp
  · have hd : 0 < x1 - x2 := sub_pos.2 hgt
    have hd' : x2 - x1 ≠ 0 := by linarith [hd] |> fun h : x2 - x1 < 0 => h.ne
    refine ⟨(x1 - hi) / (x1 - x2), (x1 - lo) / (x1 - x2), by gcongr, ?_, ?_, fun t => ?_, Or.inr ⟨by linarith, ?_, ?_⟩⟩
    · rw [div_le_one hd]; by_contra hc; exact h1 ⟨by linarith, by linarith⟩
    · apply div_nonneg _ hd.le; by_contra hc; exact h2 ⟨by linarith, by linarith⟩
    · rw [div_le_iff₀ hd, le_div_iff₀ hd]
      constructor <;> rintro ⟨h3, h4⟩ <;> constructor <;> linarith
    · rw [div_mul_eq_mul_div, div_eq_iff hd.ne']; ring
    · rw [div_mul_eq_mul_div, div_eq_iff hd.ne']; ring

/-- One coordinate that does not change. -/
lemma const_in {x lo hi : K} (h1 : ¬ (hi < x ∧ hi < x)) (h2 : ¬ (x < lo ∧ x < lo)) : lo ≤ x ∧ x ≤ hi := by
  constructor <;> by_contra h <;> [exact h2 ⟨by linarith, by linarith⟩; exact h1 ⟨by linarith, by linarith⟩]

/-- A point of the box is between the corners for an affine function. -/
lemma corners_pos {A B C x y xmin xmax ymin ymax : K} (hx : xmin ≤ x ∧ x ≤ xmax) (hy : ymin ≤ y ∧ y ≤ ymax)
    (h1 : 0 < A * xmin + B * ymin + C) (h2 : 0 < A * xmin + B * ymax + C) (h3 : 0 < A * xmax + B * ymin + C)
    (h4 : 0 < A * xmax + B * ymax + C) : 0 < A * x + B * y + C := by
  rcases le_total 0 A with hA | hA <;> rcases le_total 0 B with hB | hB
  · have := mul_le_mul_of_nonneg_left hx.1 hA
    have := mul_le_mul_of_nonneg_left hy.1 hB
    linarith
  · have := mul_le_mul_of_nonneg_left hx.1 hA
    have := mul_le_mul_of_nonpos_left hy.2 hB
    linarith
  · have := mul_le_mul_of_nonpos_left hx.2 hA
    have := mul_le_mul_of_nonneg_left hy.1 hB
    linarith
  · have := mul_le_mul_of_nonpos_left hx.2 hA
    have := mul_le_mul_of_nonpos_left hy.2 hB
    linarith

/-- The test is exact, for a segment that is not a point. -/
lemma hit_exact {x1 y1 x2 y2 xmin xmax ymin ymax : K} (hx : xmin < xmax) (hy : ymin < ymax) (hne : ¬ (x1 = x2 ∧ y1 = y2)) :
    lineSegmentIntersectsPixel x1 y1 x2 y2 xmin xmax ymin ymax = true ↔ SegBox x1 y1 x2 y2 xmin xmax ymin ymax := by
  rw [hit_iff]
  dsimp only
  constructor
  · rintro ⟨hp, hn, -, s1, s2, s3, s4⟩
    by_cases ex : x1 = x2
    · by_cases ey : y1 = y2
      · exact absurd ⟨ex, ey⟩ hne
      · subst ex
        obtain ⟨c, d, hcd, hc, hd, hspec, -⟩ := param_interval hy.le ey s3 s4
        obtain ⟨t, t0, t1, -, ht⟩ := common_param (zero_le_one (α := K)) hcd zero_le_one zero_le_one hc hd hc hd
        refine ⟨t, t0, t1, ?_, (hspec t).2 ht⟩
        rw [sub_self, mul_zero, add_zero]
        exact const_in s1 s2
    · by_cases ey : y1 = y2
      · subst ey
        obtain ⟨c, d, hcd, hc, hd, hspec, -⟩ := param_interval hx.le ex s1 s2
        obtain ⟨t, t0, t1, -, ht⟩ := common_param (zero_le_one (α := K)) hcd zero_le_one zero_le_one hc hd hc hd
        refine ⟨t, t0, t1, (hspec t).2 ht, ?_⟩
        rw [sub_self, mul_zero, add_zero]
        exact const_in s3 s4
      · obtain ⟨a, b, hab, ha, hb, hs, hsgn⟩ := param_interval hx.le ex s1 s2
        obtain ⟨c, d, hcd, hc, hd, hs', hsgn'⟩ := param_interval hy.le ey s3 s4
        have key : c ≤ b ∧ a ≤ d := by
          have eq : ∀ x y u w : K, u * (x2 - x1) = x - x1 → w * (y2 - y1) = y - y1 →
              (y2 - y1) * x + (x1 - x2) * y + (x2 * y1 - x1 * y2) = (u - w) * ((x2 - x1) * (y2 - y1)) := by
            intro x y u w hu hw
            linear_combination (-(y2 - y1)) * hu + (x2 - x1) * hw
          rcases hsgn with ⟨p1, p2, p3⟩ | ⟨p1, p2, p3⟩ <;> rcases hsgn' with ⟨q1, q2, q3⟩ | ⟨q1, q2, q3⟩
          · have hP : 0 < (x2 - x1) * (y2 - y1) := mul_pos p1 q1
            rw [eq _ _ _ _ p2 q2, eq _ _ _ _ p2 q3, eq _ _ _ _ p3 q2, eq _ _ _ _ p3 q3] at hp hn
            simp only [mul_pos_iff_of_pos_right hP, sub_pos, mul_neg_iff, not_and_or, hP, hP.not_gt, and_false, and_true, false_or, sub_neg, not_lt] at hp hn
            constructor <;> by_contra hcon <;> push Not at hcon <;> grind
          · have hP : (x2 - x1) * (y2 - y1) < 0 := mul_neg_of_pos_of_neg p1 q1
            rw [eq _ _ _ _ p2 q2, eq _ _ _ _ p2 q3, eq _ _ _ _ p3 q2, eq _ _ _ _ p3 q3] at hp hn
            simp only [mul_pos_iff, sub_pos, mul_neg_iff, not_and_or, hP, hP.not_gt, and_false, and_true, false_or, or_false, sub_neg, not_lt] at hp hn
            constructor <;> by_contra hcon <;> push Not at hcon <;> grind
          · have hP : (x2 - x1) * (y2 - y1) < 0 := mul_neg_of_neg_of_pos p1 q1
            rw [eq _ _ _ _ p3 q2, eq _ _ _ _ p3 q3, eq _ _ _ _ p2 q2, eq _ _ _ _ p2 q3] at hp hn
            simp only [mul_pos_iff, sub_pos, mul_neg_iff, not_and_or, hP, hP.not_gt, and_false, and_true, false_or, or_false, sub_neg, not_lt] at hp hn
            constructor <;> by_contra hcon <;> push Not at hcon <;> grind
          · have hP : 0 < (x2 - x1) * (y2 - y1) := mul_pos_of_neg_of_neg p1 q1
            rw [eq _ _ _ _ p3 q3, eq _ _ _ _ p3 q2, eq _ _ _ _ p2 q3, eq _ _ _ _ p2 q2] at hp hn
            simp only [mul_pos_iff_of_pos_right hP, sub_pos, mul_neg_iff, not_and_or, hP, hP.not_gt, and_false, and_true, false_or, sub_neg, not_lt] at hp hn
            constructor <;> by_contra hcon <;> push Not at hcon <;> grind
        obtain ⟨t, t0, t1, h1, h2⟩ := common_param hab hcd ha hb hc hd key.1 key.2
        exact ⟨t, t0, t1, (hs t).2 h1, (hs' t).2 h2⟩
  · rintro ⟨t, t0, t1, hxt, hyt⟩
    have hzero : (y2 - y1) * (x1 + t * (x2 - x1)) + (x1 - x2) * (y1 + t * (y2 - y1)) + (x2 * y1 - x1 * y2) = 0 := by ring
    have mean : ∀ u w lo hi : K, lo ≤ u + t * (w - u) → u + t * (w - u) ≤ hi → ¬ (hi < u ∧ hi < w) ∧ ¬ (u < lo ∧ w < lo) := by
      intro u w lo hi h1 h2
      have e : u + t * (w - u) = (1 - t) * u + t * w := by ring
      rw [e] at h1 h2
      constructor <;> rintro ⟨h3, h4⟩
      · have := mul_le_mul_of_nonneg_left h3.le (sub_nonneg.2 t1)
        have := mul_le_mul_of_nonneg_left h4.le t0
        rcases eq_or_lt_of_le t0 with h | h
        · rw [← h] at h2; linarith
        · have := mul_lt_mul_of_pos_left h4 h; linarith
      · have := mul_le_mul_of_nonneg_left h3.le (sub_nonneg.2 t1)
        rcases eq_or_lt_of_le t0 with h | h
        · rw [← h] at h1; linarith
        · have := mul_lt_mul_of_pos_left h4 h; linarith
    refine ⟨?_, ?_, ?_, (mean _ _ _ _ hxt.1 hxt.2).1, (mean _ _ _ _ hxt.1 hxt.2).2, (mean _ _ _ _ hyt.1 hyt.2).1, (mean _ _ _ _ hyt.1 hyt.2).2⟩
    · rintro ⟨h1, h2, h3, h4⟩
      exact absurd (corners_pos hxt hyt h1 h2 h3 h4) (by rw [hzero]; exact lt_irrefl _)
    · rintro ⟨h1, h2, h3, h4⟩
      have := corners_pos (A := -(y2 - y1)) (B := -(x1 - x2)) (C := -(x2 * y1 - x1 * y2)) hxt hyt (by linarith) (by linarith) (by linarith) (by linarith)
      linarith
    · rintro ⟨h1, h2, h3, -⟩
      have a1 : (y2 - y1) * (xmax - xmin) = 0 := by linear_combination h3 - h1
      have a2 : (x1 - x2) * (ymax - ymin) = 0 := by linear_combination h2 - h1
      rcases mul_eq_zero.1 a1 with h | h
      · rcases mul_eq_zero.1 a2 with h' | h'
        · exact hne ⟨by linarith, by linarith⟩
        · linarith
      · linarith

/-- A segment that is a point is never found. -/
lemma hit_point (x y xmin xmax ymin ymax : K) : lineSegmentIntersectsPixel x y x y xmin xmax ymin ymax = false := by
  rw [← Bool.not_eq_true, hit_iff]
  dsimp only
  rintro ⟨-, -, h, -⟩
  exact h ⟨by ring, by ring, by ring, by ring⟩

/-! ## The pixels of the grid -/

section Grid
variable [FloorRing K]

lemma floor_le_cInt (x : K) : ⌊x⌋ ≤ cInt x := by
  unfold cInt; split_ifs
  · exact le_rfl
  · exact Int.floor_le_ceil x

lemma cInt_le_ceil (x : K) : cInt x ≤ ⌈x⌉ := by
  unfold cInt; split_ifs
  · exact Int.floor_le_ceil x
  · exact le_rfl

lemma cInt_intCast (k : ℤ) : cInt (k : K) = k := by
  unfold cInt; split_ifs <;> simp

lemma mem_cRange (a b x : ℤ) : x ∈ cRange a b ↔ a ≤ x ∧ x < b := by
  unfold cRange
  simp only [List.mem_map, List.mem_range]
  constructor
  · rintro ⟨n, hn, rfl⟩; omega
  · rintro ⟨h1, h2⟩; exact ⟨(x - a).toNat, by omega, by omega⟩

/-- The number of a pixel that meets an interval: it is in the range with a margin of one. -/
lemma range_lo {m x size : K} (hs : 0 < size) {k : ℤ} (hk : x ≤ (k + 1) * size) (hm : m ≤ x) : ⌈m / size⌉ - 1 ≤ k := by
  have : m / size ≤ k + 1 := by rw [div_le_iff₀ hs]; linarith
  have := Int.ceil_le.2 (show m / size ≤ ((k + 1 : ℤ) : K) by push_cast; exact this)
  omega

lemma range_hi {m x size : K} (hs : 0 < size) {k : ℤ} (hk : k * size ≤ x) (hm : x ≤ m) : k ≤ ⌊m / size⌋ := by
  rw [Int.le_floor, le_div_iff₀ hs]; linarith

lemma cInt_sub_two (x : K) : cInt (x - 2) ≤ ⌈x⌉ - 2 := by
  have := cInt_le_ceil (x - 2)
  rw [show x - 2 = x - (2 : ℤ) by norm_num, Int.ceil_sub_intCast] at this
  rw [show x - 2 = x - (2 : ℤ) by norm_num]; exact this

lemma cInt_add_two (x : K) : ⌊x⌋ + 2 ≤ cInt (x + 2) := by
  have := floor_le_cInt (x + 2)
  rw [show x + 2 = x + (2 : ℤ) by norm_num, Int.floor_add_intCast] at this
  rw [show x + 2 = x + (2 : ℤ) by norm_num]; exact this

/-- The pixels of a list of segments are those that share a point with a segment that is not a point. -/
theorem mem_pixels (segs : List (Seg2 K)) {size : K} (hs : 0 < size) (c : K × K) :
    c ∈ lineSegmentsToPixels segs size ↔
      ∃ i j : ℤ, c = pixelCentre size i j ∧ ∃ s ∈ segs, s.1 ≠ s.2 ∧ ∃ p, OnSegment s.1 s.2 p ∧ InPixel size i j p := by
  unfold lineSegmentsToPixels
  simp only [List.mem_flatMap]
  have one : ∀ s : Seg2 K, c ∈ segmentToPixels size s ↔
      ∃ i j : ℤ, c = pixelCentre size i j ∧ s.1 ≠ s.2 ∧ ∃ p, OnSegment s.1 s.2 p ∧ InPixel size i j p := by
    intro s
    have hit : ∀ i j : ℤ, c ∈ pixelIfHit s size i j ↔ c = pixelCentre size i j ∧ s.1 ≠ s.2 ∧ ∃ p, OnSegment s.1 s.2 p ∧ InPixel size i j p := by
      intro i j
      unfold pixelIfHit
      dsimp only
      have ex : ∀ k : ℤ, ((k : K) + 1 / 2) * size - size / 2 = k * size ∧ ((k : K) + 1 / 2) * size + size / 2 = (k + 1) * size := by
        intro k; constructor <;> ring
      rw [(ex i).1, (ex i).2, (ex j).1, (ex j).2]
      have lt : ∀ k : ℤ, (k : K) * size < (k + 1) * size := fun k => by nlinarith
      by_cases hne : s.1 = s.2
      · rw [hne, hit_point]
        simp
      · have hne' : ¬ (s.1.1 = s.2.1 ∧ s.1.2 = s.2.2) := fun h => hne (Prod.ext h.1 h.2)
        have key := hit_exact (lt i) (lt j) hne'
        have hsb : SegBox s.1.1 s.1.2 s.2.1 s.2.2 (i * size) ((i + 1) * size) (j * size) ((j + 1) * size) ↔
            ∃ p, OnSegment s.1 s.2 p ∧ InPixel size i j p := by
          constructor
          · rintro ⟨t, t0, t1, h1, h2⟩
            exact ⟨_, ⟨t, t0, t1, rfl⟩, h1, h2⟩
          · rintro ⟨p, ⟨t, t0, t1, rfl⟩, h1, h2⟩
            exact ⟨t, t0, t1, h1, h2⟩
        rw [← hsb, ← key]
        by_cases hh : lineSegmentIntersectsPixel s.1.1 s.1.2 s.2.1 s.2.2 (i * size) ((i + 1) * size) (j * size) ((j + 1) * size) = true
        · rw [if_pos hh]; simp [pixelCentre, hh, hne]
        · rw [if_neg hh]; simp [hh]
    unfold segmentToPixels
    simp only [List.mem_flatMap, mem_cRange, hit]
    constructor
    · rintro ⟨x, -, y, -, h1, h2⟩; exact ⟨x, y, h1, h2⟩
    · rintro ⟨x, y, h1, h2, p, ⟨t, t0, t1, hp⟩, hx, hy⟩
      have between : ∀ u w : K, min u w ≤ u + t * (w - u) ∧ u + t * (w - u) ≤ max u w := by
        intro u w
        have e : u + t * (w - u) = (1 - t) * u + t * w := by ring
        rw [e]
        have a1 := mul_le_mul_of_nonneg_left (min_le_left u w) (sub_nonneg.2 t1)
        have a2 := mul_le_mul_of_nonneg_left (min_le_right u w) t0
        have a3 := mul_le_mul_of_nonneg_left (le_max_left u w) (sub_nonneg.2 t1)
        have a4 := mul_le_mul_of_nonneg_left (le_max_right u w) t0
        constructor <;> linarith
      have e1 : p.1 = s.1.1 + t * (s.2.1 - s.1.1) := by rw [hp]
      have e2 : p.2 = s.1.2 + t * (s.2.2 - s.1.2) := by rw [hp]
      have b1 := between s.1.1 s.2.1
      have b2 := between s.1.2 s.2.2
      rw [← e1] at b1
      rw [← e2] at b2
      have l1 := range_lo hs hx.2 b1.1
      have l2 := range_hi hs hx.1 b1.2
      have l3 := range_lo hs hy.2 b2.1
      have l4 := range_hi hs hy.1 b2.2
      have c1 := cInt_sub_two (min s.1.1 s.2.1 / size)
      have c2 := cInt_add_two (max s.1.1 s.2.1 / size)
      have c3 := cInt_sub_two (min s.1.2 s.2.2 / size)
      have c4 := cInt_add_two (max s.1.2 s.2.2 / size)
      exact ⟨x, ⟨by omega, by omega⟩, y, ⟨by omega, by omega⟩, h1, h2, p, ⟨t, t0, t1, hp⟩, hx, hy⟩
  constructor
  · rintro ⟨s, hs', h⟩
    obtain ⟨i, j, h1, h2⟩ := (one s).1 h
    exact ⟨i, j, h1, s, hs', h2⟩
  · rintro ⟨i, j, h1, s, hs', h2⟩
    exact ⟨s, hs', (one s).2 ⟨i, j, h1, h2⟩⟩

lemma pixelCentre_inj {size : K} (hs : 0 < size) {i j i' j' : ℤ} (h : pixelCentre size i j = pixelCentre size i' j') : i = i' ∧ j = j' := by
  unfold pixelCentre at h
  have h1 := mul_right_cancel₀ hs.ne' (Prod.ext_iff.1 h).1
  have h2 := mul_right_cancel₀ hs.ne' (Prod.ext_iff.1 h).2
  constructor
  · have : (i : K) = i' := by linarith
    exact_mod_cast this
  · have : (j : K) = j' := by linarith
    exact_mod_cast this

end Grid

end Voxel

/-! ## C137: pixelization of segments and polygons -/

section
variable [FloorRing K]

/-- **Specification.** The pixel of centre `c` of the grid shares a point with the segment. -/
def PixelMeets (size : K) (a b : K × K) (c : Fin 2 → K) : Prop :=
  ∃ i j : ℤ, c = ![((i : K) + 1 / 2) * size, ((j : K) + 1 / 2) * size] ∧ ∃ p, OnSegment a b p ∧ InPixel size i j p

/-- **C137.** The pixelization of a segment between two different points has exactly the pixels of the grid that share a point
with the segment. -/
theorem C137_line_segment (a b : K × K) (hab : a ≠ b) {size : K} (hs : 0 < size) (c : Fin 2 → K) :
    (c ∈ (PointVox.fromLineSegment (a, b) size).centres ↔ PixelMeets size a b c) ∧ (PointVox.fromLineSegment (a, b) size).size = size := by
  refine ⟨?_, rfl⟩
  unfold PointVox.fromLineSegment
  simp only [List.mem_toFinset, List.mem_map]
  constructor
  · rintro ⟨p, hp, rfl⟩
    obtain ⟨i, j, rfl, s, hs', -, h⟩ := (mem_pixels _ hs p).1 hp
    rw [List.mem_singleton] at hs'
    subst hs'
    exact ⟨i, j, rfl, h⟩
  · rintro ⟨i, j, rfl, h⟩
    exact ⟨pixelCentre size i j, (mem_pixels _ hs _).2 ⟨i, j, rfl, _, List.mem_singleton.2 rfl, hab, h⟩, rfl⟩

/-- A segment with different ends. -/
example : ((0 : ℚ), (0 : ℚ)) ≠ (5 / 2, 1) := by decide +kernel

example : PixelMeets (1 : ℚ) (0, 0) (5 / 2, 1) ![3 / 2, 1 / 2] :=
  ⟨1, 0, by norm_num, (5 / 4, 1 / 2), ⟨1 / 2, by norm_num, by norm_num, by norm_num⟩, by constructor <;> constructor <;> norm_num⟩

/-- **Specification.** Consecutive points of a closed polygon. -/
def Consecutive (points : List (K × K)) (a b : K × K) : Prop :=
  ∃ n, n < points.length ∧ points[n]? = some a ∧ points[(n + 1) % points.length]? = some b

namespace Voxel

lemma mem_polygonSegments (points : List (K × K)) (a b : K × K) : (a, b) ∈ polygonSegments points ↔ Consecutive points a b := by
  unfold polygonSegments Consecutive
  rcases hl : points.getLast? with _ | l
  · rw [List.getLast?_eq_none_iff] at hl
    subst hl
    simp
  · have hne : points ≠ [] := by rintro rfl; simp at hl
    have hpos : 0 < points.length := List.length_pos_iff.2 hne
    rw [List.getLast?_eq_getElem?] at hl
    dsimp only
    rw [List.mem_iff_getElem?]
    simp only [List.getElem?_zip_eq_some]
    constructor
    · rintro ⟨n, h1, h2⟩
      rcases n with _ | n
      · rw [List.getElem?_cons_zero, Option.some_inj] at h1
        subst h1
        refine ⟨points.length - 1, by omega, hl, ?_⟩
        rw [Nat.sub_add_cancel hpos, Nat.mod_self]; exact h2
      · rw [List.getElem?_cons_succ] at h1
        have hn : n + 1 < points.length := by
          by_contra h
          rw [List.getElem?_eq_none (by omega)] at h2
          cases h2
        exact ⟨n, by omega, h1, by rw [Nat.mod_eq_of_lt hn]; exact h2⟩
    · rintro ⟨n, hn, h1, h2⟩
      by_cases hlast : n + 1 = points.length
      · rw [hlast, Nat.mod_self] at h2
        refine ⟨0, ?_, h2⟩
        rw [List.getElem?_cons_zero, ← hl, ← hlast, Nat.add_sub_cancel]
        exact h1
      · rw [Nat.mod_eq_of_lt (by omega)] at h2
        exact ⟨n + 1, by rw [List.getElem?_cons_succ]; exact h1, h2⟩

/-- Every point of a polygon whose points are not all equal starts a run that ends with a side that is not a point. -/
lemma exists_side (points : List (K × K)) (hne : ∃ a ∈ points, ∃ b ∈ points, a ≠ b) {a : K × K} (ha : a ∈ points) :
    ∃ b, b ≠ a ∧ Consecutive points a b := by
  by_contra hcon
  push Not at hcon
  obtain ⟨n, hn⟩ := List.mem_iff_getElem?.1 ha
  have hlen : n < points.length := by
    by_contra h
    rw [List.getElem?_eq_none (by omega)] at hn
    cases hn
  have hpos : 0 < points.length := by omega
  have all : ∀ k, points[(n + k) % points.length]? = some a := by
    intro k
    induction k with
    | zero => rw [Nat.add_zero, Nat.mod_eq_of_lt hlen]; exact hn
    | succ k ih =>
      have hlt := Nat.mod_lt (n + k + 1) hpos
      have hlt' := Nat.mod_lt (n + k) hpos
      obtain ⟨b, hb⟩ : ∃ b, points[(n + k + 1) % points.length]? = some b := ⟨_, List.getElem?_eq_getElem hlt⟩
      have hb' : points[((n + k) % points.length + 1) % points.length]? = some b := by
        rw [Nat.mod_add_mod]; exact hb
      by_cases hba : b = a
      · rw [← Nat.add_assoc, hb, hba]
      · exact absurd ⟨_, hlt', ih, hb'⟩ (hcon b hba)
  have same : ∀ c ∈ points, c = a := by
    intro c hc
    obtain ⟨i, hi⟩ := List.mem_iff_getElem?.1 hc
    have hil : i < points.length := by
      by_contra h
      rw [List.getElem?_eq_none (by omega)] at hi
      cases hi
    have h := all (i + points.length - n)
    rw [show n + (i + points.length - n) = i + points.length by omega, Nat.add_mod_right, Nat.mod_eq_of_lt hil, hi, Option.some_inj] at h
    exact h
  obtain ⟨p, hp, q, hq, hpq⟩ := hne
  exact hpq ((same p hp).trans (same q hq).symm)

lemma onSegment_left (a b : K × K) : OnSegment a b a := ⟨0, le_rfl, zero_le_one, by simp⟩

lemma onSegment_right (a b : K × K) : OnSegment a b b := ⟨1, zero_le_one, le_rfl, by simp⟩

lemma onSegment_self {a p : K × K} (h : OnSegment a a p) : p = a := by
  obtain ⟨t, -, -, rfl⟩ := h
  simp

end Voxel

/-- **C137, polygons.** The pixelization of a closed polygon whose points are not all equal (points may be repeated) has
exactly the pixels of the grid that share a point with a side. -/
theorem C137_closed_polygon (points : List (K × K)) {size : K} (hs : 0 < size) (hne : ∃ a ∈ points, ∃ b ∈ points, a ≠ b) (c : Fin 2 → K) :
    c ∈ (PointVox.fromClosedPolygon points size).centres ↔ ∃ a b, Consecutive points a b ∧ PixelMeets size a b c := by
  unfold PointVox.fromClosedPolygon
  simp only [List.mem_toFinset, List.mem_map]
  constructor
  · rintro ⟨p, hp, rfl⟩
    obtain ⟨i, j, rfl, s, hs', -, h⟩ := (mem_pixels _ hs p).1 hp
    exact ⟨s.1, s.2, (mem_polygonSegments points s.1 s.2).1 hs', i, j, rfl, h⟩
  · rintro ⟨a, b, hab, i, j, rfl, p, hp, hin⟩
    refine ⟨pixelCentre size i j, (mem_pixels _ hs _).2 ⟨i, j, rfl, ?_⟩, rfl⟩
    by_cases he : a = b
    · subst he
      have := onSegment_self hp
      subst this
      obtain ⟨n, -, hn, -⟩ := hab
      obtain ⟨b, hb, hcon⟩ := exists_side points hne (List.mem_iff_getElem?.2 ⟨n, hn⟩)
      exact ⟨(p, b), (mem_polygonSegments points p b).2 hcon, hb.symm, p, onSegment_left p b, hin⟩
    · exact ⟨(a, b), (mem_polygonSegments points a b).2 hab, he, p, hp, hin⟩

/-- A polygon with a repeated point. -/
example : ∃ a ∈ [((0 : ℚ), (0 : ℚ)), (0, 0), (3, 0), (3, 2)], ∃ b ∈ [((0 : ℚ), (0 : ℚ)), (0, 0), (3, 0), (3, 2)], a ≠ b :=
  ⟨(0, 0), by simp, (3, 0), by simp, by decide +kernel⟩

/-- **C137, the hypothesis is needed.** A segment that is a point has no pixels at all, although the point is in a pixel.
(`LineSegment2D` refuses equal ends.) -/
theorem C137_point_has_no_pixels (a : K × K) {size : K} (hs : 0 < size) :
    (PointVox.fromLineSegment (a, a) size).centres = ∅ ∧ ∃ c, PixelMeets size a a c := by
  constructor
  · rw [Finset.eq_empty_iff_forall_notMem]
    intro c hc
    unfold PointVox.fromLineSegment at hc
    simp only [List.mem_toFinset, List.mem_map] at hc
    obtain ⟨p, hp, -⟩ := hc
    obtain ⟨i, j, -, s, hs', hne, -⟩ := (mem_pixels _ hs p).1 hp
    rw [List.mem_singleton] at hs'
    subst hs'
    exact hne rfl
  · refine ⟨_, ⌊a.1 / size⌋, ⌊a.2 / size⌋, rfl, a, onSegment_left a a, ⟨?_, ?_⟩, ⟨?_, ?_⟩⟩
    · rw [← le_div_iff₀ hs]; exact Int.floor_le _
    · rw [← div_le_iff₀ hs]; exact (Int.lt_floor_add_one _).le
    · rw [← le_div_iff₀ hs]; exact Int.floor_le _
    · rw [← div_le_iff₀ hs]; exact (Int.lt_floor_add_one _).le

end
end Volmdlr
