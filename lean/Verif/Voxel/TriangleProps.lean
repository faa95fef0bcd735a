import Verif.Voxel.SurfaceModel
import Verif.Voxel.SurfaceProps
import Mathlib.Algebra.Order.Ring.Abs

/-!
# C44: the triangle/voxel test never misses an intersection
-/

namespace Volmdlr.Voxel

variable {K : Type} [Field K] [LinearOrder K] [IsStrictOrderedRing K]

/-! ## Specification -/

/-- The triangle and the box of half sizes `e` around `c` share a point. -/
def TriMeetsBox (t : Tri3 K) (c e : Fin 3 → K) : Prop :=
  ∃ p, TriContains t p ∧ ∀ i, c i - e i ≤ p i ∧ p i ≤ c i + e i

/-! ## Proof -/

/-- Weighted means lie between the extremes. -/
lemma mean_bounds {a b c x y z : K} (ha : 0 ≤ a) (hb : 0 ≤ b) (hc : 0 ≤ c) (h : a + b + c = 1) :
    a * x + b * y + c * z ≤ max (max x y) z ∧ min (min x y) z ≤ a * x + b * y + c * z := by
  have hx : x ≤ max (max x y) z := le_trans (le_max_left _ _) (le_max_left _ _)
  have hy : y ≤ max (max x y) z := le_trans (le_max_right _ _) (le_max_left _ _)
  have hz : z ≤ max (max x y) z := le_max_right _ _
  have hx' : min (min x y) z ≤ x := le_trans (min_le_left _ _) (min_le_left _ _)
  have hy' : min (min x y) z ≤ y := le_trans (min_le_left _ _) (min_le_right _ _)
  have hz' : min (min x y) z ≤ z := min_le_right _ _
  generalize max (max x y) z = M at *
  generalize min (min x y) z = m at *
  have hM : a * M + b * M + c * M = M := by rw [← add_mul, ← add_mul, h, one_mul]
  have hm : a * m + b * m + c * m = m := by rw [← add_mul, ← add_mul, h, one_mul]
  constructor
  · have := mul_le_mul_of_nonneg_left hx ha
    have := mul_le_mul_of_nonneg_left hy hb
    have := mul_le_mul_of_nonneg_left hz hc
    linarith
  · have := mul_le_mul_of_nonneg_left hx' ha
    have := mul_le_mul_of_nonneg_left hy' hb
    have := mul_le_mul_of_nonneg_left hz' hc
    linarith

lemma axis_bound {e r a : K} (hr : |r| ≤ e) : |r * a| ≤ e * |a| := by
  rw [abs_mul]; exact mul_le_mul_of_nonneg_right hr (abs_nonneg _)

/-- The projection of a point of the box on an axis. -/
lemma proj_bound {e r a : Fin 3 → K} (h : ∀ i, |r i| ≤ e i) :
    |r 0 * a 0 + r 1 * a 1 + r 2 * a 2| ≤ e 0 * |a 0| + e 1 * |a 1| + e 2 * |a 2| := by
  have h0 := axis_bound (a := a 0) (h 0)
  have h1 := axis_bound (a := a 1) (h 1)
  have h2 := axis_bound (a := a 2) (h 2)
  rw [abs_le] at *
  constructor <;> linarith [h0.1, h0.2, h1.1, h1.2, h2.1, h2.2]

lemma not_axis {a b c : K} (ha : 0 ≤ a) (hb : 0 ≤ b) (hc : 0 ≤ c) (h : a + b + c = 1) {v0 v1 v2 ax f ext r : Fin 3 → K}
    (hr : ∀ i, r i = a * v0 i + b * v1 i + c * v2 i) (hb' : ∀ i, |r i| ≤ ext i)
    (hrad : ext 0 * |ax 0| + ext 1 * |ax 1| + ext 2 * |ax 2| ≤ ext 0 * |f 2| + ext 1 * |f 0| + ext 2 * |f 1|) :
    ¬ calculateAxisValues v0 v1 v2 ax f ext := by
  unfold calculateAxisValues
  simp only [gt_iff_lt, not_lt, max_le_iff]
  obtain ⟨h1, h2⟩ := mean_bounds ha hb hc h (x := v0 0 * ax 0 + v0 1 * ax 1 + v0 2 * ax 2)
    (y := v1 0 * ax 0 + v1 1 * ax 1 + v1 2 * ax 2) (z := v2 0 * ax 0 + v2 1 * ax 1 + v2 2 * ax 2)
  have e : r 0 * ax 0 + r 1 * ax 1 + r 2 * ax 2 = a * (v0 0 * ax 0 + v0 1 * ax 1 + v0 2 * ax 2) +
      b * (v1 0 * ax 0 + v1 1 * ax 1 + v1 2 * ax 2) + c * (v2 0 * ax 0 + v2 1 * ax 1 + v2 2 * ax 2) := by
    rw [hr 0, hr 1, hr 2]; ring
  rw [← e] at h1 h2
  have := abs_le.1 (proj_bound (a := ax) hb')
  constructor <;> linarith [this.1, this.2]

/-- The separating axis test alone never misses. -/
theorem intersects_never_misses (t : Tri3 K) (c : Fin 3 → K) (h : K) (hmeet : TriMeetsBox t c fun _ => h) :
    triangleIntersectsVoxel t c (fun _ => h) = true := by
  obtain ⟨p, ⟨a, b, d, ha, hb, hd, hsum, hp⟩, hbox⟩ := hmeet
  set r : Fin 3 → K := fun i => p i - c i with hr
  have hrb : ∀ i, |r i| ≤ h := by
    intro i
    rw [abs_le]
    have := hbox i
    simp only [hr]
    constructor <;> linarith [this.1, this.2]
  have hh : 0 ≤ h := le_trans (abs_nonneg _) (hrb 0)
  have hrv : ∀ i, r i = a * (t.1 i - c i) + b * (t.2.1 i - c i) + d * (t.2.2 i - c i) := by
    intro i
    simp only [hr]
    rw [hp i]
    linear_combination (c i) * hsum
  have ext : ∀ i, ¬ (max (max (t.1 i - c i) (t.2.1 i - c i)) (t.2.2 i - c i) < -h ∨
      min (min (t.1 i - c i) (t.2.1 i - c i)) (t.2.2 i - c i) > h) := by
    intro i
    obtain ⟨h1, h2⟩ := mean_bounds ha hb hd hsum (x := t.1 i - c i) (y := t.2.1 i - c i) (z := t.2.2 i - c i)
    rw [← hrv i] at h1 h2
    have := abs_le.1 (hrb i)
    push Not
    constructor <;> linarith [this.1, this.2]
  have axis : ∀ ax f : Fin 3 → K, |ax 0| + |ax 1| + |ax 2| ≤ |f 2| + |f 0| + |f 1| →
      ¬ calculateAxisValues (fun i => t.1 i - c i) (fun i => t.2.1 i - c i) (fun i => t.2.2 i - c i) ax f fun _ => h := by
    intro ax f hle
    refine not_axis ha hb hd hsum (r := r) hrv hrb ?_
    have := mul_le_mul_of_nonneg_left hle hh
    linarith
  unfold triangleIntersectsVoxel
  dsimp only
  rw [if_neg (ext 0), if_neg (ext 1), if_neg (ext 2)]
  have hx : ∀ f : Fin 3 → K, |(![0, -f 2, f 1] : Fin 3 → K) 0| + |(![0, -f 2, f 1] : Fin 3 → K) 1| + |(![0, -f 2, f 1] : Fin 3 → K) 2|
      ≤ |f 2| + |f 0| + |f 1| := by
    intro f
    simp
  have hy : ∀ f : Fin 3 → K, |(![f 2, 0, -f 0] : Fin 3 → K) 0| + |(![f 2, 0, -f 0] : Fin 3 → K) 1| + |(![f 2, 0, -f 0] : Fin 3 → K) 2|
      ≤ |f 2| + |f 0| + |f 1| := by
    intro f
    simp
  have hz : ∀ f : Fin 3 → K, |(![-f 1, f 0, 0] : Fin 3 → K) 0| + |(![-f 1, f 0, 0] : Fin 3 → K) 1| + |(![-f 1, f 0, 0] : Fin 3 → K) 2|
      ≤ |f 2| + |f 0| + |f 1| := by
    intro f
    simp
    linarith [abs_nonneg (f 2)]
  rw [if_neg, if_neg (axis _ _ (hx fun i => t.2.1 i - t.1 i)), if_neg (axis _ _ (hx fun i => t.2.2 i - t.2.1 i)),
    if_neg (axis _ _ (hx fun i => t.1 i - t.2.2 i)), if_neg (axis _ _ (hy fun i => t.2.1 i - t.1 i)),
    if_neg (axis _ _ (hy fun i => t.2.2 i - t.2.1 i)), if_neg (axis _ _ (hy fun i => t.1 i - t.2.2 i)),
    if_neg (axis _ _ (hz fun i => t.2.1 i - t.1 i)), if_neg (axis _ _ (hz fun i => t.2.2 i - t.2.1 i)),
    if_neg (axis _ _ (hz fun i => t.1 i - t.2.2 i))]
  · rw [gt_iff_lt, not_lt]
    refine le_trans (le_of_eq ?_) (proj_bound (r := r) (e := fun _ => h) hrb)
    congr 1
    simp only [hrv]
    simp
    have hb0 : a = 1 - b - d := by linear_combination hsum
    rw [hb0]; ring

/-- **C44.** `triangle_intersects_voxel` is true whenever the triangle and the cubic voxel share a point. -/
theorem C44_never_misses (t : Tri3 K) (c : Fin 3 → K) (h : K) (hmeet : TriMeetsBox t c fun _ => h) :
    triangleIntersectsVoxelApi t c (fun _ => h) = true := by
  unfold triangleIntersectsVoxelApi
  rw [Bool.or_eq_true]
  exact Or.inl (intersects_never_misses t c h hmeet)

/-- A triangle crossing the unit cube without a vertex in it. -/
example : TriMeetsBox ((![-2, 0, 0], ![2, 0, 0], ![0, 3, 0]) : Tri3 ℚ) ![0, 0, 0] fun _ => 1 / 2 := by
  refine ⟨![0, 0, 0], ⟨1 / 2, 1 / 2, 0, by norm_num, by norm_num, by norm_num, by norm_num, fun i => ?_⟩, fun i => ?_⟩
  · fin_cases i <;> simp <;> norm_num
  · fin_cases i <;> simp

/-- The converse is false: the radius on the nine edge axes is too large, so triangles near an edge of the voxel are accepted.
In the segment from `(0,0,2)` to `(-2,-1,1)` only the last point has `z ≤ 1`, and it has `x < -1`. -/
theorem C44_converse_false : ∃ (t : Tri3 ℚ) (c : Fin 3 → ℚ) (h : ℚ), triangleIntersectsVoxelApi t c (fun _ => h) = true ∧
    ¬ TriMeetsBox t c fun _ => h := by
  refine ⟨(![0, 0, 2], ![0, 0, 2], ![-2, -1, 1]), ![0, 0, 0], 1, by decide +kernel, ?_⟩
  rintro ⟨p, ⟨a, b, d, ha, hb, hd, hsum, hp⟩, hbox⟩
  have h0 := hp 0
  have h2 := hp 2
  have b0 := hbox 0
  have b2 := hbox 2
  simp at h0 h2 b0 b2
  linarith [b0.1, b0.2, b2.1, b2.2]

/-- With voxel extents which are not all equal an intersection can be missed: the radius mixes the extents. -/
theorem C44_not_cubic_misses : ∃ (t : Tri3 ℚ) (c e : Fin 3 → ℚ), (∀ i, 0 < e i) ∧ TriMeetsBox t c e ∧
    triangleIntersectsVoxelApi t c e = false := by
  refine ⟨(![-2, -1, 0], ![0, -2, 0], ![0, -2, 0]), ![0, 0, 0], ![3, 1, 1], by decide +kernel, ?_, by decide +kernel⟩
  refine ⟨![-2, -1, 0], ⟨1, 0, 0, by norm_num, by norm_num, by norm_num, by norm_num, fun i => ?_⟩, fun i => ?_⟩
  · fin_cases i <;> simp
  · fin_cases i <;> simp <;> norm_num

end Volmdlr.Voxel
