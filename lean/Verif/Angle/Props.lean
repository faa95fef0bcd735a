import Verif.Angle.Model
import Verif.Vec.Props
import Mathlib.Tactic.Linarith
import Mathlib.Tactic.LinearCombination
import Mathlib.Tactic.FieldSimp
import Mathlib.Analysis.Real.Pi.Bounds

/-!
# C55: images of intervals, C54: angle helpers
-/

namespace Volmdlr.Angle

open Real

/-! ## C55 -/

/-- `(m, M)` are the least and the greatest value of `f` on `[a, b]`. -/
def IsImage (f : ℝ → ℝ) (a b : ℝ) (m M : ℝ) : Prop := IsLeast (f '' Set.Icc a b) m ∧ IsGreatest (f '' Set.Icc a b) M

lemma cos_int_mul_pi_even (k : ℤ) (h : k % 2 = 0) : cos (k * π) = 1 := by
  obtain ⟨m, rfl⟩ : ∃ m, k = 2 * m := ⟨k / 2, by omega⟩
  rw [show ((2 * m : ℤ) : ℝ) * π = m * (2 * π) by push_cast; ring, cos_int_mul_two_pi]

lemma cos_int_mul_pi_odd (k : ℤ) (h : k % 2 = 1) : cos (k * π) = -1 := by
  obtain ⟨m, rfl⟩ : ∃ m, k = 2 * m + 1 := ⟨k / 2, by omega⟩
  rw [show ((2 * m + 1 : ℤ) : ℝ) * π = π + m * (2 * π) by push_cast; ring, cos_add_int_mul_two_pi, cos_pi]

lemma floor_bounds (x : ℝ) : (⌊x / π⌋ : ℝ) * π ≤ x ∧ x < (⌊x / π⌋ + 1) * π := by
  constructor
  · rw [← le_div_iff₀ pi_pos]; exact Int.floor_le _
  · rw [← div_lt_iff₀ pi_pos]; exact Int.lt_floor_add_one _

/-- On one arch the cosine is monotone: `cos` on `[kπ, (k+1)π]` decreases for even `k`, increases for odd `k`. -/
lemma cos_arch (k : ℤ) {x y : ℝ} (hx : k * π ≤ x) (hxy : x ≤ y) (hy : y ≤ (k + 1) * π) :
    (k % 2 = 0 → cos y ≤ cos x) ∧ (k % 2 = 1 → cos x ≤ cos y) := by
  constructor
  · intro h
    obtain ⟨m, rfl⟩ : ∃ m, k = 2 * m := ⟨k / 2, by omega⟩
    push_cast at hx hy
    have := cos_le_cos_of_nonneg_of_le_pi (x := x - m * (2 * π)) (y := y - m * (2 * π)) (by linarith) (by linarith) (by linarith)
    rwa [cos_sub_int_mul_two_pi, cos_sub_int_mul_two_pi] at this
  · intro h
    obtain ⟨m, rfl⟩ : ∃ m, k = 2 * m + 1 := ⟨k / 2, by omega⟩
    push_cast at hx hy
    have := cos_le_cos_of_nonneg_of_le_pi (x := x - π - m * (2 * π)) (y := y - π - m * (2 * π)) (by linarith) (by linarith) (by linarith)
    rw [cos_sub_int_mul_two_pi, cos_sub_int_mul_two_pi, cos_sub_pi, cos_sub_pi] at this
    linarith

/-- **C55.** For every interval, `cos_image` returns the minimum and the maximum of the cosine on it, both being reached. -/
theorem C55_cos_image (x1 x2 : ℝ) (h : x1 ≤ x2) : IsImage cos x1 x2 (cosImage x1 x2).1 (cosImage x1 x2).2 := by
  have hm : x1 ∈ Set.Icc x1 x2 := ⟨le_rfl, h⟩
  have hM : x2 ∈ Set.Icc x1 x2 := ⟨h, le_rfl⟩
  obtain ⟨a1, b1⟩ := floor_bounds x1
  obtain ⟨a2, b2⟩ := floor_bounds x2
  have hfl : ⌊x1 / π⌋ ≤ ⌊x2 / π⌋ := Int.floor_le_floor (div_le_div_of_nonneg_right h pi_pos.le)
  unfold cosImage
  dsimp only
  set k := ⌊x1 / π⌋ with hk
  set l := ⌊x2 / π⌋ with hl
  by_cases h2 : l - k ≥ 2
  · rw [if_pos h2]
    have hA : ((k + 1 : ℤ) : ℝ) * π ∈ Set.Icc x1 x2 := by
      have : ((k + 1 : ℤ) : ℝ) ≤ l := by exact_mod_cast (by omega : k + 1 ≤ l)
      have := mul_le_mul_of_nonneg_right this pi_pos.le
      refine ⟨?_, by linarith⟩
      push_cast; linarith
    have hB : ((k + 2 : ℤ) : ℝ) * π ∈ Set.Icc x1 x2 := by
      have : ((k + 2 : ℤ) : ℝ) ≤ l := by exact_mod_cast (by omega : k + 2 ≤ l)
      have := mul_le_mul_of_nonneg_right this pi_pos.le
      refine ⟨?_, by linarith⟩
      push_cast; linarith [pi_pos]
    refine ⟨⟨?_, ?_⟩, ⟨?_, ?_⟩⟩
    · rcases Int.emod_two_eq_zero_or_one k with e | e
      · exact ⟨_, hA, cos_int_mul_pi_odd _ (by omega)⟩
      · exact ⟨_, hB, cos_int_mul_pi_odd _ (by omega)⟩
    · rintro _ ⟨y, -, rfl⟩; exact neg_one_le_cos y
    · rcases Int.emod_two_eq_zero_or_one k with e | e
      · exact ⟨_, hB, cos_int_mul_pi_even _ (by omega)⟩
      · exact ⟨_, hA, cos_int_mul_pi_even _ (by omega)⟩
    · rintro _ ⟨y, -, rfl⟩; exact cos_le_one y
  rw [if_neg h2]
  have hmin : min (cos x1) (cos x2) ∈ cos '' Set.Icc x1 x2 := by
    rcases min_choice (cos x1) (cos x2) with e | e <;> rw [e]
    · exact ⟨_, hm, rfl⟩
    · exact ⟨_, hM, rfl⟩
  have hmax : max (cos x1) (cos x2) ∈ cos '' Set.Icc x1 x2 := by
    rcases max_choice (cos x1) (cos x2) with e | e <;> rw [e]
    · exact ⟨_, hm, rfl⟩
    · exact ⟨_, hM, rfl⟩
  by_cases h1 : l - k = 1
  · rw [if_pos h1]
    have hlk : (l : ℝ) = k + 1 := by exact_mod_cast (by omega : l = k + 1)
    rw [hlk] at a2 b2
    have hA : ((k + 1 : ℤ) : ℝ) * π ∈ Set.Icc x1 x2 := by
      push_cast; exact ⟨by linarith, by linarith⟩
    have hcast : ((k + 1 : ℤ) : ℝ) = k + 1 := by push_cast; ring
    by_cases he : |k| % 2 = 0
    · rw [if_pos he]
      have hek : k % 2 = 0 := by rcases abs_choice k with e | e <;> rw [e] at he <;> omega
      refine ⟨⟨⟨_, hA, cos_int_mul_pi_odd _ (by omega)⟩, ?_⟩, ⟨hmax, ?_⟩⟩
      · rintro _ ⟨y, -, rfl⟩; exact neg_one_le_cos y
      · rintro _ ⟨y, ⟨hy1, hy2⟩, rfl⟩
        rcases le_total y ((k + 1) * π) with hy | hy
        · exact le_max_of_le_left ((cos_arch k a1 hy1 hy).1 hek)
        · exact le_max_of_le_right ((cos_arch (k + 1) (by rw [hcast]; exact hy) hy2 (by rw [hcast]; exact b2.le)).2 (by omega))
    · rw [if_neg he]
      have hek : k % 2 = 1 := by rcases abs_choice k with e | e <;> rw [e] at he <;> omega
      refine ⟨⟨hmin, ?_⟩, ⟨⟨_, hA, cos_int_mul_pi_even _ (by omega)⟩, ?_⟩⟩
      · rintro _ ⟨y, ⟨hy1, hy2⟩, rfl⟩
        rcases le_total y ((k + 1) * π) with hy | hy
        · exact min_le_of_left_le ((cos_arch k a1 hy1 hy).2 hek)
        · exact min_le_of_right_le ((cos_arch (k + 1) (by rw [hcast]; exact hy) hy2 (by rw [hcast]; exact b2.le)).1 (by omega))
      · rintro _ ⟨y, -, rfl⟩; exact cos_le_one y
  · rw [if_neg h1]
    have hlk : (l : ℝ) = k := by exact_mod_cast (by omega : l = k)
    rw [hlk] at a2 b2
    refine ⟨⟨hmin, ?_⟩, ⟨hmax, ?_⟩⟩ <;> rintro _ ⟨y, ⟨hy1, hy2⟩, rfl⟩ <;> rcases Int.emod_two_eq_zero_or_one k with e | e
    · exact min_le_of_right_le ((cos_arch k (a1.trans hy1) hy2 b2.le).1 e)
    · exact min_le_of_left_le ((cos_arch k a1 hy1 (hy2.trans b2.le)).2 e)
    · exact le_max_of_le_left ((cos_arch k a1 hy1 (hy2.trans b2.le)).1 e)
    · exact le_max_of_le_right ((cos_arch k (a1.trans hy1) hy2 b2.le).2 e)

/-- **C55.** For every interval, `sin_image` returns the minimum and the maximum of the sine on it, both being reached. -/
theorem C55_sin_image (x1 x2 : ℝ) (h : x1 ≤ x2) : IsImage sin x1 x2 (sinImage x1 x2).1 (sinImage x1 x2).2 := by
  have := C55_cos_image (x1 - 1 / 2 * π) (x2 - 1 / 2 * π) (by linarith)
  have hset : cos '' Set.Icc (x1 - 1 / 2 * π) (x2 - 1 / 2 * π) = sin '' Set.Icc x1 x2 := by
    ext v
    constructor
    · rintro ⟨y, ⟨h1, h2⟩, rfl⟩
      exact ⟨y + 1 / 2 * π, ⟨by linarith, by linarith⟩, by rw [show y + 1 / 2 * π = y + π / 2 by ring, sin_add_pi_div_two]⟩
    · rintro ⟨y, ⟨h1, h2⟩, rfl⟩
      exact ⟨y - 1 / 2 * π, ⟨by linarith, by linarith⟩, by rw [show y - 1 / 2 * π = y - π / 2 by ring, cos_sub_pi_div_two]⟩
  unfold IsImage at this ⊢
  rw [hset] at this
  exact this

/-- The three branches are all met: `[0, 1/2]`, `[0, π]`, `[0, 2π]`. -/
example : cosImage 0 π = (-1, 1) ∧ cosImage 0 (2 * π) = (-1, 1) ∧ cosImage 0 (1 / 2) = (cos (1 / 2), 1) := by
  have hp := pi_gt_three
  have h0 : ⌊(0 : ℝ) / π⌋ = 0 := by simp
  have h1 : ⌊π / π⌋ = 1 := by rw [div_self pi_ne_zero]; simp
  have h2 : ⌊2 * π / π⌋ = 2 := by rw [mul_div_cancel_right₀ _ pi_ne_zero]; simp
  have h3 : ⌊(1 / 2 : ℝ) / π⌋ = 0 := by
    rw [Int.floor_eq_zero_iff]
    exact ⟨by positivity, by rw [div_lt_one pi_pos]; linarith⟩
  refine ⟨?_, ?_, ?_⟩
  · simp [cosImage, h0, h1]
  · simp [cosImage, h0, h2]
  · unfold cosImage
    rw [h0, h3]
    simp [min_eq_right (cos_le_one _), max_eq_left (cos_le_one _)]

/-! ## C54 -/

lemma sqrt_four : √(4 : ℝ) = 2 := by rw [show (4 : ℝ) = 2 ^ 2 by norm_num, sqrt_sq (by norm_num)]

lemma sqrt_nine : √(9 : ℝ) = 3 := by rw [show (9 : ℝ) = 3 ^ 2 by norm_num, sqrt_sq (by norm_num)]

lemma mathIsClose_two_pi {t : ℝ} (h0 : 0 ≤ t) (h1 : t < 2 * π) :
    mathIsClose t (2 * π) (1 / 10 ^ 9) ↔ 2 * π - t ≤ 1 / 10 ^ 9 * (2 * π) := by
  unfold mathIsClose
  have hp := pi_gt_three
  rw [abs_of_neg (by linarith : t - 2 * π < 0), abs_of_nonneg h0, abs_of_pos (by linarith : 0 < 2 * π), max_eq_right h1.le,
    max_eq_left (by linarith)]
  constructor <;> intro h <;> linarith

/-- The value before the closeness test: the angle of `[0, 2π)` with the given cosine and sine. -/
lemma raw_spec {u1 u2 : ℝ} (h : u1 ^ 2 + u2 ^ 2 = 1) :
    0 ≤ sinCosAngleRaw u1 u2 ∧ sinCosAngleRaw u1 u2 < 2 * π ∧ cos (sinCosAngleRaw u1 u2) = u1 ∧ sin (sinCosAngleRaw u1 u2) = u2 := by
  have hp := pi_pos
  have a1 : -1 ≤ u1 := by nlinarith
  have a2 : u1 ≤ 1 := by nlinarith
  have b1 : -1 ≤ u2 := by nlinarith
  have b2 : u2 ≤ 1 := by nlinarith
  unfold sinCosAngleRaw
  by_cases hu2 : u2 ≥ 0
  · have : (if u1 > 0 then if u2 ≥ 0 then arccos u1 else 2 * π + arcsin u2 else if u2 ≥ 0 then arccos u1 else 2 * π - arccos u1) = arccos u1 := by
      rw [if_pos hu2, if_pos hu2, ite_self]
    rw [this]
    refine ⟨arccos_nonneg _, by linarith [arccos_le_pi u1], cos_arccos a1 a2, ?_⟩
    rw [sin_arccos, show 1 - u1 ^ 2 = u2 ^ 2 by linarith, sqrt_sq hu2]
  · rw [if_neg hu2, if_neg hu2]
    push Not at hu2
    by_cases hu1 : u1 > 0
    · rw [if_pos hu1]
      refine ⟨by linarith [neg_pi_div_two_le_arcsin u2], by linarith [arcsin_lt_zero.2 hu2] , ?_, ?_⟩
      · rw [add_comm, cos_add_two_pi, cos_arcsin, show 1 - u2 ^ 2 = u1 ^ 2 by linarith, sqrt_sq hu1.le]
      · rw [add_comm, sin_add_two_pi, sin_arcsin b1 b2]
    · rw [if_neg hu1]
      push Not at hu1
      have hpos : 0 < arccos u1 := arccos_pos.2 (by linarith)
      refine ⟨by linarith [arccos_le_pi u1], by linarith, ?_, ?_⟩
      · rw [cos_two_pi_sub, cos_arccos a1 a2]
      · rw [sin_two_pi_sub, sin_arccos, show 1 - u1 ^ 2 = (-u2) ^ 2 by linarith, sqrt_sq (by linarith)]; ring

lemma clamp_eq {u : ℝ} (h1 : -1 ≤ u) (h2 : u ≤ 1) : max (-1) (min u 1) = u := by
  rw [min_eq_left h2, max_eq_right h1]

/-- **C54.** For every `(u1, u2)` of the unit circle, `sin_cos_angle` returns the angle of `[0, 2π)` with this cosine and sine, except
when that angle is within `2π · 1e-9` of a full turn, where it returns `0`. -/
theorem C54_sin_cos_angle (u1 u2 : ℝ) (h : u1 ^ 2 + u2 ^ 2 = 1) :
    ∃ t, (0 ≤ t ∧ t < 2 * π ∧ cos t = u1 ∧ sin t = u2) ∧
      (2 * π - t ≤ 1 / 10 ^ 9 * (2 * π) → sinCosAngle u1 u2 = 0) ∧
      (1 / 10 ^ 9 * (2 * π) < 2 * π - t → sinCosAngle u1 u2 = t) := by
  have a1 : -1 ≤ u1 := by nlinarith
  have a2 : u1 ≤ 1 := by nlinarith
  have b1 : -1 ≤ u2 := by nlinarith
  have b2 : u2 ≤ 1 := by nlinarith
  obtain ⟨r1, r2, r3, r4⟩ := raw_spec h
  refine ⟨_, ⟨r1, r2, r3, r4⟩, ?_, ?_⟩ <;> intro hb <;> unfold sinCosAngle <;> dsimp only <;> rw [clamp_eq a1 a2, clamp_eq b1 b2]
  · rw [if_pos ((mathIsClose_two_pi r1 r2).2 hb)]
  · rw [if_neg]
    rw [mathIsClose_two_pi r1 r2]
    linarith

/-- Uniqueness of the angle of `[0, 2π)`. -/
lemma angle_unique {s t : ℝ} (hs : 0 ≤ s) (hs' : s < 2 * π) (ht : 0 ≤ t) (ht' : t < 2 * π) (hc : cos s = cos t) (hsin : sin s = sin t) :
    s = t := by
  have : cos (s - t) = 1 := by
    rw [cos_sub, hc, hsin]; nlinarith [sin_sq_add_cos_sq t]
  rw [cos_eq_one_iff] at this
  obtain ⟨n, hn⟩ := this
  have hp := pi_pos
  have h1 : (n : ℝ) < 1 := by
    by_contra hc; push Not at hc; nlinarith
  have h2 : (-1 : ℝ) < n := by
    by_contra hc; push Not at hc; nlinarith
  have h1' : n < 1 := by exact_mod_cast h1
  have h2' : -1 < n := by exact_mod_cast h2
  have : n = 0 := by omega
  rw [this] at hn
  simp at hn
  linarith

/-- **C54.** The angle of `[0, 2π)` itself is given back, if it is not within `2π · 1e-9` of a full turn. -/
theorem C54_sin_cos_angle_eq (t : ℝ) (h0 : 0 ≤ t) (h1 : t < (1 - 1 / 10 ^ 9) * (2 * π)) : sinCosAngle (cos t) (sin t) = t := by
  obtain ⟨s, ⟨s1, s2, s3, s4⟩, -, h⟩ := C54_sin_cos_angle (cos t) (sin t) (by rw [add_comm]; exact sin_sq_add_cos_sq t)
  have hp := pi_pos
  have : s = t := angle_unique s1 s2 h0 (by linarith) s3 s4
  rw [this] at h
  exact h (by linarith)

/-- **C54.** Whatever the arguments, the value returned is in `[0, 2π)`. -/
theorem C54_sin_cos_angle_range (u1 u2 : ℝ) : 0 ≤ sinCosAngle u1 u2 ∧ sinCosAngle u1 u2 < 2 * π := by
  have hp := pi_pos
  unfold sinCosAngle
  dsimp only
  set c1 := max (-1) (min u1 1)
  set c2 := max (-1) (min u2 1)
  by_cases hc : mathIsClose (sinCosAngleRaw c1 c2) (2 * π) (1 / 10 ^ 9)
  · rw [if_pos hc]; exact ⟨le_rfl, by linarith⟩
  · rw [if_neg hc]
    have hr : 0 ≤ sinCosAngleRaw c1 c2 ∧ sinCosAngleRaw c1 c2 ≤ 2 * π := by
      unfold sinCosAngleRaw
      have := arccos_nonneg c1
      have := arccos_le_pi c1
      have := neg_pi_div_two_le_arcsin c2
      split_ifs with h1 h2 h2
      · constructor <;> linarith
      · have : arcsin c2 < 0 := arcsin_lt_zero.2 (by linarith)
        constructor <;> linarith
      · constructor <;> linarith
      · constructor <;> linarith
    refine ⟨hr.1, lt_of_le_of_ne hr.2 ?_⟩
    intro e
    apply hc
    unfold mathIsClose
    rw [e, sub_self, abs_zero]
    positivity

/-- **C54.** In all cases the value is within `2π · 1e-9` of an angle with this cosine and sine. -/
theorem C54_sin_cos_angle_close (t : ℝ) : ∃ n : ℤ, |sinCosAngle (cos t) (sin t) - (t + n * (2 * π))| ≤ 1 / 10 ^ 9 * (2 * π) := by
  obtain ⟨s, ⟨s1, s2, s3, s4⟩, hA, hB⟩ := C54_sin_cos_angle (cos t) (sin t) (by rw [add_comm]; exact sin_sq_add_cos_sq t)
  have hp := pi_pos
  have : cos (s - t) = 1 := by
    rw [cos_sub, s3, s4]; nlinarith [sin_sq_add_cos_sq t]
  rw [cos_eq_one_iff] at this
  obtain ⟨n, hn⟩ := this
  rcases le_or_gt (2 * π - s) (1 / 10 ^ 9 * (2 * π)) with h | h
  · refine ⟨n - 1, ?_⟩
    rw [hA h]
    push_cast
    rw [show (0 : ℝ) - (t + (n - 1) * (2 * π)) = 2 * π - s by linarith, abs_of_pos (by linarith)]
    exact h
  · refine ⟨n, ?_⟩
    rw [hB h, show s - (t + n * (2 * π)) = 0 by linarith, abs_zero]
    positivity

example : sinCosAngle (cos (3 * π / 2)) (sin (3 * π / 2)) = 3 * π / 2 :=
  C54_sin_cos_angle_eq _ (by positivity) (by nlinarith [pi_pos])

/-- **C54.** `vectors3d_angle` is the angle of `[0, π]` between the vectors: its cosine times the norms is the dot product.  It raises
exactly when one of the vectors is zero. -/
theorem C54_vectors3d_angle (u v : V3 ℝ) :
    (vectors3dAngle u v = none ↔ V3.norm u = 0 ∨ V3.norm v = 0) ∧
    ∀ t ∈ vectors3dAngle u v, 0 ≤ t ∧ t ≤ π ∧ V3.norm u * V3.norm v * cos t = V3.dot u v := by
  unfold vectors3dAngle
  by_cases h : V3.norm u * V3.norm v = 0
  · rw [if_pos h]
    refine ⟨by simpa using mul_eq_zero.1 h, by simp⟩
  · rw [if_neg h]
    refine ⟨by simpa using (not_or.1 (mul_eq_zero.not.1 h)), ?_⟩
    rintro t ht
    obtain rfl := Option.some.inj ht
    have hu : 0 ≤ V3.norm u := sqrt_nonneg _
    have hv : 0 ≤ V3.norm v := sqrt_nonneg _
    have hpos : 0 < V3.norm u * V3.norm v := lt_of_le_of_ne (mul_nonneg hu hv) (Ne.symm h)
    have su : V3.norm u ^ 2 = u.x * u.x + u.y * u.y + u.z * u.z := sq_sqrt (by nlinarith [mul_self_nonneg u.x, mul_self_nonneg u.y, mul_self_nonneg u.z])
    have sv : V3.norm v ^ 2 = v.x * v.x + v.y * v.y + v.z * v.z := sq_sqrt (by nlinarith [mul_self_nonneg v.x, mul_self_nonneg v.y, mul_self_nonneg v.z])
    have hcs : V3.dot u v ^ 2 ≤ (V3.norm u * V3.norm v) ^ 2 := by
      rw [mul_pow, su, sv]
      unfold V3.dot
      nlinarith [sq_nonneg (u.x * v.y - u.y * v.x), sq_nonneg (u.y * v.z - u.z * v.y), sq_nonneg (u.x * v.z - u.z * v.x)]
    have habs := abs_le_of_sq_le_sq' hcs hpos.le
    have h1 : -1 ≤ V3.dot u v / (V3.norm u * V3.norm v) := by rw [le_div_iff₀ hpos]; linarith [habs.1]
    have h2 : V3.dot u v / (V3.norm u * V3.norm v) ≤ 1 := by rw [div_le_one hpos]; exact habs.2
    rw [min_eq_left h2, max_eq_left h1]
    refine ⟨arccos_nonneg _, arccos_le_pi _, ?_⟩
    rw [cos_arccos h1 h2, mul_div_cancel₀ _ h]

example : vectors3dAngle ⟨2, 0, 0⟩ ⟨0, 3, 0⟩ = some (π / 2) := by
  have h1 : V3.norm ⟨2, 0, 0⟩ = 2 := (by unfold V3.norm; norm_num : V3.norm ⟨2, 0, 0⟩ = √(4 : ℝ)).trans sqrt_four
  have h2 : V3.norm ⟨0, 3, 0⟩ = 3 := (by unfold V3.norm; norm_num : V3.norm ⟨0, 3, 0⟩ = √(9 : ℝ)).trans sqrt_nine
  unfold vectors3dAngle
  rw [h1, h2]
  norm_num [V3.dot]

lemma norm2_sq (u : V2 ℝ) : V2.norm u ^ 2 = u.x * u.x + u.y * u.y := sq_sqrt (by nlinarith [mul_self_nonneg u.x, mul_self_nonneg u.y])

lemma norm2_pos {u : V2 ℝ} (h : u ≠ ⟨0, 0⟩) : 0 < V2.norm u := by
  apply sqrt_pos.2
  rcases eq_or_ne u.x 0 with hx | hx
  · have hy : u.y ≠ 0 := fun hy => h (V2.ext hx hy)
    have := mul_self_pos.2 hy
    nlinarith [mul_self_nonneg u.x]
  · have := mul_self_pos.2 hx
    nlinarith [mul_self_nonneg u.y]

/-- **C54.** `clockwise_angle` of two non zero vectors is in `(0, 2π]`, and turning the first vector clockwise by it gives the
direction and sense of the second. -/
theorem C54_clockwise_angle (v1 v2 : V2 ℝ) (h1 : v1 ≠ ⟨0, 0⟩) (h2 : v2 ≠ ⟨0, 0⟩) :
    0 < clockwiseAngle v1 v2 ∧ clockwiseAngle v1 v2 ≤ 2 * π ∧
    V2.smul (V2.norm v2) (V2.rotation v1 ⟨0, 0⟩ (-clockwiseAngle v1 v2)) = V2.smul (V2.norm v1) v2 := by
  have n1 := norm2_pos h1
  have n2 := norm2_pos h2
  have s1 := norm2_sq v1
  have s2 := norm2_sq v2
  have hp := pi_pos
  have hpos : 0 < V2.norm v1 * V2.norm v2 := mul_pos n1 n2
  have hlag : V2.dot v1 v2 ^ 2 + V2.cross v1 v2 ^ 2 = (V2.norm v1 * V2.norm v2) ^ 2 := by
    rw [mul_pow, s1, s2]; unfold V2.dot V2.cross; ring
  have habs := abs_le_of_sq_le_sq' (by nlinarith [sq_nonneg (V2.cross v1 v2)] : V2.dot v1 v2 ^ 2 ≤ (V2.norm v1 * V2.norm v2) ^ 2) hpos.le
  set c := V2.dot v1 v2 / (V2.norm v1 * V2.norm v2) with hc
  have c1 : -1 ≤ c := by rw [hc, le_div_iff₀ hpos]; linarith [habs.1]
  have c2 : c ≤ 1 := by rw [hc, div_le_one hpos]; exact habs.2
  have hcd : c * (V2.norm v1 * V2.norm v2) = V2.dot v1 v2 := div_mul_cancel₀ _ hpos.ne'
  have hsin : sin (arccos c) * (V2.norm v1 * V2.norm v2) = |V2.cross v1 v2| := by
    rw [sin_arccos, ← sqrt_sq hpos.le, ← sqrt_mul (by nlinarith), ← sqrt_sq_eq_abs]
    congr 1
    have : (1 - c ^ 2) * (V2.norm v1 * V2.norm v2) ^ 2 = (V2.norm v1 * V2.norm v2) ^ 2 - (c * (V2.norm v1 * V2.norm v2)) ^ 2 := by ring
    rw [this, hcd, ← hlag]; ring
  -- the angle is in range, and its cosine and sine are those expected
  have key : 0 < clockwiseAngle v1 v2 ∧ clockwiseAngle v1 v2 ≤ 2 * π ∧ cos (clockwiseAngle v1 v2) = c ∧
      sin (clockwiseAngle v1 v2) * (V2.norm v1 * V2.norm v2) = -V2.cross v1 v2 := by
    unfold clockwiseAngle
    rw [if_neg (not_or.2 ⟨h1, h2⟩)]
    dsimp only
    rw [min_eq_right c2, max_eq_right c1]
    by_cases hx : V2.cross v1 v2 < 0
    · rw [if_pos hx]
      refine ⟨?_, by linarith [arccos_le_pi c], cos_arccos c1 c2, by rw [hsin, abs_of_neg hx]⟩
      rw [arccos_pos]
      rcases c2.lt_or_eq with h | h
      · exact h
      · rw [h, one_mul] at hcd
        rw [← hcd] at hlag
        nlinarith
    · rw [if_neg hx]
      push Not at hx
      refine ⟨by linarith [arccos_le_pi c], by linarith [arccos_nonneg c], by rw [cos_two_pi_sub, cos_arccos c1 c2], ?_⟩
      rw [sin_two_pi_sub, neg_mul, hsin, abs_of_nonneg hx]
  obtain ⟨k1, k2, k3, k4⟩ := key
  refine ⟨k1, k2, ?_⟩
  set a := clockwiseAngle v1 v2
  have hd : cos a * (V2.norm v1 * V2.norm v2) = v1.x * v2.x + v1.y * v2.y := by rw [k3, hcd]; rfl
  have hs : sin a * (V2.norm v1 * V2.norm v2) = -(v1.x * v2.y - v1.y * v2.x) := k4
  unfold V2.rotation V2.rotationCS
  rw [cos_neg, sin_neg]
  ext
  · simp only [V2.smul_x, V2.sub_x, sub_zero, add_zero, V2.sub_y]
    apply mul_right_cancel₀ n1.ne'
    linear_combination v1.x * hd + v1.y * hs - v2.x * s1
  · simp only [V2.smul_y, V2.sub_x, sub_zero, add_zero, V2.sub_y]
    apply mul_right_cancel₀ n1.ne'
    linear_combination v1.y * hd - v1.x * hs - v2.y * s1

/-- A zero vector gives zero. -/
theorem C54_clockwise_angle_zero (v : V2 ℝ) : clockwiseAngle ⟨0, 0⟩ v = 0 ∧ clockwiseAngle v ⟨0, 0⟩ = 0 := by
  unfold clockwiseAngle
  simp

/-- Remark: two vectors of the same direction give a full turn, not zero. -/
theorem C54_clockwise_angle_same (v : V2 ℝ) (h : v ≠ ⟨0, 0⟩) : clockwiseAngle v v = 2 * π := by
  have n1 := norm2_pos h
  have s1 := norm2_sq v
  unfold clockwiseAngle
  rw [if_neg (by simpa using h)]
  dsimp only
  have : V2.dot v v = V2.norm v * V2.norm v := by unfold V2.dot; nlinarith
  rw [this, div_self (by positivity), if_neg (by unfold V2.cross; linarith)]
  simp

example : clockwiseAngle ⟨0, 2⟩ ⟨3, 0⟩ = π / 2 := by
  have h1 : V2.norm ⟨0, 2⟩ = 2 := (by unfold V2.norm; norm_num : V2.norm ⟨0, 2⟩ = √(4 : ℝ)).trans sqrt_four
  have h2 : V2.norm ⟨3, 0⟩ = 3 := (by unfold V2.norm; norm_num : V2.norm ⟨3, 0⟩ = √(9 : ℝ)).trans sqrt_nine
  unfold clockwiseAngle
  rw [h1, h2]
  simp [V2.dot, V2.cross]

/-- The full claim about `angle_principal_measure`: an equivalent angle (up to the tolerance of the comparison) in
`[min_angle, min_angle + 2π]`. -/
def C54_principal_measure_full_statement : Prop :=
  ∀ angle minAngle : ℝ, minAngle ≤ anglePrincipalMeasure angle minAngle ∧ anglePrincipalMeasure angle minAngle ≤ minAngle + 2 * π

/-- The claim is false, already for the default minimum `-π`: three quarters of a turn stay as they are. -/
theorem C54_principal_measure_counterexample :
    anglePrincipalMeasure (3 * π / 2) = 3 * π / 2 ∧ ¬C54_principal_measure_full_statement := by
  have hp := pi_gt_three
  have hp4 := pi_lt_four
  have hfl : ⌊3 * π / 2 / (2 * π)⌋ = 0 := by
    rw [Int.floor_eq_zero_iff]
    refine ⟨by positivity, ?_⟩
    rw [div_lt_one (by positivity)]; linarith
  have h : anglePrincipalMeasure (3 * π / 2) = 3 * π / 2 := by
    unfold anglePrincipalMeasure
    dsimp only
    rw [hfl, show 3 * π / 2 - 2 * π * ((0 : ℤ) : ℝ) = 3 * π / 2 by simp]
    have hmax : ∀ b : ℝ, |b| ≤ 3 * π / 2 → max (1 / 10 ^ 9 * max |3 * π / 2| |b|) (1 / 10 ^ 9) < 1 := by
      intro b hb
      rw [abs_of_pos (by linarith : 0 < 3 * π / 2), max_eq_left hb]
      exact max_lt (by linarith) (by norm_num)
    rw [if_neg, if_neg]
    · unfold mathIsClose
      rw [not_le]
      refine lt_of_lt_of_le (hmax (-π + 2 * π) (by rw [abs_of_pos (by linarith : 0 < -π + 2 * π)]; linarith)) ?_
      rw [abs_of_pos (by linarith)]; linarith
    · unfold mathIsClose
      rw [not_le]
      refine lt_of_lt_of_le (hmax (-π) (by rw [abs_of_neg (by linarith : -π < 0)]; linarith)) ?_
      rw [abs_of_pos (by linarith)]; linarith
  refine ⟨h, fun hc => ?_⟩
  have := (hc (3 * π / 2) (-π)).2
  rw [h] at this
  linarith

/-- **C54 (partial).** What holds for every angle and every minimum: the value is within the tolerance of `angle` up to full turns;
it is the minimum, the maximum, or in `[0, 2π)` whatever the minimum is; hence in the range asked for when the minimum is zero. -/
theorem C54_principal_measure_partial (angle minAngle : ℝ) :
    (∃ n : ℤ, |anglePrincipalMeasure angle minAngle - (angle + n * (2 * π))| ≤
        1 / 10 ^ 9 * (max (2 * π) (max |minAngle| |minAngle + 2 * π|))) ∧
    (anglePrincipalMeasure angle minAngle = minAngle ∨ anglePrincipalMeasure angle minAngle = minAngle + 2 * π ∨
      (0 ≤ anglePrincipalMeasure angle minAngle ∧ anglePrincipalMeasure angle minAngle < 2 * π)) := by
  have hp := pi_gt_three
  have hpos : 0 < 2 * π := by linarith
  unfold anglePrincipalMeasure
  dsimp only
  set r := angle - 2 * π * ⌊angle / (2 * π)⌋ with hr
  have r0 : 0 ≤ r := by
    have := Int.floor_le (angle / (2 * π))
    rw [le_div_iff₀ hpos] at this
    linarith
  have r1 : r < 2 * π := by
    have := Int.lt_floor_add_one (angle / (2 * π))
    rw [div_lt_iff₀ hpos] at this
    linarith
  have band : ∀ m : ℝ, |m| ≤ max |minAngle| |minAngle + 2 * π| → mathIsClose r m (1 / 10 ^ 9) →
      |m - (angle + (-⌊angle / (2 * π)⌋ : ℤ) * (2 * π))| ≤ 1 / 10 ^ 9 * (max (2 * π) (max |minAngle| |minAngle + 2 * π|)) := by
    intro m hm hcl
    unfold mathIsClose at hcl
    push_cast
    rw [show m - (angle + -(⌊angle / (2 * π)⌋ : ℝ) * (2 * π)) = -(r - m) by rw [hr]; ring, abs_neg]
    refine hcl.trans (max_le ?_ ?_)
    · apply mul_le_mul_of_nonneg_left _ (by positivity)
      rw [abs_of_nonneg r0]
      exact max_le (le_max_of_le_left r1.le) (le_max_of_le_right hm)
    · have : (1 : ℝ) ≤ max (2 * π) (max |minAngle| |minAngle + 2 * π|) := le_max_of_le_left (by linarith)
      nlinarith
  by_cases h1 : mathIsClose r minAngle (1 / 10 ^ 9)
  · rw [if_pos h1]
    exact ⟨⟨_, band _ (le_max_left _ _) h1⟩, Or.inl rfl⟩
  · rw [if_neg h1]
    by_cases h2 : mathIsClose r (minAngle + 2 * π) (1 / 10 ^ 9)
    · rw [if_pos h2]
      exact ⟨⟨_, band _ (le_max_right _ _) h2⟩, Or.inr (Or.inl rfl)⟩
    · rw [if_neg h2]
      refine ⟨⟨-⌊angle / (2 * π)⌋, ?_⟩, Or.inr (Or.inr ⟨r0, r1⟩)⟩
      push_cast
      rw [show r - (angle + -(⌊angle / (2 * π)⌋ : ℝ) * (2 * π)) = 0 by rw [hr]; ring, abs_zero]
      positivity

/-- **C54 (partial).** With the minimum zero, the range of the claim. -/
theorem C54_principal_measure_zero_partial (angle : ℝ) :
    0 ≤ anglePrincipalMeasure angle 0 ∧ anglePrincipalMeasure angle 0 ≤ 2 * π := by
  have hp := pi_pos
  rcases (C54_principal_measure_partial angle 0).2 with h | h | h
  · rw [h]; constructor <;> linarith
  · rw [h]; constructor <;> linarith
  · exact ⟨h.1, h.2.le⟩

end Volmdlr.Angle
