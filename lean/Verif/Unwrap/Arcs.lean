import Verif.Unwrap.Multiples
import Mathlib.Algebra.Order.Floor.Ring
import Mathlib.Data.Rat.Floor

/-!
# C171-C173: the ends of arcs in the parametric domain
-/

namespace Volmdlr.Unwrap

variable {K : Type} [Field K] [LinearOrder K] [IsStrictOrderedRing K]

lemma close_abs {a b tol : K} (ha : |a| ≤ 4) (hb : |b| ≤ 4) (ht : 1 / 10 ^ 8 ≤ tol) : mathIsClose a b tol = true ↔ |a - b| ≤ tol := by
  unfold mathIsClose
  rw [decide_eq_true_iff]
  have h1 : max |a| |b| ≤ 4 := max_le ha hb
  have h2 : 1 / 10 ^ 9 * max |a| |b| ≤ tol := by
    have h3 : (1 : K) / 10 ^ 9 * max |a| |b| ≤ 1 / 10 ^ 9 * 4 := mul_le_mul_of_nonneg_left h1 (by positivity)
    have h4 : (1 : K) / 10 ^ 9 * 4 ≤ 1 / 10 ^ 8 := by norm_num
    linarith
  rw [max_eq_right h2]

/-- What the four tests of `repair_start_end_angle_periodicity` say. -/
lemma repair_cases {pi angle ref : K} (h3 : 3 ≤ pi) (h4 : pi ≤ 4) (ha : |angle| ≤ pi) :
    (repairAngle pi angle ref = -pi ∧ |angle - pi| ≤ 1 / 10 ^ 3 ∧ ref < 0) ∨
    (repairAngle pi angle ref = pi ∧ |angle + pi| ≤ 1 / 10 ^ 3 ∧ 0 < ref) ∨
    (repairAngle pi angle ref = -(1 / 2) * pi ∧ |angle - 1 / 2 * pi| ≤ 1 / 10 ^ 3 ∧ ref < 0) ∨
    (repairAngle pi angle ref = 1 / 2 * pi ∧ |angle + 1 / 2 * pi| ≤ 1 / 10 ^ 3 ∧ 0 < ref) ∨
    (repairAngle pi angle ref = angle ∧ (|angle - pi| ≤ 1 / 10 ^ 3 → 0 ≤ ref) ∧ (|angle + pi| ≤ 1 / 10 ^ 3 → ref ≤ 0)) := by
  have ha4 : |angle| ≤ 4 := le_trans ha h4
  have hp : |pi| ≤ 4 := by rw [abs_of_pos (by linarith)]; exact h4
  have hpn : |-pi| ≤ 4 := by rw [abs_neg]; exact hp
  have hh : |1 / 2 * pi| ≤ 4 := by rw [abs_of_pos (by linarith)]; linarith
  have hhn : |-(1 / 2) * pi| ≤ 4 := by rw [neg_mul, abs_neg]; exact hh
  have ht : (1 : K) / 10 ^ 8 ≤ 1 / 10 ^ 3 := by norm_num
  have c1 := close_abs ha4 hp ht
  have c2 := close_abs ha4 hpn ht
  have c3 := close_abs ha4 hh ht
  have c4 := close_abs ha4 hhn ht
  have e2 : angle - -pi = angle + pi := by ring
  have e4 : angle - -(1 / 2) * pi = angle + 1 / 2 * pi := by ring
  rw [e2] at c2
  rw [e4] at c4
  unfold repairAngle
  simp only [c1, c2, c3, c4]
  split_ifs with q1 q2 q3 q4
  · exact Or.inl ⟨rfl, q1⟩
  · exact Or.inr (Or.inl ⟨rfl, q2⟩)
  · exact Or.inr (Or.inr (Or.inl ⟨rfl, q3⟩))
  · exact Or.inr (Or.inr (Or.inr (Or.inl ⟨rfl, q4⟩)))
  · refine Or.inr (Or.inr (Or.inr (Or.inr ⟨rfl, ?_, ?_⟩)))
    · intro h
      by_contra hc
      exact q1 ⟨h, not_le.mp hc⟩
    · intro h
      by_contra hc
      exact q2 ⟨h, not_le.mp hc⟩

/-- **C171** `repair_start_end_angle_periodicity`: let the reference be the reduced angle of a point of the edge `d` away, less than a quarter of a turn
(by a thousandth).  If the edge leaves the period between the two it does at the end itself; then the angle returned is the one which is continuous with
the reference: it differs from it by `d`, without any turn.  In full, whatever the reference the angle would keep its direction: see
`C171_counterexample`. -/
theorem C171_repair_partial {pi angle ref d : K} {k : ℤ} (h3 : 3 ≤ pi) (h4 : pi ≤ 4) (ha : |angle| ≤ pi) (hr : |ref| ≤ pi)
    (hd : |d| < 1 / 2 * pi - 1 / 10 ^ 3) (hlift : ref + 2 * pi * (k : K) = angle + d) (hk : k ≠ 0 → |angle| = pi) :
    repairAngle pi angle ref + d = ref := by
  have ha' := abs_le.mp ha
  have hr' := abs_le.mp hr
  have hd' := abs_lt.mp hd
  norm_num at hd'
  have hcases := repair_cases (ref := ref) h3 h4 ha
  norm_num at hcases
  by_cases hk0 : k = 0
  · rw [hk0] at hlift
    push_cast at hlift
    rcases hcases with ⟨_, h1, h2⟩ | ⟨_, h1, h2⟩ | ⟨_, h1, h2⟩ | ⟨_, h1, h2⟩ | ⟨h1, _⟩
    · have := abs_le.mp h1; linarith
    · have := abs_le.mp h1; linarith
    · have := abs_le.mp h1; linarith
    · have := abs_le.mp h1; linarith
    · rw [h1]; linarith
  · have hlt : (k : K) < 2 := by
      by_contra hc
      have := mul_le_mul_of_nonneg_left (not_lt.mp hc) (show 0 ≤ 2 * pi by linarith)
      linarith
    have hgt : -2 < (k : K) := by
      by_contra hc
      have := mul_le_mul_of_nonneg_left (not_lt.mp hc) (show 0 ≤ 2 * pi by linarith)
      linarith
    have hlt' : k < 2 := by exact_mod_cast hlt
    have hgt' : -2 < k := by exact_mod_cast hgt
    have hk1 : k = 1 ∨ k = -1 := by omega
    have hpi : angle = pi ∨ angle = -pi := by
      have := hk hk0
      rcases abs_choice angle with h | h <;> rw [h] at this
      · exact Or.inl this
      · exact Or.inr (by linarith)
    rcases hk1 with hk1 | hk1 <;> rw [hk1] at hlift <;> push_cast at hlift <;> rcases hpi with hp | hp
    · rcases hcases with ⟨h0, h1, h2⟩ | ⟨_, h1, h2⟩ | ⟨_, h1, h2⟩ | ⟨_, h1, h2⟩ | ⟨_, h1, _⟩
      · rw [h0]; linarith
      · have := abs_le.mp h1; linarith
      · have := abs_le.mp h1; linarith
      · have := abs_le.mp h1; linarith
      · have := h1 (by rw [hp]; norm_num); linarith
    · linarith
    · linarith
    · rcases hcases with ⟨_, h1, h2⟩ | ⟨h0, h1, h2⟩ | ⟨_, h1, h2⟩ | ⟨_, h1, h2⟩ | ⟨_, _, h1⟩
      · have := abs_le.mp h1; linarith
      · rw [h0]; linarith
      · have := abs_le.mp h1; linarith
      · have := abs_le.mp h1; linarith
      · have := h1 (by rw [hp]; norm_num); linarith

/-- An edge which starts at `π` and turns on: the reference is `π + 1/10 - 2π`, and the angle becomes `-π`. -/
example : ∃ angle ref d : ℝ, |angle| ≤ Real.pi ∧ |ref| ≤ Real.pi ∧ |d| < 1 / 2 * Real.pi - 1 / 10 ^ 3 ∧
    ref + 2 * Real.pi * ((1 : ℤ) : ℝ) = angle + d ∧ ((1 : ℤ) ≠ 0 → |angle| = Real.pi) := by
  have h3 := Real.pi_gt_three
  refine ⟨Real.pi, 1 / 10 - Real.pi, 1 / 10, ?_, ?_, ?_, ?_, ?_⟩
  · rw [abs_of_pos (by linarith)]
  · rw [abs_le]; constructor <;> linarith
  · rw [abs_of_pos (by norm_num)]; norm_num; linarith
  · push_cast; ring
  · intro _; rw [abs_of_pos (by linarith)]

/-- C171 in full: the angle returned has the direction of the angle given, up to the tolerance. -/
def C171_full_statement : Prop :=
  ∀ angle ref : ℝ, |angle| ≤ Real.pi → |ref| ≤ Real.pi → ∃ k : ℤ, |repairAngle Real.pi angle ref - angle - 2 * Real.pi * (k : ℝ)| ≤ 1 / 10 ^ 3

/-- **C171** A right angle is sent to the opposite one when the reference is negative: the point of the surface changes. -/
theorem C171_counterexample : ¬ C171_full_statement := by
  intro h
  have h3 := Real.pi_gt_three
  have h4 := Real.pi_le_four
  obtain ⟨k, hk⟩ := h (1 / 2 * Real.pi) (-1) (by rw [abs_of_pos (by linarith)]; linarith) (by rw [abs_neg, abs_one]; linarith)
  have ha : |1 / 2 * Real.pi| ≤ Real.pi := by rw [abs_of_pos (by linarith)]; linarith
  have hr : repairAngle Real.pi (1 / 2 * Real.pi) (-1) = -(1 / 2) * Real.pi := by
    have hc3 : mathIsClose (1 / 2 * Real.pi) (1 / 2 * Real.pi) (1 / 10 ^ 3) = true :=
      (close_abs (by linarith) (by linarith) (by norm_num)).mpr (by rw [sub_self, abs_zero]; norm_num)
    have hc1 : ¬ (mathIsClose (1 / 2 * Real.pi) Real.pi (1 / 10 ^ 3) = true ∧ (-1 : ℝ) < 0) := by
      rintro ⟨hc, _⟩
      have := (abs_le.mp ((close_abs (by linarith) (by rw [abs_of_pos (by linarith)]; exact h4) (by norm_num)).mp hc)).1
      norm_num at this
      linarith
    have hc2 : ¬ (mathIsClose (1 / 2 * Real.pi) (-Real.pi) (1 / 10 ^ 3) = true ∧ (0 : ℝ) < -1) := by
      rintro ⟨_, hc⟩
      linarith
    unfold repairAngle
    rw [if_neg hc1, if_neg hc2, if_pos ⟨hc3, by norm_num⟩]
  rw [hr] at hk
  have hk' := abs_le.mp hk
  norm_num at hk'
  have hlt : (k : ℝ) < 0 := by
    by_contra hc
    have := mul_le_mul_of_nonneg_left (not_lt.mp hc) (show 0 ≤ 2 * Real.pi by linarith)
    linarith
  have hgt : -1 < (k : ℝ) := by
    by_contra hc
    have := mul_le_mul_of_nonneg_left (not_lt.mp hc) (show 0 ≤ 2 * Real.pi by linarith)
    linarith
  have hlt' : k < 0 := by exact_mod_cast hlt
  have hgt' : -1 < k := by exact_mod_cast hgt
  omega

/-- Specification: `x` is the angle `a` reduced to the period `]-π, π]`. -/
def Reduced (pi a x : K) : Prop := -pi < x ∧ x ≤ pi ∧ ∃ k : ℤ, a = x + 2 * pi * (k : K)

/-- Specification: an arc which starts at the angle `theta1` and turns by `sweep`, less than a turn in either direction; `theta2` is the angle of its end and
`theta` those of its points, at a fraction of its length, all reduced.  `uS`, `uE` tell that the ends are at the angle `π`, `cross` that the arc
goes through the angle `π` and that this is not one of its ends. -/
structure ArcAngle (pi theta1 theta2 sweep : K) (theta : K → K) (uS uE cross : Bool) : Prop where
  sweepLt : |sweep| < 2 * pi
  start : -pi < theta1 ∧ theta1 ≤ pi
  fin : Reduced pi (theta1 + sweep) theta2
  points : ∀ s, Reduced pi (theta1 + s * sweep) (theta s)
  startFlag : uS = true ↔ theta1 = pi
  finFlag : uE = true ↔ theta2 = pi
  crossFlag : cross = true ↔ theta1 ≠ pi ∧ theta2 ≠ pi ∧ ∃ s, 0 < s ∧ s < 1 ∧ ∃ k : ℤ, theta1 + s * sweep = pi + 2 * pi * (k : K)

/-- An angle followed by the reduced angle of a near point: the angle repaired. -/
lemma repaired {pi a r d : K} (h3 : 3 ≤ pi) (h4 : pi ≤ 4) (ha : -pi < a ∧ a ≤ pi) (hr : Reduced pi (a + d) r) (hd : |d| * 5 ≤ pi) (u : Bool)
    (hu : u = true ↔ a = pi) :
    (if u = true ∨ |a| = 1 / 2 * pi then repairAngle pi a r else a) = if a = pi ∧ 0 < d then -pi else a := by
  obtain ⟨hr1, hr2, k, hk⟩ := hr
  have hd' := abs_le.mp (show |d| ≤ pi / 5 by linarith)
  have hrp : |r| ≤ pi := abs_le.mpr ⟨hr1.le, hr2⟩
  have hap : |a| ≤ pi := abs_le.mpr ⟨ha.1.le, ha.2⟩
  have hdq : |d| < 1 / 2 * pi - 1 / 10 ^ 3 := by norm_num; linarith
  by_cases hcase : u = true ∨ |a| = 1 / 2 * pi
  · rw [if_pos hcase]
    have hkk : k ≠ 0 → |a| = pi := by
      intro hk0
      rcases hcase with h | h
      · rw [hu.mp h, abs_of_pos (by linarith)]
      · exfalso
        have hh : a = 1 / 2 * pi ∨ a = -(1 / 2 * pi) := by
          rcases abs_choice a with hc | hc <;> rw [hc] at h
          · exact Or.inl h
          · exact Or.inr (by linarith)
        have hlt : (k : K) < 1 := by
          by_contra hc
          have := mul_le_mul_of_nonneg_left (not_lt.mp hc) (show 0 ≤ 2 * pi by linarith)
          rcases hh with hh | hh <;> linarith
        have hgt : -1 < (k : K) := by
          by_contra hc
          have := mul_le_mul_of_nonneg_left (not_lt.mp hc) (show 0 ≤ 2 * pi by linarith)
          rcases hh with hh | hh <;> linarith
        have hlt' : k < 1 := by exact_mod_cast hlt
        have hgt' : -1 < k := by exact_mod_cast hgt
        omega
    have hmain := C171_repair_partial h3 h4 hap hrp hdq hk.symm hkk
    have hlt : (k : K) < 2 := by
      by_contra hc
      have := mul_le_mul_of_nonneg_left (not_lt.mp hc) (show 0 ≤ 2 * pi by linarith)
      linarith
    have hgt : -1 < (k : K) := by
      by_contra hc
      have := mul_le_mul_of_nonneg_left (not_lt.mp hc) (show 0 ≤ 2 * pi by linarith)
      rcases eq_or_ne k 0 with h0 | h0
      · rw [h0] at hc; push_cast at hc; linarith
      · have h5 := hkk h0
        rcases abs_choice a with hc' | hc' <;> rw [hc'] at h5 <;> linarith
    have hlt' : k < 2 := by exact_mod_cast hlt
    have hgt' : -1 < k := by exact_mod_cast hgt
    have hk01 : k = 0 ∨ k = 1 := by omega
    rcases hk01 with h0 | h0 <;> rw [h0] at hk <;> push_cast at hk
    · rw [if_neg]
      · linarith
      · rintro ⟨h5, h6⟩; linarith
    · rw [if_pos]
      · have h5 := hkk (by omega)
        have h6 : a = pi := by
          rcases abs_choice a with hc' | hc' <;> rw [hc'] at h5 <;> linarith
        linarith
      · have h5 := hkk (by omega)
        have h6 : a = pi := by
          rcases abs_choice a with hc' | hc' <;> rw [hc'] at h5 <;> linarith
        exact ⟨h6, by linarith⟩
  · rw [if_neg hcase, if_neg]
    rintro ⟨h5, _⟩
    exact hcase (Or.inl (hu.mpr h5))

/-- The first reference is the reduced angle of a point near the start, the second one of a point near the end. -/
lemma references {pi theta1 theta2 sweep : K} {theta : K → K} {uS uE cross : Bool} (h : ArcAngle pi theta1 theta2 sweep theta uS uE cross) :
    (∃ s, 0 < s ∧ s ≤ 1 / 50 ∧ Reduced pi (theta1 + s * sweep) (referencePoints pi theta).1) ∧
    ∃ s, 0 < s ∧ s ≤ 3 / 100 ∧ Reduced pi (theta2 - s * sweep) (referencePoints pi theta).2 := by
  obtain ⟨_, _, k, hk⟩ := h.fin
  have hsec : ∀ s, Reduced pi (theta2 - s * sweep) (theta (1 - s)) := by
    intro s
    obtain ⟨h1, h2, j, hj⟩ := h.points (1 - s)
    refine ⟨h1, h2, j - k, ?_⟩
    push_cast
    linear_combination hj - hk
  unfold referencePoints
  dsimp only
  constructor
  · split_ifs
    · exact ⟨2 / 100, by norm_num, by norm_num, h.points _⟩
    · exact ⟨1 / 100, by norm_num, by norm_num, h.points _⟩
  · split_ifs
    · refine ⟨3 / 100, by norm_num, by norm_num, ?_⟩
      have := hsec (3 / 100)
      rwa [show (1 : K) - 3 / 100 = 97 / 100 by norm_num] at this
    · refine ⟨2 / 100, by norm_num, by norm_num, ?_⟩
      have := hsec (2 / 100)
      rwa [show (1 : K) - 2 / 100 = 98 / 100 by norm_num] at this

lemma small_abs {pi s sweep : K} (h : |sweep| < 2 * pi) (h0 : 0 < s) (hs : s ≤ 3 / 100) : |s * sweep| * 5 ≤ pi := by
  rw [abs_mul, abs_of_pos h0]
  have h1 := abs_nonneg sweep
  have h2 : s * |sweep| ≤ 3 / 100 * |sweep| := mul_le_mul_of_nonneg_right hs h1
  linarith

/-- The angles of the ends once repaired, and the test of the crossing: the difference of the angles returned is the angle of the arc. -/
lemma sweep_kept {pi theta1 theta2 sweep : K} {theta : K → K} {uS uE cross : Bool} (h3 : 3 ≤ pi) (h4 : pi ≤ 4)
    (h : ArcAngle pi theta1 theta2 sweep theta uS uE cross) (a b : K) (ha : a = if theta1 = pi ∧ 0 < sweep then -pi else theta1)
    (hb : b = if theta2 = pi ∧ sweep < 0 then -pi else theta2) :
    (if cross then repairContinuity a b (2 * pi) else (a, b)).2 - (if cross then repairContinuity a b (2 * pi) else (a, b)).1 = sweep ∧
    (if cross then repairContinuity a b (2 * pi) else (a, b)).1 = a := by
  obtain ⟨hs1, hs2⟩ := h.start
  obtain ⟨hf1, hf2, k, hk⟩ := h.fin
  have hw := abs_lt.mp h.sweepLt
  have bound : ∀ {z : ℤ} {lo hi : K}, lo ≤ 2 * pi * (z : K) → 2 * pi * (z : K) ≤ hi → ∀ n : ℤ, (hi < 2 * pi * (n : K) → z < n) ∧ (2 * pi * (n : K) < lo → n < z) := by
    intro z lo hi h1 h2 n
    constructor
    · intro h5
      have : (z : K) < (n : K) := by
        by_contra hc
        have := mul_le_mul_of_nonneg_left (not_lt.mp hc) (show 0 ≤ 2 * pi by linarith)
        linarith
      exact_mod_cast this
    · intro h5
      have : (n : K) < (z : K) := by
        by_contra hc
        have := mul_le_mul_of_nonneg_left (not_lt.mp hc) (show 0 ≤ 2 * pi by linarith)
        linarith
      exact_mod_cast this
  -- the interior of the arc, away from the ends
  have cross_false : ∀ lo hi : K, -pi ≤ lo → hi ≤ pi → (∀ s, 0 < s → s < 1 → ∃ j : ℤ, lo < theta1 + s * sweep + 2 * pi * (j : K) ∧
      theta1 + s * sweep + 2 * pi * (j : K) < hi) → cross = false := by
    intro lo hi hlo hhi hin
    rw [← Bool.not_eq_true]
    intro hc
    obtain ⟨_, _, s, hs0, hs1, n, hn⟩ := h.crossFlag.mp hc
    obtain ⟨j, hj1, hj2⟩ := hin s hs0 hs1
    rw [hn] at hj1 hj2
    have hb1 : -1 < n + j := by
      have : (-1 : K) < ((n + j : ℤ) : K) := by
        by_contra hcc
        have := mul_le_mul_of_nonneg_left (not_lt.mp hcc) (show 0 ≤ 2 * pi by linarith)
        push_cast at this
        linarith
      exact_mod_cast this
    have hb2 : n + j < 0 := by
      have : ((n + j : ℤ) : K) < 0 := by
        by_contra hcc
        have := mul_le_mul_of_nonneg_left (not_lt.mp hcc) (show 0 ≤ 2 * pi by linarith)
        push_cast at this
        linarith
      exact_mod_cast this
    omega
  rcases lt_trichotomy sweep 0 with hneg | hzero | hpos
  · rw [if_neg (by rintro ⟨_, hc⟩; linarith)] at ha
    replace ha := ha.symm
    subst ha
    have hk2 : k = 0 ∨ k = -1 := by
      have h1 := (bound (z := k) (lo := theta1 + sweep - theta2) (hi := theta1 + sweep - theta2) (by linarith) (by linarith))
      have h5 := (h1 1).1 (by push_cast; linarith)
      have h6 : -3 < k := (h1 (-3)).2 (by push_cast; linarith)
      have h7 : k ≠ -2 := by
        intro hc
        rw [hc] at hk
        push_cast at hk
        linarith
      omega
    by_cases he : theta2 = pi
    · -- the end is at the angle π: it is taken as -π
      rw [if_pos ⟨he, hneg⟩] at hb
      have hk' : k = -1 := by
        rcases hk2 with hk2 | hk2
        · rw [hk2, he] at hk
          push_cast at hk
          linarith
        · exact hk2
      rw [hk', he] at hk
      push_cast at hk
      have hc : cross = false := by
        rw [← Bool.not_eq_true]
        intro hc
        exact (h.crossFlag.mp hc).2.1 he
      rw [hc]
      simp only [Bool.false_eq_true, if_false, and_true]
      rw [hb]
      linarith
    · rw [if_neg (by rintro ⟨hc, _⟩; exact he hc)] at hb
      replace hb := hb.symm
      subst hb
      rcases hk2 with hk2 | hk2 <;> rw [hk2] at hk <;> push_cast at hk
      · have hc : cross = false := by
          apply cross_false theta2 theta1 hf1.le hs2
          intro s h0 h1
          refine ⟨0, ?_, ?_⟩ <;> push_cast <;> nlinarith
        rw [hc]
        simp only [Bool.false_eq_true, if_false, and_true]
        linarith
      · by_cases hst : theta1 = pi
        · exfalso; linarith
        · have hlt : theta2 < pi := lt_of_le_of_ne hf2 he
          have hc : cross = true := by
            rw [h.crossFlag]
            refine ⟨hst, he, (theta1 + pi) / -sweep, div_pos (by linarith) (by linarith), ?_, -1, ?_⟩
            · rw [div_lt_one (by linarith)]
              linarith
            · have : (theta1 + pi) / -sweep * sweep = -(theta1 + pi) := by
                rw [div_mul_eq_mul_div, div_eq_iff (by linarith : -sweep ≠ 0)]
                ring
              rw [this]
              push_cast
              ring
          rw [hc]
          simp only [if_true]
          unfold repairContinuity
          rw [if_pos (by linarith)]
          simp only [and_true]
          linarith
  · rw [if_neg (by rintro ⟨_, hc⟩; linarith)] at ha
    rw [if_neg (by rintro ⟨_, hc⟩; linarith)] at hb
    replace ha := ha.symm
    replace hb := hb.symm
    subst ha hb
    have hk0 : k = 0 := by
      have h1 := (bound (z := k) (lo := theta1 + sweep - theta2) (hi := theta1 + sweep - theta2) (by linarith) (by linarith))
      have h5 := (h1 1).1 (by push_cast; linarith)
      have h6 := (h1 (-1)).2 (by push_cast; linarith)
      omega
    rw [hk0] at hk
    push_cast at hk
    have hc : cross = false := by
      rw [← Bool.not_eq_true]
      intro hc
      obtain ⟨h5, _, s, _, _, n, hn⟩ := h.crossFlag.mp hc
      rw [hzero, mul_zero, add_zero] at hn
      have h1 := (bound (z := n) (lo := theta1 - pi) (hi := theta1 - pi) (by linarith) (by linarith))
      have h6 := (h1 1).1 (by push_cast; linarith)
      have h7 := (h1 (-1)).2 (by push_cast; linarith)
      have h8 : n = 0 := by omega
      rw [h8] at hn
      push_cast at hn
      exact h5 (by linarith)
    rw [hc]
    simp only [Bool.false_eq_true, if_false, and_true]
    linarith
  · rw [if_neg (by rintro ⟨_, hc⟩; linarith)] at hb
    replace hb := hb.symm
    subst hb
    have hk2 : k = 0 ∨ k = 1 := by
      have h1 := (bound (z := k) (lo := theta1 + sweep - theta2) (hi := theta1 + sweep - theta2) (by linarith) (by linarith))
      have h5 := (h1 2).1 (by push_cast; linarith)
      have h6 := (h1 (-1)).2 (by push_cast; linarith)
      omega
    by_cases hst : theta1 = pi
    · rw [if_pos ⟨hst, hpos⟩] at ha
      have hk' : k = 1 := by
        rcases hk2 with hk2 | hk2
        · rw [hk2, hst] at hk
          push_cast at hk
          linarith
        · exact hk2
      rw [hk', hst] at hk
      push_cast at hk
      have hc : cross = false := by
        rw [← Bool.not_eq_true]
        intro hc
        exact (h.crossFlag.mp hc).1 hst
      rw [hc]
      simp only [Bool.false_eq_true, if_false, and_true]
      rw [ha]
      linarith
    · rw [if_neg (by rintro ⟨hc, _⟩; exact hst hc)] at ha
      replace ha := ha.symm
      subst ha
      have hlt : theta1 < pi := lt_of_le_of_ne hs2 hst
      rcases hk2 with hk2 | hk2 <;> rw [hk2] at hk <;> push_cast at hk
      · have hc : cross = false := by
          apply cross_false theta1 theta2 hs1.le hf2
          intro s h0 h1
          refine ⟨0, ?_, ?_⟩ <;> push_cast <;> nlinarith
        rw [hc]
        simp only [Bool.false_eq_true, if_false, and_true]
        linarith
      · have hc : cross = true := by
          rw [h.crossFlag]
          refine ⟨hst, ?_, (pi - theta1) / sweep, div_pos (by linarith) hpos, ?_, 0, ?_⟩
          · intro hc
            linarith
          · rw [div_lt_one hpos]
            linarith
          · rw [div_mul_cancel₀ _ hpos.ne']
            push_cast
            ring
        rw [hc]
        simp only [if_true]
        unfold repairContinuity
        rw [if_neg (by linarith)]
        simp only [and_true]
        linarith

/-- **C172** An arc of a cylinder (or cone) around its axis, sweeping `sweep`, becomes a segment of the parametric domain over exactly this angle, which starts at
the angle of its start, up to whole turns, at the heights of its ends; in the direction of the arc, through the angle `π` or not, and with ends there or not. -/
theorem C172_arc {pi theta1 theta2 sweep : K} {theta : K → K} {uS uE cross : Bool} (h3 : 3 ≤ pi) (h4 : pi ≤ 4)
    (h : ArcAngle pi theta1 theta2 sweep theta uS uE cross) (z1 z2 : K) :
    let r := arcToCylindrical pi ⟨theta1, z1⟩ ⟨theta2, z2⟩ uS uE (referencePoints pi theta).1 (referencePoints pi theta).2 cross
    r.2.x - r.1.x = sweep ∧ (∃ k : ℤ, r.1.x = theta1 + 2 * pi * (k : K)) ∧ r.1.y = z1 ∧ r.2.y = z2 := by
  obtain ⟨⟨s1, hs1, hs1', hr1⟩, s2, hs2, hs2', hr2⟩ := references h
  have e1 := repaired h3 h4 h.start hr1 (small_abs h.sweepLt hs1 (by linarith)) uS h.startFlag
  have hr2' : Reduced pi (theta2 + -(s2 * sweep)) (referencePoints pi theta).2 := by
    rw [← sub_eq_add_neg]; exact hr2
  have e2 := repaired h3 h4 ⟨h.fin.1, h.fin.2.1⟩ hr2' (by rw [abs_neg]; exact small_abs h.sweepLt hs2 hs2') uE h.finFlag
  have f1 : (0 < s1 * sweep) ↔ 0 < sweep := by rw [mul_pos_iff_of_pos_left hs1]
  have f2 : (0 < -(s2 * sweep)) ↔ sweep < 0 := by rw [neg_pos, ← smul_eq_mul, smul_neg_iff_of_pos_left hs2]
  simp only [f1] at e1
  simp only [f2] at e2
  have hmain := sweep_kept h3 h4 h _ _ rfl rfl
  unfold arcToCylindrical
  dsimp only
  rw [e1, e2]
  refine ⟨hmain.1, ?_, rfl, rfl⟩
  rw [hmain.2]
  split_ifs with hc
  · exact ⟨-1, by rw [hc.1]; push_cast; ring⟩
  · exact ⟨0, by push_cast; ring⟩

/-- An arc from `π/2` to `3π/2`, which is `-π/2`, through `π`: with the unit of angle of `ℚ` where `π` is 3.  Every angle is reduced with the floor function. -/
example : ∃ theta : ℚ → ℚ, ArcAngle (3 : ℚ) (3 / 2) (-3 / 2) 3 theta false false true := by
  have hred : ∀ a : ℚ, Reduced (3 : ℚ) a (a - 6 * (⌈(a - 3) / 6⌉ : ℚ)) := by
    intro a
    have h1 := Int.le_ceil ((a - 3) / 6)
    have h2 := Int.ceil_lt_add_one ((a - 3) / 6)
    exact ⟨by linarith, by linarith, ⌈(a - 3) / 6⌉, by ring⟩
  refine ⟨fun s => (3 / 2 + s * 3) - 6 * (⌈(3 / 2 + s * 3 - 3) / 6⌉ : ℚ), by norm_num, by norm_num, ⟨by norm_num, by norm_num, 1, by norm_num⟩, fun s => hred _,
    by norm_num, by norm_num, ?_⟩
  refine ⟨fun _ => ⟨by norm_num, by norm_num, 1 / 2, by norm_num, by norm_num, 0, by norm_num⟩, fun _ => rfl⟩

/-- **C172** On a torus both coordinates keep their sweep. -/
theorem C172_toroidal_arc {pi theta1 theta2 phi1 phi2 sweepT sweepP : K} {theta phi : K → K} {uS uE cross uSp uEp crossP : Bool} (h3 : 3 ≤ pi) (h4 : pi ≤ 4)
    (h : ArcAngle pi theta1 theta2 sweepT theta uS uE cross) (hp : ArcAngle pi phi1 phi2 sweepP phi uSp uEp crossP) {s1 s2 : K}
    (hs1 : 0 < s1 ∧ s1 ≤ 3 / 100) (hs2 : 0 < s2 ∧ s2 ≤ 3 / 100) :
    let r := arcToToroidal pi ⟨theta1, phi1⟩ ⟨theta2, phi2⟩ uS uE uSp uEp ⟨theta s1, phi s1⟩ ⟨theta (1 - s2), phi (1 - s2)⟩ cross crossP
    r.2.x - r.1.x = sweepT ∧ r.2.y - r.1.y = sweepP ∧ (∃ k : ℤ, r.1.x = theta1 + 2 * pi * (k : K)) ∧ ∃ k : ℤ, r.1.y = phi1 + 2 * pi * (k : K) := by
  have one : ∀ {a b w : K} {f : K → K} {u v c : Bool}, ArcAngle pi a b w f u v c →
      (if u = true ∨ |a| = 1 / 2 * pi then repairAngle pi a (f s1) else a) = (if a = pi ∧ 0 < w then -pi else a) ∧
      (if v = true ∨ |b| = 1 / 2 * pi then repairAngle pi b (f (1 - s2)) else b) = (if b = pi ∧ w < 0 then -pi else b) := by
    intro a b w f u v c ha
    obtain ⟨_, _, k, hk⟩ := ha.fin
    have hr2 : Reduced pi (b + -(s2 * w)) (f (1 - s2)) := by
      obtain ⟨h1, h2, j, hj⟩ := ha.points (1 - s2)
      refine ⟨h1, h2, j - k, ?_⟩
      push_cast
      linear_combination hj - hk
    have e1 := repaired h3 h4 ha.start (ha.points s1) (small_abs ha.sweepLt hs1.1 hs1.2) u ha.startFlag
    have e2 := repaired h3 h4 ⟨ha.fin.1, ha.fin.2.1⟩ hr2 (by rw [abs_neg]; exact small_abs ha.sweepLt hs2.1 hs2.2) v ha.finFlag
    simp only [mul_pos_iff_of_pos_left hs1.1] at e1
    have f2 : (0 < -(s2 * w)) ↔ w < 0 := by rw [neg_pos, ← smul_eq_mul, smul_neg_iff_of_pos_left hs2.1]
    simp only [f2] at e2
    exact ⟨e1, e2⟩
  obtain ⟨t1, t2⟩ := one h
  obtain ⟨p1, p2⟩ := one hp
  have ht := sweep_kept h3 h4 h _ _ rfl rfl
  have hpp := sweep_kept h3 h4 hp _ _ rfl rfl
  have start : ∀ a w : K, ∃ k : ℤ, (if a = pi ∧ 0 < w then -pi else a) = a + 2 * pi * (k : K) := by
    intro a w
    split_ifs with hc
    · exact ⟨-1, by rw [hc.1]; push_cast; ring⟩
    · exact ⟨0, by push_cast; ring⟩
  unfold arcToToroidal toroidalRepair
  dsimp only
  rw [t1, t2, p1, p2]
  refine ⟨ht.1, hpp.1, ?_, ?_⟩
  · rw [ht.2]; exact start _ _
  · rw [hpp.2]; exact start _ _

/-- **C173** A full circle of a cylinder: its segment turns once, in the direction given by the sign of the product of the normals, exactly in the positive
direction, within the tolerance in the other one, and starts at the angle of the circle within the tolerance. -/
theorem C173_full_arc {pi normalDot theta z1 z2 : K} (h3 : 3 ≤ pi) (h4 : pi ≤ 4) (ht : |theta| ≤ pi) :
    let r := fullArcToCylindrical pi ⟨theta, z1⟩ ⟨theta, z2⟩ normalDot
    r.1.y = z1 ∧ r.2.y = z2 ∧ (0 < normalDot → r.1.x = theta ∧ r.2.x = theta + 2 * pi) ∧
    (normalDot < 0 → |r.2.x - (r.1.x - 2 * pi)| ≤ 1 / 10 ^ 6 ∧ ∃ k : ℤ, |r.1.x - (theta + 2 * pi * (k : K))| ≤ 1 / 10 ^ 6) := by
  have hclose := close_abs (a := theta) (b := -pi) (tol := 1 / 10 ^ 6) (le_trans ht h4) (by rw [abs_neg, abs_of_pos (by linarith)]; exact h4) (by norm_num)
  unfold fullArcToCylindrical
  dsimp only
  simp only [hclose]
  split_ifs with h1 h2 h5
  · exact ⟨rfl, rfl, fun _ => ⟨rfl, rfl⟩, fun hc => absurd h1 (not_lt.mpr hc.le)⟩
  · refine ⟨rfl, rfl, fun hc => absurd hc h1, fun _ => ⟨?_, 1, ?_⟩⟩
    · rw [show theta - (pi - 2 * pi) = theta - -pi by ring]
      exact h2.2
    · rw [abs_sub_comm]
      push_cast
      rw [show theta + 2 * pi * 1 - pi = theta - -pi by ring]
      exact h2.2
  · refine ⟨rfl, rfl, fun hc => absurd hc h1, fun _ => ⟨by rw [sub_self, abs_zero]; positivity, 0, ?_⟩⟩
    push_cast
    rw [mul_zero, add_zero, sub_self, abs_zero]
    positivity
  · exact ⟨rfl, rfl, fun hc => absurd hc h1, fun hc => absurd hc h5⟩

/-- A full circle in the negative direction from the angle `-π`: from `π` to `-π`. -/
example : fullArcToCylindrical (3 : ℚ) ⟨-3, 1⟩ ⟨-3, 1⟩ (-1) = (⟨3, 1⟩, ⟨-3, 1⟩) := by decide +kernel

end Volmdlr.Unwrap
