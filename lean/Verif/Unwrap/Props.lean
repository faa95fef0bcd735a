import Verif.Unwrap.Model
import Mathlib.Tactic.Linarith
import Mathlib.Tactic.Ring
import Mathlib.Tactic.NormNum
import Mathlib.Tactic.Positivity
import Mathlib.Algebra.Order.Ring.Rat
import Mathlib.Data.Rat.Cast.Order
import Mathlib.Analysis.Real.Pi.Bounds

/-!
# C169, C170: the discretization of an edge in the parametric domain of a periodical surface is made continuous
-/

namespace Volmdlr.Unwrap

variable {K : Type} [Field K] [LinearOrder K] [IsStrictOrderedRing K]

/-- Specification: the list `l` holds the angles of successive points of a curve, reduced to a turn: `t` is the angle followed continuously along the
curve, `m` the number of turns taken off each angle, and two successive points are less than 10/21 of half a turn apart. -/
structure Samples (pi : K) (l : List K) (t : ℕ → K) (m : ℕ → ℤ) : Prop where
  turn : 1 ≤ pi
  lift : ∀ (i : ℕ) (x : K), l[i]? = some x → t i = x + 2 * pi * (m i : K)
  reduced : ∀ x ∈ l, |x| ≤ pi
  near : ∀ i : ℕ, i + 1 < l.length → |t (i + 1) - t i| * 21 < 10 * pi

lemma wraps_small {pi a b : K} (h1 : 1 ≤ pi) (hs : |b - a| * 21 < 10 * pi) (hab : b * a < 0) : wraps pi a b = false := by
  have hc : mathIsClose |b| 0 (11 / 10 * max |b + signOf a * (2 * pi) - a| (1 / 10 ^ 4)) = true := by
    unfold mathIsClose
    rw [decide_eq_true_iff]
    apply le_max_of_le_right
    have h2 : |b + signOf a * (2 * pi) - a| ≤ max |b + signOf a * (2 * pi) - a| (1 / 10 ^ 4) := le_max_left _ _
    rw [sub_zero, abs_abs]
    have h3 := (abs_lt.mp (show |b - a| < 10 * pi / 21 by linarith))
    rcases lt_trichotomy a 0 with ha | ha | ha
    · have hb : 0 < b := by nlinarith
      have : signOf a = -1 := by unfold signOf; rw [if_neg (by linarith)]
      rw [this] at h2
      rw [this, abs_of_pos hb]
      have := neg_abs_le (b + -1 * (2 * pi) - a)
      linarith
    · rw [ha] at hab; simp at hab
    · have hb : b < 0 := by nlinarith
      have : signOf a = 1 := by unfold signOf; rw [if_pos ha]
      rw [this] at h2
      rw [this, abs_of_neg hb]
      have := le_abs_self (b + 1 * (2 * pi) - a)
      linarith
  unfold wraps
  dsimp only
  rw [hc]
  simp

lemma wraps_jump {pi a b : K} (h1 : 1 ≤ pi) (ha : |a| ≤ pi) (hb : |b| ≤ pi) (hs : |b + signOf a * (2 * pi) - a| * 21 < 10 * pi) (hab : b * a < 0) :
    wraps pi a b = true := by
  set d := |b + signOf a * (2 * pi) - a| with hd
  have hd0 : 0 ≤ d := abs_nonneg _
  have key : |b| ≤ pi + d ∧ pi - d ≤ |b| := by
    refine ⟨by linarith, ?_⟩
    have h5 := neg_abs_le (b + signOf a * (2 * pi) - a)
    have h6 := le_abs_self (b + signOf a * (2 * pi) - a)
    rw [← hd] at h5 h6
    have h7 := abs_le.mp ha
    rcases lt_trichotomy a 0 with ha | ha | ha
    · have hb : 0 < b := by nlinarith
      have hsg : signOf a = -1 := by unfold signOf; rw [if_neg (by linarith)]
      rw [hsg] at h5 h6
      rw [abs_of_pos hb]
      linarith
    · rw [ha] at hab; simp at hab
    · have hb : b < 0 := by nlinarith
      have hsg : signOf a = 1 := by unfold signOf; rw [if_pos ha]
      rw [hsg] at h5 h6
      rw [abs_of_neg hb]
      linarith
  have hm : max d (1 / 10 ^ 4) * 21 < 10 * pi := by
    rcases max_cases d ((1 : K) / 10 ^ 4) with ⟨e, _⟩ | ⟨e, _⟩
    · rw [e]; exact hs
    · rw [e]; norm_num; linarith
  have hmd : d ≤ max d (1 / 10 ^ 4) := le_max_left _ _
  have hb0 : 0 < |b| := by linarith [key.2]
  unfold wraps
  simp only [Bool.and_eq_true, Bool.not_eq_true']
  constructor
  · unfold mathIsClose
    rw [decide_eq_true_iff]
    apply le_max_of_le_right
    rw [abs_le]
    constructor <;> linarith [key.1, key.2]
  · unfold mathIsClose
    rw [decide_eq_false_iff_not, not_le, sub_zero, abs_abs, abs_zero, max_eq_left hb0.le, max_lt_iff]
    exact ⟨by norm_num; linarith, by linarith [key.2]⟩

/-- Two successive angles: the difference of the numbers of turns is 0, 1 or -1, and it tells the signs. -/
lemma turn_cases {pi x y : K} {d : ℤ} (h1 : 1 ≤ pi) (hx : |x| ≤ pi) (hy : |y| ≤ pi) (hs : |y - x + 2 * pi * (d : K)| * 21 < 10 * pi) :
    d = 0 ∨ (d = 1 ∧ 0 < x ∧ y < 0) ∨ (d = -1 ∧ x < 0 ∧ 0 < y) := by
  have hx' := abs_le.mp hx
  have hy' := abs_le.mp hy
  have hs' := abs_lt.mp (show |y - x + 2 * pi * (d : K)| < 10 * pi / 21 by linarith)
  have hlt : (d : K) < 2 := by
    by_contra hc
    have := mul_le_mul_of_nonneg_left (not_lt.mp hc) (show 0 ≤ 2 * pi by linarith)
    linarith
  have hgt : -2 < (d : K) := by
    by_contra hc
    have := mul_le_mul_of_nonneg_left (not_lt.mp hc) (show 0 ≤ 2 * pi by linarith)
    linarith
  have hlt' : d < 2 := by exact_mod_cast hlt
  have hgt' : -2 < d := by exact_mod_cast hgt
  have h3 : d = 0 ∨ d = 1 ∨ d = -1 := by omega
  rcases h3 with h | h | h
  · exact Or.inl h
  · refine Or.inr (Or.inl ⟨h, ?_, ?_⟩) <;> (rw [h] at hs'; push_cast at hs'; linarith)
  · refine Or.inr (Or.inr ⟨h, ?_, ?_⟩) <;> (rw [h] at hs'; push_cast at hs'; linarith)

omit [IsStrictOrderedRing K] in
lemma mem_discontinuities (pi : K) (l : List K) (i : ℕ) : i ∈ discontinuities pi l ↔
    1 ≤ i ∧ i < l.length ∧ l.getD i 0 * l.getD (i - 1) 0 < 0 ∧ wraps pi (l.getD (i - 1) 0) (l.getD i 0) = true := by
  unfold discontinuities signChanges
  simp only [List.mem_filter, List.mem_range, decide_eq_true_iff]
  tauto

/-- One index, with the angles at it and before it: it is given exactly when the numbers of turns differ. -/
lemma flag_iff {pi x y : K} {d : ℤ} (h1 : 1 ≤ pi) (hx : |x| ≤ pi) (hy : |y| ≤ pi) (hs : |y - x + 2 * pi * (d : K)| * 21 < 10 * pi) :
    (y * x < 0 ∧ wraps pi x y = true) ↔ d ≠ 0 := by
  rcases turn_cases h1 hx hy hs with h | ⟨h, hx0, hy0⟩ | ⟨h, hx0, hy0⟩
  · rw [h] at hs
    push_cast at hs
    simp only [mul_zero, add_zero] at hs
    constructor
    · rintro ⟨h2, h3⟩
      rw [wraps_small h1 hs h2] at h3
      cases h3
    · intro h2
      exact absurd h h2
  · have hxy : y * x < 0 := mul_neg_of_neg_of_pos hy0 hx0
    refine ⟨fun _ => by rw [h]; decide, fun _ => ⟨hxy, wraps_jump h1 hx hy ?_ hxy⟩⟩
    have : signOf x = 1 := by unfold signOf; rw [if_pos hx0]
    rw [h] at hs
    push_cast at hs
    rw [this, show y + 1 * (2 * pi) - x = y - x + 2 * pi * 1 by ring]
    exact hs
  · have hxy : y * x < 0 := mul_neg_of_pos_of_neg hy0 hx0
    refine ⟨fun _ => by rw [h]; decide, fun _ => ⟨hxy, wraps_jump h1 hx hy ?_ hxy⟩⟩
    have : signOf x = -1 := by unfold signOf; rw [if_neg (not_lt.mpr hx0.le)]
    rw [h] at hs
    push_cast at hs
    rw [this, show y + -1 * (2 * pi) - x = y - x + 2 * pi * -1 by ring]
    exact hs

lemma Samples.values {pi : K} {l : List K} {t : ℕ → K} {m : ℕ → ℤ} (h : Samples pi l t m) {i : ℕ} (hi : i < l.length) :
    t i = l.getD i 0 + 2 * pi * (m i : K) ∧ |l.getD i 0| ≤ pi := by
  have hg : l.getD i 0 = l[i] := by simp [List.getD, hi]
  rw [hg]
  exact ⟨h.lift i _ (List.getElem?_eq_getElem hi), h.reduced _ (List.getElem_mem hi)⟩

lemma Samples.step {pi : K} {l : List K} {t : ℕ → K} {m : ℕ → ℤ} (h : Samples pi l t m) {i : ℕ} (hi : i + 1 < l.length) :
    |l.getD (i + 1) 0 - l.getD i 0 + 2 * pi * ((m (i + 1) - m i : ℤ) : K)| * 21 < 10 * pi := by
  have h0 := (h.values (i := i) (by omega)).1
  have h1 := (h.values (i := i + 1) hi).1
  have h2 := h.near i hi
  rw [h0, h1] at h2
  rw [show l.getD (i + 1) 0 - l.getD i 0 + 2 * pi * ((m (i + 1) - m i : ℤ) : K) =
    l.getD (i + 1) 0 + 2 * pi * (m (i + 1) : K) - (l.getD i 0 + 2 * pi * (m i : K)) by push_cast; ring]
  exact h2

/-- **C169** `angle_discontinuity` gives exactly the points where the reduced angle jumps from one end of the period to the other, that is where the
number of turns taken off changes, when successive points are less than 10/21 of half a turn apart.  In full the bound would be half a turn: see
`C169_counterexample`. -/
theorem C169_discontinuities_partial {pi : K} {l : List K} {t : ℕ → K} {m : ℕ → ℤ} (h : Samples pi l t m) (i : ℕ) :
    i ∈ discontinuities pi l ↔ ∃ j, i = j + 1 ∧ j + 1 < l.length ∧ m (j + 1) ≠ m j := by
  rw [mem_discontinuities]
  constructor
  · rintro ⟨h1, h2, h3⟩
    obtain ⟨j, rfl⟩ : ∃ j, i = j + 1 := ⟨i - 1, by omega⟩
    refine ⟨j, rfl, h2, ?_⟩
    have := (flag_iff h.turn (h.values (i := j) (by omega)).2 (h.values h2).2 (h.step h2)).mp (by simpa using h3)
    intro hc
    exact this (by omega)
  · rintro ⟨j, rfl, h2, h3⟩
    refine ⟨by omega, h2, ?_⟩
    have := (flag_iff h.turn (h.values (i := j) (by omega)).2 (h.values h2).2 (h.step h2)).mpr (by omega)
    simpa using this

/-- C169 in full: half a turn between two points is enough. -/
def C169_full_statement : Prop :=
  ∀ (l : List ℝ) (t : ℕ → ℝ) (m : ℕ → ℤ), (∀ (i : ℕ) (x : ℝ), l[i]? = some x → t i = x + 2 * Real.pi * (m i : ℝ)) → (∀ x ∈ l, |x| ≤ Real.pi) →
    (∀ i : ℕ, i + 1 < l.length → |t (i + 1) - t i| < Real.pi) →
    ∀ i, i ∈ discontinuities Real.pi l ↔ ∃ j, i = j + 1 ∧ j + 1 < l.length ∧ m (j + 1) ≠ m j

/-- **C169** A jump is missed when two points are half of half a turn apart: from `π` to `-π/2`. -/
theorem C169_counterexample : ¬ C169_full_statement := by
  intro h
  have hp : 3 < Real.pi := Real.pi_gt_three
  have hl : ∀ x ∈ [Real.pi, -(1 / 2) * Real.pi], |x| ≤ Real.pi := by
    intro x hx
    simp only [List.mem_cons, List.not_mem_nil, or_false] at hx
    rcases hx with rfl | rfl
    · rw [abs_of_pos Real.pi_pos]
    · rw [abs_le]; constructor <;> linarith
  have h1 := (h [Real.pi, -(1 / 2) * Real.pi] (fun i => if i = 0 then Real.pi else 3 / 2 * Real.pi) (fun i => if i = 0 then 0 else 1) ?_ hl ?_ 1).mpr
    ⟨0, rfl, by simp, by simp⟩
  · rw [mem_discontinuities] at h1
    have h2 := h1.2.2.2
    simp only [List.getD_cons_zero, List.getD_cons_succ, Nat.sub_self] at h2
    have hs : signOf Real.pi = 1 := by unfold signOf; rw [if_pos Real.pi_pos]
    unfold wraps at h2
    rw [hs] at h2
    simp only [Bool.and_eq_true, Bool.not_eq_true'] at h2
    have h3 := h2.2
    unfold mathIsClose at h3
    rw [decide_eq_false_iff_not] at h3
    apply h3
    apply le_max_of_le_right
    have h4 : |-(1 / 2) * Real.pi + 1 * (2 * Real.pi) - Real.pi| ≤ max |-(1 / 2) * Real.pi + 1 * (2 * Real.pi) - Real.pi| (1 / 10 ^ 4) :=
      le_max_left _ _
    rw [sub_zero, abs_abs, abs_of_neg (by linarith)]
    have h5 := le_abs_self (-(1 / 2) * Real.pi + 1 * (2 * Real.pi) - Real.pi)
    linarith
  · intro i x hx
    rcases i with _ | _ | i
    · simp at hx; simp [hx]
    · simp at hx; rw [← hx]; push_cast; simp; ring
    · simp at hx
  · intro i hi
    have : i = 0 := by simp at hi; omega
    subst this
    simp only [Nat.zero_add, one_ne_zero, if_false, if_true]
    rw [abs_lt]; constructor <;> linarith

end Volmdlr.Unwrap
