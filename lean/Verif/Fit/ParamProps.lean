import Verif.Fit.Model
import Verif.Fit.Whitney
import Verif.Nurbs.CurveProps
import Mathlib.Tactic.IntervalCases

/-!
# Parameters and knot vectors of a fit (C108)
-/

namespace Volmdlr.Fit
open Finset

/-- Specification: `n` parameters that increase from 0 to 1. -/
structure Params (n : ℕ) (u : ℕ → ℝ) : Prop where
  two : 2 ≤ n
  zero : u 0 = 0
  one : u (n - 1) = 1
  lt : ∀ i, i + 1 < n → u i < u (i + 1)

/-- Specification: the measure of the distance between two successive points: the distance, or its square root (centripetal). -/
noncomputable def gap {d : ℕ} (cen : Bool) (a b : Pt d) : ℝ :=
  if cen then √(√(∑ k, (b k - a k) ^ 2)) else √(∑ k, (b k - a k) ^ 2)

lemma chord_succ {d : ℕ} (cen : Bool) (P : List (Pt d)) (i : ℕ) : chord cen P (i + 1) = gap cen (cpFun P i) (cpFun P (i + 1)) := by
  unfold chord gap norm
  rw [if_neg (Nat.succ_ne_zero i), Nat.add_sub_cancel]
  simp only [Pi.sub_apply]

lemma gap_nonneg {d : ℕ} (cen : Bool) (a b : Pt d) : 0 ≤ gap cen a b := by
  unfold gap; split_ifs <;> exact Real.sqrt_nonneg _

lemma gap_eq_zero {d : ℕ} (cen : Bool) (a b : Pt d) : gap cen a b = 0 ↔ a = b := by
  have h : √(∑ k, (b k - a k) ^ 2) = 0 ↔ a = b := by
    rw [Real.sqrt_eq_zero (sum_nonneg fun k _ => sq_nonneg _), sum_eq_zero_iff_of_nonneg (fun k _ => sq_nonneg _)]
    constructor
    · intro h
      funext k
      have := h k (mem_univ k)
      have := pow_eq_zero_iff (two_ne_zero) |>.1 this
      linarith
    · rintro rfl k _
      simp
  unfold gap
  split_ifs
  · rw [Real.sqrt_eq_zero (Real.sqrt_nonneg _), h]
  · exact h

lemma chord_nonneg {d : ℕ} (cen : Bool) (P : List (Pt d)) (i : ℕ) : 0 ≤ chord cen P i := by
  cases i with
  | zero => unfold chord; rw [if_pos rfl]
  | succ i => rw [chord_succ]; exact gap_nonneg _ _ _

/-- The total: the sum of the gaps between successive points. -/
lemma totalChord_eq {d : ℕ} (cen : Bool) (P : List (Pt d)) :
    totalChord cen P = ∑ i ∈ range (P.length - 1), gap cen (cpFun P i) (cpFun P (i + 1)) := by
  unfold totalChord
  rw [sum_Ico_eq_sum_range]
  refine sum_congr rfl fun i _ => ?_
  rw [add_comm, chord_succ]

/-- **C108** the parameters exist exactly when two successive points differ; then they go from 0 to 1 and advance in proportion to the distances between the
successive points (or to the square roots of the distances); they increase exactly where successive points differ. -/
theorem C108_params {d : ℕ} (cen : Bool) (P : List (Pt d)) :
    (paramsCurve cen P = none ↔ ∀ i, i + 1 < P.length → P.getD i 0 = P.getD (i + 1) 0) ∧
    ∀ u, paramsCurve cen P = some u →
      u 0 = 0 ∧ u (P.length - 1) = 1 ∧
      (∃ T > 0, T = ∑ i ∈ range (P.length - 1), gap cen (P.getD i 0) (P.getD (i + 1) 0) ∧
        ∀ i, (u (i + 1) - u i) * T = gap cen (P.getD i 0) (P.getD (i + 1) 0)) ∧
      (∀ i, u i ≤ u (i + 1)) ∧ (∀ i, u i < u (i + 1) ↔ P.getD i 0 ≠ P.getD (i + 1) 0) ∧
      ((∀ i, i + 1 < P.length → P.getD i 0 ≠ P.getD (i + 1) 0) → Params P.length u) := by
  have hg : ∀ i ∈ range (P.length - 1), 0 ≤ gap cen (cpFun P i) (cpFun P (i + 1)) := fun i _ => gap_nonneg _ _ _
  have h0 : totalChord cen P = 0 ↔ ∀ i, i + 1 < P.length → P.getD i 0 = P.getD (i + 1) 0 := by
    rw [totalChord_eq, sum_eq_zero_iff_of_nonneg hg]
    constructor
    · intro h i hi; exact (gap_eq_zero _ _ _).1 (h i (mem_range.2 (by omega)))
    · intro h i hi; exact (gap_eq_zero _ _ _).2 (h i (by have := mem_range.1 hi; omega))
  unfold paramsCurve
  by_cases ht : totalChord cen P = 0
  · rw [if_pos ht]
    exact ⟨⟨fun _ => h0.1 ht, fun _ => rfl⟩, fun u hu => by cases hu⟩
  · rw [if_neg ht]
    refine ⟨⟨fun h => (by cases h), fun h => absurd (h0.2 h) ht⟩, ?_⟩
    rintro u hu
    obtain rfl := Option.some.inj hu
    have hT : 0 < totalChord cen P := lt_of_le_of_ne (by rw [totalChord_eq]; exact sum_nonneg hg) (Ne.symm ht)
    have hn : 2 ≤ P.length := by
      by_contra h
      apply ht; rw [totalChord_eq, show P.length - 1 = 0 by omega]; simp
    have hd : ∀ i, ((∑ k ∈ range (i + 1 + 1), chord cen P k) / totalChord cen P - (∑ k ∈ range (i + 1), chord cen P k) / totalChord cen P) =
        gap cen (P.getD i 0) (P.getD (i + 1) 0) / totalChord cen P := by
      intro i
      rw [sum_range_succ _ (i + 1), chord_succ]
      unfold cpFun
      ring
    have hz : (∑ k ∈ range (0 + 1), chord cen P k) / totalChord cen P = 0 := by
      rw [zero_add, sum_range_one]; unfold chord; rw [if_pos rfl, zero_div]
    have ho : (∑ k ∈ range (P.length - 1 + 1), chord cen P k) / totalChord cen P = 1 := by
      rw [show ∑ k ∈ range (P.length - 1 + 1), chord cen P k = totalChord cen P from ?_, div_self ht]
      rw [sum_range_succ', totalChord_eq]
      have : chord cen P 0 = 0 := by unfold chord; rw [if_pos rfl]
      rw [this, add_zero]
      exact sum_congr rfl fun i _ => chord_succ cen P i
    have hlt : ∀ i, (∑ k ∈ range (i + 1), chord cen P k) / totalChord cen P < (∑ k ∈ range (i + 1 + 1), chord cen P k) / totalChord cen P ↔
        P.getD i 0 ≠ P.getD (i + 1) 0 := by
      intro i
      rw [← sub_pos, hd i]
      constructor
      · intro h e
        rw [(gap_eq_zero cen _ _).2 e, zero_div] at h
        exact lt_irrefl _ h
      · intro h
        exact div_pos (lt_of_le_of_ne (gap_nonneg _ _ _) (fun e => h ((gap_eq_zero cen _ _).1 e.symm))) hT
    refine ⟨hz, ho, ⟨totalChord cen P, hT, totalChord_eq cen P, fun i => ?_⟩, fun i => ?_, hlt, fun h => ⟨hn, hz, ho, fun i hi => (hlt i).2 (h i hi)⟩⟩
    · dsimp only; rw [hd i, div_mul_cancel₀ _ ht]
    · have := hd i
      have := div_nonneg (gap_nonneg cen (P.getD i 0) (P.getD (i + 1) 0)) hT.le
      dsimp only
      linarith

/-- Four points of the plane, the first being the last. -/
def square : List (Pt 2) := [![0, 0], ![1, 0], ![1, 1], ![0, 0]]

example (cen : Bool) : ∃ u, paramsCurve cen square = some u ∧ Params 4 u := by
  obtain ⟨h1, h2⟩ := C108_params cen square
  have hne : ∀ i, i + 1 < square.length → square.getD i 0 ≠ square.getD (i + 1) 0 := by
    intro i hi e
    have hl : square.length = 4 := rfl
    have hi' : i < 3 := by omega
    clear hi
    have e0 := congrFun e 0
    have e1 := congrFun e 1
    interval_cases i <;> simp [square] at e0 e1
  cases h : paramsCurve cen square with
  | none => exact absurd (h1.1 h 0 (by decide)) (hne 0 (by decide))
  | some u => exact ⟨u, rfl, (h2 u h).2.2.2.2.2 hne⟩

namespace Params
variable {n : ℕ} {u : ℕ → ℝ} (h : Params n u)
include h

lemma strict {i j : ℕ} (hij : i < j) (hj : j < n) : u i < u j := by
  induction j, hij using Nat.le_induction with
  | base => exact h.lt i hj
  | succ j hij ih => exact (ih (by omega)).trans (h.lt j hj)

lemma mono {i j : ℕ} (hij : i ≤ j) (hj : j < n) : u i ≤ u j := by
  rcases hij.lt_or_eq with hij | rfl
  · exact (h.strict hij hj).le
  · exact le_rfl

lemma pos {i : ℕ} (h0 : 0 < i) (hi : i < n) : 0 < u i := by rw [← h.zero]; exact h.strict h0 hi
lemma lt_one {i : ℕ} (hi : i + 1 < n) : u i < 1 := by rw [← h.one]; exact h.strict (by omega) (by omega)

end Params

/-! ### Knots by averaging -/

lemma kvFun_map_range (N : ℕ) (f : ℕ → ℝ) (i : ℕ) (hN : 0 < N) : kvFun ((List.range N).map f) i = f (min i (N - 1)) := by
  rcases Nat.lt_or_ge i N with hi | hi
  · rw [kvFun_lt _ _ (by simpa using hi), List.getElem_map, List.getElem_range, Nat.min_eq_left (by omega)]
  · have hne : ((List.range N).map f) ≠ [] := by
      intro e; have := congrArg List.length e; simp at this; omega
    rw [kvFun_last _ _ (by simp; omega) hne, List.getLast_map, List.getLast_range, Nat.min_eq_right (by omega)]

/-- The average of the `p` parameters that follow the index `k`. -/
noncomputable def average (p : ℕ) (u : ℕ → ℝ) (k : ℕ) : ℝ := (∑ j ∈ range p, u (k + 1 + j)) / p

lemma knot_of (p n : ℕ) (u : ℕ → ℝ) (k : ℕ) (hpn : p < n) :
    kvFun (knotVector p n u) k = if n ≤ k then 1 else if p + 1 ≤ k then average p u (k - (p + 1)) else 0 := by
  unfold knotVector
  rw [kvFun_map_range _ _ _ (by omega)]
  by_cases h : n ≤ k
  · rw [if_pos h, if_pos (by omega)]
  · rw [show min k (n + p + 1 - 1) = k by omega]
    rw [if_neg h, if_neg h]
    split_ifs with h2
    · unfold average
      rw [sum_Ico_eq_sum_range, show k - (p + 1) + p + 1 - (k - (p + 1) + 1) = p by omega]
      rw [one_div, inv_mul_eq_div]
    · rfl

lemma average_lt {p : ℕ} (hp : 1 ≤ p) {u : ℕ → ℝ} {k : ℕ} {x : ℝ} (h : ∀ j < p, u (k + 1 + j) < x) : average p u k < x := by
  unfold average
  have h0 : (0 : ℝ) < p := by exact_mod_cast hp
  rw [div_lt_iff₀ h0]
  calc ∑ j ∈ range p, u (k + 1 + j) < ∑ _j ∈ range p, x := sum_lt_sum_of_nonempty (nonempty_range_iff.2 (by omega)) fun j hj => h j (mem_range.1 hj)
    _ = x * p := by rw [sum_const, card_range, nsmul_eq_mul, mul_comm]

lemma lt_average {p : ℕ} (hp : 1 ≤ p) {u : ℕ → ℝ} {k : ℕ} {x : ℝ} (h : ∀ j < p, x < u (k + 1 + j)) : x < average p u k := by
  unfold average
  have h0 : (0 : ℝ) < p := by exact_mod_cast hp
  rw [lt_div_iff₀ h0]
  calc x * p = ∑ _j ∈ range p, x := by rw [sum_const, card_range, nsmul_eq_mul, mul_comm]
    _ < ∑ j ∈ range p, u (k + 1 + j) := sum_lt_sum_of_nonempty (nonempty_range_iff.2 (by omega)) fun j hj => h j (mem_range.1 hj)

lemma average_step {p : ℕ} (hp : 1 ≤ p) {u : ℕ → ℝ} {k : ℕ} {e : ℝ} (h : ∀ j < p, u (k + 1 + j) + e < u (k + 1 + 1 + j)) :
    average p u k + e < average p u (k + 1) := by
  have h0 : (0 : ℝ) < p := by exact_mod_cast hp
  unfold average
  rw [← sub_pos, show (∑ j ∈ range p, u (k + 1 + 1 + j)) / (p : ℝ) - ((∑ j ∈ range p, u (k + 1 + j)) / p + e) =
    (∑ j ∈ range p, (u (k + 1 + 1 + j) - (u (k + 1 + j) + e))) / p from ?_]
  · refine div_pos (sum_pos (fun j hj => sub_pos.2 (h j (mem_range.1 hj))) (nonempty_range_iff.2 (by omega))) h0
  · rw [sum_sub_distrib, sum_add_distrib, sum_const, card_range, nsmul_eq_mul]
    field_simp

lemma mono_of_step (U : ℕ → ℝ) (h : ∀ i, U i ≤ U (i + 1)) : Monotone U := monotone_nat_of_le_succ h

/-- Successive knots are more than `e` apart, when the parameters are. -/
lemma knot_step {p n : ℕ} (hp : 1 ≤ p) (hpn : p < n) {u : ℕ → ℝ} (hu : Params n u) {e : ℝ} (he : ∀ i, i + 1 < n → u i + e < u (i + 1))
    (i : ℕ) (h1 : p ≤ i) (h2 : i < n) : kvFun (knotVector p n u) i + e < kvFun (knotVector p n u) (i + 1) := by
  have far : ∀ i j, i < j → j < n → u i + e < u j := by
    intro i j hij hj
    exact (he i (by omega)).trans_le (hu.mono (by omega) hj)
  rw [knot_of p n u i hpn, knot_of p n u (i + 1) hpn, if_neg (by omega)]
  by_cases a : p + 1 ≤ i
  · rw [if_pos a]
    by_cases b : n ≤ i + 1
    · rw [if_pos b, ← lt_sub_iff_add_lt]
      refine average_lt hp fun j hj => ?_
      have := far (i - (p + 1) + 1 + j) (n - 1) (by omega) (by omega)
      rw [hu.one] at this
      linarith
    · rw [if_neg b, if_pos (by omega), show i + 1 - (p + 1) = i - (p + 1) + 1 by omega]
      refine average_step hp fun j hj => ?_
      exact far _ _ (by omega) (by omega)
  · rw [if_neg a]
    obtain rfl : i = p := by omega
    rw [zero_add]
    by_cases b : n ≤ i + 1
    · rw [if_pos b]
      have := far 0 (n - 1) (by omega) (by omega)
      rw [hu.zero, hu.one] at this
      linarith
    · rw [if_neg b, if_pos le_rfl]
      refine lt_average hp fun j hj => ?_
      have := far 0 (i + 1 - (i + 1) + 1 + j) (by omega) (by omega)
      rw [hu.zero] at this
      linarith

/-- **C108** the knot vector of an interpolation: `degree + 1` zeros, the averages of `degree` successive inner parameters, `degree + 1` ones; it never
decreases, its inner knots are distinct, and each parameter is inside the support of its basis function (the conditions of Schoenberg and Whitney). -/
theorem C108_knots {p n : ℕ} (hp : 1 ≤ p) (hpn : p < n) {u : ℕ → ℝ} (hu : Params n u) :
    (knotVector p n u).length = n + p + 1 ∧ (∀ k ≤ p, (knotVector p n u).getD k 0 = 0) ∧
    (∀ k, n ≤ k → k < n + p + 1 → (knotVector p n u).getD k 0 = 1) ∧
    (∀ k, p < k → k < n → (knotVector p n u).getD k 0 = (∑ j ∈ range p, u (k - p + j)) / p) ∧
    (knotVector p n u).Pairwise (· ≤ ·) ∧
    (∀ k, p ≤ k → k < n → (knotVector p n u).getD k 0 < (knotVector p n u).getD (k + 1) 0) ∧
    (∀ i, 1 ≤ i → i + 1 < n → (knotVector p n u).getD i 0 < u i ∧ u i < (knotVector p n u).getD (i + p + 1) 0) := by
  have hl : (knotVector p n u).length = n + p + 1 := by simp [knotVector]
  have hk : ∀ k, k < n + p + 1 → (knotVector p n u).getD k 0 = kvFun (knotVector p n u) k := by
    intro k hk
    rw [kvFun_lt _ _ (by omega), List.getD_eq_getElem _ _ (by omega)]
  have step : ∀ i, kvFun (knotVector p n u) i ≤ kvFun (knotVector p n u) (i + 1) := by
    intro i
    by_cases h1 : p ≤ i
    · by_cases h2 : i < n
      · have := knot_step hp hpn hu (e := 0) (fun i hi => by simpa using hu.lt i hi) i h1 h2
        linarith
      · rw [knot_of p n u i hpn, knot_of p n u (i + 1) hpn, if_pos (by omega), if_pos (by omega)]
    · rw [knot_of p n u i hpn, knot_of p n u (i + 1) hpn, if_neg (by omega), if_neg (by omega), if_neg (by omega), if_neg (by omega)]
  have hmono := mono_of_step _ step
  refine ⟨hl, fun k h => ?_, fun k h1 h2 => ?_, fun k h1 h2 => ?_, ?_, fun k h1 h2 => ?_, fun i h1 h2 => ⟨?_, ?_⟩⟩
  · rw [hk k (by omega), knot_of p n u k hpn, if_neg (by omega), if_neg (by omega)]
  · rw [hk k h2, knot_of p n u k hpn, if_pos h1]
  · rw [hk k (by omega), knot_of p n u k hpn, if_neg (by omega), if_pos (by omega)]
    unfold average
    rw [show k - (p + 1) + 1 = k - p by omega]
  · rw [List.pairwise_iff_getElem]
    intro i j hi hj hij
    rw [← kvFun_lt _ i hi, ← kvFun_lt _ j hj]
    exact hmono hij.le
  · rw [hk k (by omega), hk (k + 1) (by omega)]
    simpa using knot_step hp hpn hu (e := 0) (fun i hi => by simpa using hu.lt i hi) k h1 h2
  · rw [hk i (by omega), knot_of p n u i hpn, if_neg (by omega)]
    split_ifs with a
    · exact average_lt hp fun j hj => hu.strict (by omega) (by omega)
    · exact hu.pos (by omega) (by omega)
  · rw [hk _ (by omega), knot_of p n u _ hpn]
    split_ifs with a b
    · exact hu.lt_one (by omega)
    · exact lt_average hp fun j hj => hu.strict (by omega) (by omega)
    · omega

/-- Five parameters. -/
noncomputable def quarters (i : ℕ) : ℝ := i / 4

lemma quarters_params : Params 5 quarters where
  two := by norm_num
  zero := by norm_num [quarters]
  one := by norm_num [quarters]
  lt := by intro i _; unfold quarters; push_cast; linarith

example : (knotVector 2 5 quarters).Pairwise (· ≤ ·) := (C108_knots (by norm_num) (by norm_num) quarters_params).2.2.2.2.1

lemma knotVector_simple {p n : ℕ} (hp : 1 ≤ p) (hpn : p < n) {u : ℕ → ℝ} (hu : Params n u) : SimpleKnots p n (kvFun (knotVector p n u)) := by
  obtain ⟨hl, hz, ho, -, hs, hlt, -⟩ := C108_knots hp hpn hu
  have hk : ∀ k, k < n + p + 1 → (knotVector p n u).getD k 0 = kvFun (knotVector p n u) k := by
    intro k hk
    rw [kvFun_lt _ _ (by omega), List.getD_eq_getElem _ _ (by omega)]
  refine ⟨hp, hpn, kvFun_mono _ hs, fun i h1 h2 => ?_, ?_, ?_⟩
  · rw [← hk i (by omega), ← hk (i + 1) (by omega)]; exact hlt i h1 h2
  · rw [← hk 0 (by omega), ← hk p (by omega), hz 0 (by omega), hz p le_rfl]
  · rw [← hk _ (by omega), ← hk n (by omega), ho _ (by omega) (by omega), ho n le_rfl (by omega)]

lemma knotVector_whitney {p n : ℕ} (hp : 1 ≤ p) (hpn : p < n) {u : ℕ → ℝ} (hu : Params n u) (i : ℕ) (h1 : 1 ≤ i) (h2 : i + 1 < n) :
    kvFun (knotVector p n u) i < u i ∧ u i < kvFun (knotVector p n u) (i + p + 1) := by
  obtain ⟨hl, -, -, -, -, -, hw⟩ := C108_knots hp hpn hu
  have hk : ∀ k, k < n + p + 1 → (knotVector p n u).getD k 0 = kvFun (knotVector p n u) k := by
    intro k hk
    rw [kvFun_lt _ _ (by omega), List.getD_eq_getElem _ _ (by omega)]
  rw [← hk i (by omega), ← hk _ (by omega)]
  exact hw i h1 h2

/-! ### Knots of an approximation -/

/-- Specification: the parameter at the fractional position `x - 1` of the list of parameters. -/
noncomputable def lin (u : ℕ → ℝ) (x : ℝ) : ℝ := (1 - (x - ⌊x⌋₊)) * u (⌊x⌋₊ - 1) + (x - ⌊x⌋₊) * u ⌊x⌋₊

lemma lin_nat (u : ℕ → ℝ) (k : ℕ) : lin u k = u (k - 1) := by
  unfold lin; rw [Nat.floor_natCast]; ring

lemma lin_lt_index {m : ℕ} {u : ℕ → ℝ} (hu : ∀ i, i + 1 < m → u i < u (i + 1)) {x : ℝ} (h1 : 1 ≤ x) (h2 : x < m) : lin u x < u ⌊x⌋₊ := by
  have hi : 1 ≤ ⌊x⌋₊ := Nat.le_floor (by exact_mod_cast h1)
  have hm : ⌊x⌋₊ < m := (Nat.floor_lt (by linarith)).2 h2
  have hlt := hu (⌊x⌋₊ - 1) (by omega)
  rw [Nat.sub_add_cancel hi] at hlt
  have hf := Nat.lt_floor_add_one x
  unfold lin
  nlinarith

lemma le_lin {m : ℕ} {u : ℕ → ℝ} (hu : ∀ i, i + 1 < m → u i < u (i + 1)) {x : ℝ} (h1 : 1 ≤ x) (h2 : x < m) : u (⌊x⌋₊ - 1) ≤ lin u x := by
  have hi : 1 ≤ ⌊x⌋₊ := Nat.le_floor (by exact_mod_cast h1)
  have hm : ⌊x⌋₊ < m := (Nat.floor_lt (by linarith)).2 h2
  have hlt := hu (⌊x⌋₊ - 1) (by omega)
  rw [Nat.sub_add_cancel hi] at hlt
  have hf := Nat.floor_le (show 0 ≤ x by linarith)
  unfold lin
  nlinarith

lemma lin_strict {m : ℕ} {u : ℕ → ℝ} (hu : ∀ i, i + 1 < m → u i < u (i + 1)) {x y : ℝ} (h1 : 1 ≤ x) (hxy : x < y) (h2 : y < m) : lin u x < lin u y := by
  have hle : ⌊x⌋₊ ≤ ⌊y⌋₊ := Nat.floor_mono hxy.le
  have hi : 1 ≤ ⌊x⌋₊ := Nat.le_floor (by exact_mod_cast h1)
  have hm : ⌊y⌋₊ < m := (Nat.floor_lt (by linarith)).2 h2
  rcases hle.lt_or_eq with h | h
  · have hmono : ∀ i j, i ≤ j → j < m → u i ≤ u j := by
      intro i j hij hj
      induction j, hij using Nat.le_induction with
      | base => exact le_rfl
      | succ j hij ih => exact (ih (by omega)).trans (hu j hj).le
    exact (lin_lt_index hu h1 (hxy.trans h2)).trans_le ((hmono ⌊x⌋₊ (⌊y⌋₊ - 1) (by omega) (by omega)).trans (le_lin hu (by linarith) h2))
  · have hlt := hu (⌊x⌋₊ - 1) (by omega)
    rw [Nat.sub_add_cancel hi] at hlt
    unfold lin
    rw [← h]
    nlinarith

lemma lin_shift (u : ℕ → ℝ) (e : ℝ) {x : ℝ} (h1 : 1 ≤ x) : lin (fun i => u i - e * i) x = lin u x - e * (x - 1) := by
  have hi : 1 ≤ ⌊x⌋₊ := Nat.le_floor (by exact_mod_cast h1)
  unfold lin
  dsimp only
  rw [Nat.cast_sub hi]
  push_cast
  ring

lemma knot2_of (p m n : ℕ) (u : ℕ → ℝ) (k : ℕ) :
    kvFun (knotVector2 p m n u) k = if n ≤ k then 1 else if p + 1 ≤ k then lin u ((k - p : ℕ) * ((m : ℝ) / (n - p : ℕ))) else 0 := by
  unfold knotVector2
  rw [kvFun_map_range _ _ _ (by omega)]
  by_cases h : n ≤ k
  · rw [if_pos h, if_pos (by omega)]
  · rw [show min k (n + p + 1 - 1) = k by omega, if_neg h, if_neg h]
    rfl

/-- The step `d` of the knots of an approximation. -/
lemma step_facts {p m n : ℕ} (hp : 1 ≤ p) (hpn : p < n) (hnm : n ≤ m) :
    1 < (m : ℝ) / (n - p : ℕ) ∧ ((n - p : ℕ) : ℝ) * ((m : ℝ) / (n - p : ℕ)) = m ∧ 1 ≤ ((n - p : ℕ) : ℝ) * ((m : ℝ) / (n - p : ℕ) - 1) := by
  have h0 : (0 : ℝ) < (n - p : ℕ) := by exact_mod_cast (show 0 < n - p by omega)
  have h1 : ((n - p : ℕ) : ℝ) + 1 ≤ m := by exact_mod_cast (show n - p + 1 ≤ m by omega)
  refine ⟨?_, ?_, ?_⟩
  · rw [lt_div_iff₀ h0]; linarith
  · field_simp
  · rw [mul_sub, mul_div_cancel₀ _ h0.ne']; linarith

lemma pos_range {p m n : ℕ} (hp : 1 ≤ p) (hpn : p < n) (hnm : n ≤ m) {j : ℕ} (h1 : 1 ≤ j) (h2 : j < n - p) :
    1 < (j : ℝ) * ((m : ℝ) / (n - p : ℕ)) ∧ (j : ℝ) * ((m : ℝ) / (n - p : ℕ)) + (m : ℝ) / (n - p : ℕ) ≤ m := by
  obtain ⟨a, b, -⟩ := step_facts hp hpn hnm
  have c1 : (1 : ℝ) ≤ j := by exact_mod_cast h1
  have c2 : (j : ℝ) + 1 ≤ (n - p : ℕ) := by exact_mod_cast h2
  generalize (m : ℝ) / (n - p : ℕ) = d at a b ⊢
  constructor <;> nlinarith

lemma knot2_step {p m n : ℕ} (hp : 1 ≤ p) (hpn : p < n) (hnm : n ≤ m) {u : ℕ → ℝ} (hu : Params m u) {e : ℝ} (he0 : 0 ≤ e)
    (he : ∀ i, i + 1 < m → u i + (n - p : ℕ) * e < u (i + 1)) (i : ℕ) (h1 : p ≤ i) (h2 : i < n) :
    kvFun (knotVector2 p m n u) i + e < kvFun (knotVector2 p m n u) (i + 1) := by
  obtain ⟨d1, d2, d3⟩ := step_facts hp hpn hnm
  have hN : (1 : ℝ) ≤ (n - p : ℕ) := by exact_mod_cast (show 1 ≤ n - p by omega)
  have hw : ∀ i, i + 1 < m → (fun i : ℕ => u i - ((n - p : ℕ) * e) * i) i < (fun i : ℕ => u i - ((n - p : ℕ) * e) * i) (i + 1) := by
    intro i hi; have := he i hi; dsimp only; push_cast; linarith
  have range : ∀ j, p + 1 ≤ j → j < n → _ := fun j a b => pos_range (m := m) hp hpn hnm (j := j - p) (by omega) (by omega)
  rw [knot2_of, knot2_of, if_neg (by omega)]
  by_cases a : p + 1 ≤ i
  · rw [if_pos a]
    obtain ⟨x1, x2⟩ := range i a h2
    by_cases b : n ≤ i + 1
    · rw [if_pos b]
      have t := lin_lt_index hw x1.le (by linarith)
      rw [lin_shift u _ x1.le] at t
      have hfm : ⌊((i - p : ℕ) : ℝ) * ((m : ℝ) / (n - p : ℕ))⌋₊ < m := (Nat.floor_lt (by linarith)).2 (by linarith)
      have mono : ∀ i j, i ≤ j → j < m → u i - ((n - p : ℕ) * e) * i ≤ u j - ((n - p : ℕ) * e) * j := by
        intro i j hij hj
        induction j, hij using Nat.le_induction with
        | base => exact le_rfl
        | succ j hij ih => exact (ih (by omega)).trans (hw j hj).le
      have t2 := mono _ (m - 1) (by omega : ⌊((i - p : ℕ) : ℝ) * ((m : ℝ) / (n - p : ℕ))⌋₊ ≤ m - 1) (by omega)
      have t3 := t.trans_le t2
      have hm1 : ((m - 1 : ℕ) : ℝ) = m - 1 := by rw [Nat.cast_sub (by have := hu.two; omega)]; norm_num
      rw [hu.one, hm1] at t3
      generalize ((i - p : ℕ) : ℝ) * ((m : ℝ) / (n - p : ℕ)) = x at *
      generalize (m : ℝ) / (n - p : ℕ) = d at *
      have := mul_nonneg (mul_nonneg (show (0 : ℝ) ≤ (n - p : ℕ) by linarith) he0) (show 0 ≤ (m : ℝ) - x - 1 by linarith)
      have h3 : e ≤ (n - p : ℕ) * e := by nlinarith
      nlinarith
    · rw [if_neg b, if_pos (by omega)]
      obtain ⟨y1, y2⟩ := range (i + 1) (by omega) (by omega)
      have hxy : ((i + 1 - p : ℕ) : ℝ) * ((m : ℝ) / (n - p : ℕ)) = (i - p : ℕ) * ((m : ℝ) / (n - p : ℕ)) + (m : ℝ) / (n - p : ℕ) := by
        rw [show i + 1 - p = (i - p) + 1 by omega]; push_cast; ring
      rw [hxy] at y1 y2 ⊢
      generalize ((i - p : ℕ) : ℝ) * ((m : ℝ) / (n - p : ℕ)) = x at *
      have t := lin_strict hw x1.le (show x < x + (m : ℝ) / (n - p : ℕ) by linarith) (by linarith)
      rw [lin_shift u _ x1.le, lin_shift u _ y1.le] at t
      generalize (m : ℝ) / (n - p : ℕ) = d at *
      have h3 : e ≤ (n - p : ℕ) * e := by nlinarith
      have := mul_nonneg (mul_nonneg (show (0 : ℝ) ≤ (n - p : ℕ) by linarith) he0) (show 0 ≤ d - 1 by linarith)
      nlinarith
  · rw [if_neg a]
    obtain rfl : i = p := by omega
    rw [zero_add]
    by_cases b : n ≤ i + 1
    · rw [if_pos b]
      have h3 := he 0 (by have := hu.two; omega)
      have h4 := hu.mono (show 1 ≤ m - 1 by have := hu.two; omega) (by have := hu.two; omega)
      rw [hu.zero, zero_add] at h3
      rw [hu.one] at h4
      nlinarith
    · rw [if_neg b, if_pos le_rfl]
      obtain ⟨y1, y2⟩ := range (i + 1) le_rfl (by omega)
      have t := lin_strict hw (x := (1 : ℕ)) (by norm_num) (by exact_mod_cast y1) (by linarith)
      rw [lin_shift u _ (by norm_num), lin_shift u _ y1.le, lin_nat, Nat.sub_self, hu.zero] at t
      rw [show i + 1 - i = 1 by omega] at t ⊢
      push_cast at t
      rw [one_mul] at t
      rw [Nat.cast_one, one_mul]
      generalize (m : ℝ) / (n - i : ℕ) = d at *
      have := mul_nonneg he0 (show 0 ≤ ((n - i : ℕ) : ℝ) * (d - 1) - 1 by linarith)
      nlinarith

/-- The data point whose parameter is used for a basis function. -/
noncomputable def pick (p m n i : ℕ) : ℕ := max i ⌊((i - p : ℕ) : ℝ) * ((m : ℝ) / (n - p : ℕ))⌋₊

lemma pick_facts {p m n : ℕ} (hp : 1 ≤ p) (hpn : p < n) (hnm : n ≤ m) {i : ℕ} (h2 : i + 1 < n) :
    i ≤ pick p m n i ∧ pick p m n i + 2 ≤ m ∧ (i + 2 < n → pick p m n i < pick p m n (i + 1)) ∧
    ((i - p : ℕ) : ℝ) * ((m : ℝ) / (n - p : ℕ)) < pick p m n i + 1 ∧
    (pick p m n i : ℝ) + 1 < ((i + 1 : ℕ) : ℝ) * ((m : ℝ) / (n - p : ℕ)) := by
  obtain ⟨d1, d2, d3⟩ := step_facts hp hpn hnm
  have hfl := Nat.floor_le (show 0 ≤ ((i - p : ℕ) : ℝ) * ((m : ℝ) / (n - p : ℕ)) from by positivity)
  have hfl2 := Nat.lt_floor_add_one (((i - p : ℕ) : ℝ) * ((m : ℝ) / (n - p : ℕ)))
  have hlast : ⌊((i - p : ℕ) : ℝ) * ((m : ℝ) / (n - p : ℕ))⌋₊ + 2 ≤ m := by
    by_cases hip : i ≤ p
    · rw [show i - p = 0 by omega]; simp; omega
    · have hc : ((i - p : ℕ) : ℝ) + 2 ≤ (n - p : ℕ) := by exact_mod_cast (show i - p + 2 ≤ n - p by omega)
      have : ((⌊((i - p : ℕ) : ℝ) * ((m : ℝ) / (n - p : ℕ))⌋₊ + 2 : ℕ) : ℝ) ≤ m := by
        push_cast
        generalize (m : ℝ) / (n - p : ℕ) = d at *
        nlinarith
      exact_mod_cast this
  unfold pick
  refine ⟨le_max_left _ _, by omega, fun h3 => ?_, ?_, ?_⟩
  · have : ⌊((i - p : ℕ) : ℝ) * ((m : ℝ) / (n - p : ℕ))⌋₊ < max (i + 1) ⌊((i + 1 - p : ℕ) : ℝ) * ((m : ℝ) / (n - p : ℕ))⌋₊ := by
      by_cases hip : i < p
      · rw [show i - p = 0 by omega]; simp
      · refine lt_of_lt_of_le ?_ (le_max_right _ _)
        refine Nat.lt_of_succ_le (Nat.le_floor ?_)
        rw [show i + 1 - p = i - p + 1 by omega]
        push_cast
        generalize (m : ℝ) / (n - p : ℕ) = d at *
        nlinarith
    omega
  · push_cast
    have := le_max_right (i : ℝ) (⌊((i - p : ℕ) : ℝ) * ((m : ℝ) / (n - p : ℕ))⌋₊ : ℝ)
    linarith
  · push_cast
    rw [← lt_sub_iff_add_lt, max_lt_iff]
    have hc : ((i - p : ℕ) : ℝ) ≤ i := by exact_mod_cast Nat.sub_le _ _
    generalize (m : ℝ) / (n - p : ℕ) = d at *
    have hi0 : (0 : ℝ) ≤ i := Nat.cast_nonneg _
    constructor <;> nlinarith

/-- **C108** the knot vector of an approximation with at most as many control points as data points: `degree + 1` zeros, the parameters at equally spaced
fractional positions, `degree + 1` ones; it never decreases, its inner knots are distinct, and there is, for each inner basis function, a data point with its
parameter inside the support, the data points so chosen being distinct (so that the least-squares problem determines the control points). -/
theorem C108_approximation_knots {p m n : ℕ} (hp : 1 ≤ p) (hpn : p < n) (hnm : n ≤ m) {u : ℕ → ℝ} (hu : Params m u) :
    (knotVector2 p m n u).length = n + p + 1 ∧ (∀ k ≤ p, (knotVector2 p m n u).getD k 0 = 0) ∧
    (∀ k, n ≤ k → k < n + p + 1 → (knotVector2 p m n u).getD k 0 = 1) ∧
    (∀ k, p < k → k < n → (knotVector2 p m n u).getD k 0 = lin u ((k - p : ℕ) * ((m : ℝ) / (n - p : ℕ)))) ∧
    (knotVector2 p m n u).Pairwise (· ≤ ·) ∧
    (∀ k, p ≤ k → k < n → (knotVector2 p m n u).getD k 0 < (knotVector2 p m n u).getD (k + 1) 0) ∧
    ∃ g : ℕ → ℕ, (∀ i, 1 ≤ i → i + 1 < n → 1 ≤ g i ∧ g i + 1 < m ∧
        (knotVector2 p m n u).getD i 0 < u (g i) ∧ u (g i) < (knotVector2 p m n u).getD (i + p + 1) 0) ∧
      ∀ i, 1 ≤ i → i + 2 < n → g i < g (i + 1) := by
  have hl : (knotVector2 p m n u).length = n + p + 1 := by simp [knotVector2]
  have hk : ∀ k, k < n + p + 1 → (knotVector2 p m n u).getD k 0 = kvFun (knotVector2 p m n u) k := by
    intro k hk
    rw [kvFun_lt _ _ (by omega), List.getD_eq_getElem _ _ (by omega)]
  have strict : ∀ i, p ≤ i → i < n → kvFun (knotVector2 p m n u) i < kvFun (knotVector2 p m n u) (i + 1) := by
    intro i h1 h2
    simpa using knot2_step hp hpn hnm hu le_rfl (fun i hi => by simpa using hu.lt i hi) i h1 h2
  have step : ∀ i, kvFun (knotVector2 p m n u) i ≤ kvFun (knotVector2 p m n u) (i + 1) := by
    intro i
    by_cases h1 : p ≤ i
    · by_cases h2 : i < n
      · exact (strict i h1 h2).le
      · rw [knot2_of, knot2_of, if_pos (by omega), if_pos (by omega)]
    · rw [knot2_of, knot2_of, if_neg (by omega), if_neg (by omega), if_neg (by omega), if_neg (by omega)]
  have hmono := mono_of_step _ step
  obtain ⟨d1, d2, d3⟩ := step_facts hp hpn hnm
  refine ⟨hl, fun k h => ?_, fun k h1 h2 => ?_, fun k h1 h2 => ?_, ?_, fun k h1 h2 => ?_, pick p m n, fun i h1 h2 => ?_, fun i h1 h2 => ?_⟩
  · rw [hk k (by omega), knot2_of, if_neg (by omega), if_neg (by omega)]
  · rw [hk k h2, knot2_of, if_pos h1]
  · rw [hk k (by omega), knot2_of, if_neg (by omega), if_pos (by omega)]
  · rw [List.pairwise_iff_getElem]
    intro i j hi hj hij
    rw [← kvFun_lt _ i hi, ← kvFun_lt _ j hj]
    exact hmono hij.le
  · rw [hk k (by omega), hk (k + 1) (by omega)]
    exact strict k h1 h2
  · obtain ⟨a, b, -, c, e⟩ := pick_facts hp hpn hnm h2
    have hg : u (pick p m n i) = lin u ((pick p m n i + 1 : ℕ)) := by rw [lin_nat, Nat.add_sub_cancel]
    refine ⟨by omega, by omega, ?_, ?_⟩
    · rw [hk i (by omega), knot2_of, if_neg (by omega)]
      split_ifs with h
      · obtain ⟨x1, x2⟩ := pos_range (m := m) hp hpn hnm (j := i - p) (by omega) (by omega)
        rw [hg]
        exact lin_strict hu.lt x1.le (by push_cast; exact c) (by exact_mod_cast (by omega : pick p m n i + 1 < m))
      · exact hu.pos (by omega) (by omega)
    · rw [hk _ (by omega), knot2_of]
      split_ifs with h h'
      · exact hu.lt_one (by omega)
      · obtain ⟨x1, x2⟩ := pos_range (m := m) hp hpn hnm (j := i + p + 1 - p) (by omega) (by omega)
        rw [hg]
        refine lin_strict hu.lt (by push_cast; have : (0 : ℝ) ≤ (pick p m n i : ℝ) := Nat.cast_nonneg _; linarith) ?_ (by linarith)
        rw [show i + p + 1 - p = i + 1 by omega]
        push_cast at e ⊢
        exact e
      · omega
  · exact (pick_facts hp hpn hnm (by omega)).2.2.1 h2

example : (knotVector2 2 5 4 quarters).Pairwise (· ≤ ·) := (C108_approximation_knots (by norm_num) (by norm_num) (by norm_num) quarters_params).2.2.2.2.1

lemma knotVector2_simple {p m n : ℕ} (hp : 1 ≤ p) (hpn : p < n) (hnm : n ≤ m) {u : ℕ → ℝ} (hu : Params m u) :
    SimpleKnots p n (kvFun (knotVector2 p m n u)) := by
  obtain ⟨hl, hz, ho, -, hs, hlt, -⟩ := C108_approximation_knots hp hpn hnm hu
  have hk : ∀ k, k < n + p + 1 → (knotVector2 p m n u).getD k 0 = kvFun (knotVector2 p m n u) k := by
    intro k hk
    rw [kvFun_lt _ _ (by omega), List.getD_eq_getElem _ _ (by omega)]
  refine ⟨hp, hpn, kvFun_mono _ hs, fun i h1 h2 => ?_, ?_, ?_⟩
  · rw [← hk i (by omega), ← hk (i + 1) (by omega)]; exact hlt i h1 h2
  · rw [← hk 0 (by omega), ← hk p (by omega), hz 0 (by omega), hz p le_rfl]
  · rw [← hk _ (by omega), ← hk n (by omega), ho _ (by omega) (by omega), ho n le_rfl (by omega)]

end Volmdlr.Fit
