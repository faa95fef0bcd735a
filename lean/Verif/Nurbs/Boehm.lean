import Verif.Nurbs.Curve
import Verif.Nurbs.InsertModel
import Mathlib.Data.List.GetD

/-!
# C22: knot insertion keeps the curve (Boehm's theorem)
-/

namespace Volmdlr
open Finset
section
variable {K : Type*} [Field K]

/-- The knot vector with one more knot `x` after index `k`. -/
def insKnots (U : ℕ → K) (k : ℕ) (x : K) : ℕ → K := fun i =>
  if i ≤ k then U i else if i = k + 1 then x else U (i - 1)

/-- Boehm's coefficients for degree `p`. -/
def insAlpha (U : ℕ → K) (k : ℕ) (x : K) (p i : ℕ) : K :=
  if i + p ≤ k then 1 else if i ≤ k then (x - U i) / (U (i + p) - U i) else 0

theorem insKnots_le (U : ℕ → K) (k : ℕ) (x : K) (i : ℕ) (h : i ≤ k) : insKnots U k x i = U i := if_pos h
theorem insKnots_eq (U : ℕ → K) (k : ℕ) (x : K) : insKnots U k x (k + 1) = x := by simp [insKnots]
theorem insKnots_gt (U : ℕ → K) (k : ℕ) (x : K) (i : ℕ) (h : k + 1 < i) : insKnots U k x i = U (i - 1) := by
  rw [insKnots, if_neg (by omega), if_neg (by omega)]
end
section
variable {K : Type*} [Field K] [LinearOrder K] [IsStrictOrderedRing K]

omit [IsStrictOrderedRing K] in
theorem insKnots_mono (U : ℕ → K) (hU : Monotone U) (k : ℕ) (x : K) (h1 : U k ≤ x) (h2 : x ≤ U (k + 1)) :
    Monotone (insKnots U k x) := by
  apply monotone_nat_of_le_succ
  intro i
  rcases Nat.lt_trichotomy i k with h | h | h
  · rw [insKnots_le _ _ _ _ (by omega), insKnots_le _ _ _ _ (by omega)]; exact hU (by omega)
  · subst h; rw [insKnots_le _ _ _ _ (le_refl _), insKnots_eq]; exact h1
  · rcases Nat.lt_or_ge (k + 1) i with h' | h'
    · rw [insKnots_gt _ _ _ _ h', insKnots_gt _ _ _ _ (by omega)]; exact hU (by omega)
    · obtain rfl : i = k + 1 := by omega
      rw [insKnots_eq, insKnots_gt _ _ _ _ (by omega)]; exact h2

omit [IsStrictOrderedRing K] in
/-- A basis piece of a non-empty span vanishes when its denominator does. -/
theorem bsp_div (U : ℕ → K) (hU : Monotone U) (κ : ℕ) (hv : U κ < U (κ + 1)) (u : K) (p i : ℕ) :
    bsp U κ u p i / (U (i + p + 1) - U i) * (U (i + p + 1) - U i) = bsp U κ u p i := by
  by_cases h : U (i + p + 1) - U i = 0
  · have hz : bsp U κ u p i = 0 := by
      by_cases h1 : κ < i
      · exact bsp_zero_of_lt _ _ _ _ _ h1
      · by_cases h2 : i + p < κ
        · exact bsp_zero_of_gt _ _ _ _ _ h2
        · exfalso
          have a := hU (show i ≤ κ by omega)
          have b := hU (show κ + 1 ≤ i + p + 1 by omega)
          have : U i < U (i + p + 1) := a.trans_lt (hv.trans_le b)
          exact absurd (sub_eq_zero.1 h) this.ne'
    rw [hz]; simp
  · exact div_mul_cancel₀ _ h

/-- The span of the new knot vector that corresponds to a span of the old one. -/
def SpanCorr (k κ κ' : ℕ) : Prop := (κ < k ∧ κ' = κ) ∨ (κ = k ∧ (κ' = k ∨ κ' = k + 1)) ∨ (k < κ ∧ κ' = κ + 1)

/-- Boehm's identity between old and new basis functions. -/
theorem boehm (U : ℕ → K) (hU : Monotone U) (k : ℕ) (x : K) (h1 : U k ≤ x) (h2 : x < U (k + 1)) (κ κ' : ℕ)
    (hcorr : SpanCorr k κ κ') (hv' : insKnots U k x κ' < insKnots U k x (κ' + 1)) (u : K) (p i : ℕ) :
    bsp U κ u p i = insAlpha U k x p i * bsp (insKnots U k x) κ' u p i +
      (1 - insAlpha U k x p (i + 1)) * bsp (insKnots U k x) κ' u p (i + 1) := by
  have hm' := insKnots_mono U hU k x h1 h2.le
  induction p generalizing i with
  | zero =>
    simp only [bsp, insAlpha, add_zero]
    rcases hcorr with ⟨a, rfl⟩ | ⟨rfl, rfl | rfl⟩ | ⟨a, rfl⟩
    · by_cases e : i = κ'
      · subst e; simp [a.le]
      · by_cases e2 : i + 1 = κ'
        · subst e2; simp [a.le]
        · simp [e, e2]
    · by_cases e : i = κ'
      · subst e; simp
      · by_cases e2 : i + 1 = κ'
        · subst e2; simp
        · simp [e, e2]
    · by_cases e : i = κ
      · subst e; simp
      · by_cases e2 : i = κ + 1
        · subst e2; simp
        · simp [e, e2]
    · by_cases e : i = κ
      · subst e
        have : ¬ i + 1 ≤ k := by omega
        simp [this]
      · by_cases e2 : i = κ + 1
        · subst e2
          have : ¬ κ + 1 ≤ k := by omega
          simp [this]
        · simp [e, e2]
  | succ p ih =>
    set B := bsp U κ u p with hB
    set B' := bsp (insKnots U k x) κ' u p with hB'
    set X : ℕ → K := fun i => B i / (U (i + p + 1) - U i) with hX
    set X' : ℕ → K := fun i => B' i / (insKnots U k x (i + p + 1) - insKnots U k x i) with hX'
    have eN : ∀ i, bsp U κ u (p + 1) i = (u - U i) * X i + (U (i + p + 2) - u) * X (i + 1) := by
      intro i
      simp only [bsp, hX, ← hB]
      rw [show i + 1 + p + 1 = i + p + 2 by omega]
      ring
    have eN' : ∀ i, bsp (insKnots U k x) κ' u (p + 1) i =
        (u - insKnots U k x i) * X' i + (insKnots U k x (i + p + 2) - u) * X' (i + 1) := by
      intro i
      simp only [bsp, hX', ← hB']
      rw [show i + 1 + p + 1 = i + p + 2 by omega]
      ring
    -- a) before the insertion nothing changes
    have ha : ∀ i, i + p + 1 ≤ k → X i = X' i := by
      intro i hi
      have := ih i
      simp only [insAlpha] at this
      rw [if_pos (by omega), if_pos (by omega)] at this
      simp only [hX, hX', insKnots_le U k x i (by omega), insKnots_le U k x (i + p + 1) hi]
      rw [this]; simp
    -- c) after it the index is shifted
    have hc : ∀ i, k < i → X i = X' (i + 1) := by
      intro i hi
      have := ih i
      simp only [insAlpha] at this
      rw [if_neg (by omega), if_neg (by omega), if_neg (by omega), if_neg (by omega)] at this
      simp only [hX, hX']
      rw [insKnots_gt U k x (i + 1 + p + 1) (by omega), insKnots_gt U k x (i + 1) (by omega), this,
        show i + 1 + p + 1 - 1 = i + p + 1 by omega, show i + 1 - 1 = i by omega]; simp
    -- b) in between
    have hd : ∀ i, k < i + p + 1 → i ≤ k → U (i + p + 1) - U i ≠ 0 := by
      intro i a b
      have e1 := hU (show i ≤ k by omega)
      have e2 := hU (show k + 1 ≤ i + p + 1 by omega)
      intro e; linarith
    have hb : ∀ i, k ≤ i + p → i ≤ k →
        (U (i + p + 1) - U i) * X i = (x - U i) * X' i + (U (i + p + 1) - x) * X' (i + 1) := by
      intro i a b
      have e1 : (U (i + p + 1) - U i) * X i = B i := by
        simp only [hX]; exact mul_div_cancel₀ _ (hd i (by omega) b)
      rw [e1, ih i]
      congr 1
      · -- first term
        rcases a.eq_or_lt with a | a
        · have hα : insAlpha U k x p i = 1 := if_pos (by omega)
          have := bsp_div (insKnots U k x) hm' κ' hv' u p i
          rw [← hB'] at this
          rw [hα, one_mul, ← this]
          simp only [hX']
          rw [show i + p + 1 = k + 1 by omega, insKnots_eq, insKnots_le U k x i b]; ring
        · have hα : insAlpha U k x p i = (x - U i) / (U (i + p) - U i) := by
            rw [insAlpha, if_neg (by omega), if_pos b]
          rw [hα]
          simp only [hX']
          rw [insKnots_gt U k x (i + p + 1) (by omega), insKnots_le U k x i b, show i + p + 1 - 1 = i + p by omega]
          ring
      · rcases b.eq_or_lt with b | b
        · have hα : insAlpha U k x p (i + 1) = 0 := by rw [insAlpha, if_neg (by omega), if_neg (by omega)]
          rw [hα]
          simp only [hX']
          subst b
          rw [insKnots_eq, insKnots_gt U i x (i + 1 + p + 1) (by omega), show i + 1 + p + 1 - 1 = i + p + 1 by omega]
          have e2 := hU (show i + 1 ≤ i + p + 1 by omega)
          have : U (i + p + 1) - x ≠ 0 := by intro e; linarith
          rw [mul_div_cancel₀ _ this]; ring
        · have hα : insAlpha U k x p (i + 1) = (x - U (i + 1)) / (U (i + 1 + p) - U (i + 1)) := by
            rw [insAlpha, if_neg (by omega), if_pos (by omega)]
          have hne : U (i + 1 + p) - U (i + 1) ≠ 0 := by
            have e1 := hU (show i + 1 ≤ k by omega)
            have e2 := hU (show k + 1 ≤ i + 1 + p by omega)
            intro e; linarith
          rw [hα]
          simp only [hX']
          rw [insKnots_gt U k x (i + 1 + p + 1) (by omega), insKnots_le U k x (i + 1) (by omega),
            show i + 1 + p + 1 - 1 = i + 1 + p by omega, show i + p + 1 = i + 1 + p by omega]
          field_simp
          ring
    rw [eN, eN', eN']
    rcases Nat.lt_trichotomy (i + p + 1) k with h | h | h
    · -- far before
      have a1 : insAlpha U k x (p + 1) i = 1 := if_pos (by omega)
      have a2 : insAlpha U k x (p + 1) (i + 1) = 1 := if_pos (by omega)
      rw [a1, a2, ha i (by omega), ha (i + 1) (by omega), insKnots_le U k x i (by omega),
        insKnots_le U k x (i + p + 2) (by omega)]
      ring
    · -- the new knot enters the support
      have a1 : insAlpha U k x (p + 1) i = 1 := if_pos (by omega)
      have a2 : insAlpha U k x (p + 1) (i + 1) = (x - U (i + 1)) / (U (i + p + 2) - U (i + 1)) := by
        rw [insAlpha, if_neg (by omega), if_pos (by omega), show i + 1 + (p + 1) = i + p + 2 by omega]
      have hb1 := hb (i + 1) (by omega) (by omega)
      have hd1 := hd (i + 1) (by omega) (by omega)
      rw [show i + 1 + p + 1 = i + p + 2 by omega] at hb1 hd1
      rw [show i + 1 + 1 = i + 2 from rfl] at hb1
      rw [a1, a2, ha i (by omega), insKnots_le U k x i (by omega), show i + p + 2 = k + 1 by omega, insKnots_eq,
        insKnots_le U k x (i + 1) (by omega), show i + 1 + p + 2 = k + 1 + 1 by omega,
        insKnots_gt U k x (k + 1 + 1) (by omega), show k + 1 + 1 - 1 = k + 1 by omega, show i + 1 + 1 = i + 2 from rfl]
      rw [show i + p + 2 = k + 1 by omega] at hb1 hd1
      have e : X (i + 1) = ((x - U (i + 1)) * X' (i + 1) + (U (k + 1) - x) * X' (i + 2)) / (U (k + 1) - U (i + 1)) := by
        rw [eq_div_iff hd1, mul_comm]; exact hb1
      rw [e]
      field_simp
      ring
    · rcases Nat.lt_trichotomy i k with h' | h' | h'
      · -- middle
        have a1 : insAlpha U k x (p + 1) i = (x - U i) / (U (i + p + 1) - U i) := by
          rw [insAlpha, if_neg (by omega), if_pos (by omega)]; rfl
        have a2 : insAlpha U k x (p + 1) (i + 1) = (x - U (i + 1)) / (U (i + p + 2) - U (i + 1)) := by
          rw [insAlpha, if_neg (by omega), if_pos (by omega), show i + 1 + (p + 1) = i + p + 2 by omega]
        have hb0 := hb i (by omega) (by omega)
        have hd0 := hd i (by omega) (by omega)
        have hb1 := hb (i + 1) (by omega) (by omega)
        have hd1 := hd (i + 1) (by omega) (by omega)
        rw [show i + 1 + p + 1 = i + p + 2 by omega] at hb1 hd1
        rw [a1, a2, insKnots_le U k x i (by omega), insKnots_le U k x (i + 1) (by omega),
          insKnots_gt U k x (i + p + 2) (by omega), show i + p + 2 - 1 = i + p + 1 by omega,
          insKnots_gt U k x (i + 1 + p + 2) (by omega), show i + 1 + p + 2 - 1 = i + p + 2 by omega]
        have e0 : X i = ((x - U i) * X' i + (U (i + p + 1) - x) * X' (i + 1)) / (U (i + p + 1) - U i) := by
          rw [eq_div_iff hd0, mul_comm]; exact hb0
        have e1 : X (i + 1) = ((x - U (i + 1)) * X' (i + 1) + (U (i + p + 2) - x) * X' (i + 1 + 1)) /
            (U (i + p + 2) - U (i + 1)) := by
          rw [eq_div_iff hd1, mul_comm]; exact hb1
        rw [e0, e1]
        field_simp
        ring
      · -- leaving
        subst h'
        have a1 : insAlpha U i x (p + 1) i = (x - U i) / (U (i + p + 1) - U i) := by
          rw [insAlpha, if_neg (by omega), if_pos (by omega)]; rfl
        have a2 : insAlpha U i x (p + 1) (i + 1) = 0 := by
          rw [insAlpha, if_neg (by omega), if_neg (by omega)]
        have hb0 := hb i (by omega) (by omega)
        have hd0 := hd i (by omega) (by omega)
        have e0 : X i = ((x - U i) * X' i + (U (i + p + 1) - x) * X' (i + 1)) / (U (i + p + 1) - U i) := by
          rw [eq_div_iff hd0, mul_comm]; exact hb0
        rw [a1, a2, hc (i + 1) (by omega), insKnots_le U i x i (le_refl _), insKnots_eq,
          insKnots_gt U i x (i + p + 2) (by omega), show i + p + 2 - 1 = i + p + 1 by omega,
          insKnots_gt U i x (i + 1 + p + 2) (by omega), show i + 1 + p + 2 - 1 = i + p + 2 by omega, e0]
        field_simp
        ring
      · have a1 : insAlpha U k x (p + 1) i = 0 := by
          rw [insAlpha, if_neg (by omega), if_neg (by omega)]
        have a2 : insAlpha U k x (p + 1) (i + 1) = 0 := by
          rw [insAlpha, if_neg (by omega), if_neg (by omega)]
        rw [a1, a2, hc i h', hc (i + 1) (by omega), insKnots_gt U k x (i + 1) (by omega),
          insKnots_gt U k x (i + 1 + p + 2) (by omega), show i + 1 + p + 2 - 1 = i + p + 2 by omega,
          show i + 1 - 1 = i by omega]
        ring

variable {V : Type*} [AddCommGroup V] [Module K V]

/-- The control points after the insertion of one knot (Boehm). -/
def insPts (U : ℕ → K) (k : ℕ) (x : K) (p : ℕ) (P : ℕ → V) : ℕ → V := fun i =>
  insAlpha U k x p i • P i + (1 - insAlpha U k x p i) • P (i - 1)

/-- The sum of basis pieces and control points does not change. -/
theorem boehm_sum (U : ℕ → K) (hU : Monotone U) (k : ℕ) (x : K) (h1 : U k ≤ x) (h2 : x < U (k + 1)) (κ κ' : ℕ)
    (hcorr : SpanCorr k κ κ') (hv' : insKnots U k x κ' < insKnots U k x (κ' + 1)) (u : K) (p n : ℕ) (hp : p ≤ k)
    (hn : k < n) (P : ℕ → V) :
    ∑ i ∈ range (n + 1), bsp (insKnots U k x) κ' u p i • insPts U k x p P i = ∑ i ∈ range n, bsp U κ u p i • P i := by
  have e : ∀ i, bsp U κ u p i • P i = (insAlpha U k x p i * bsp (insKnots U k x) κ' u p i) • P i +
      ((1 - insAlpha U k x p (i + 1)) * bsp (insKnots U k x) κ' u p (i + 1)) • P i := by
    intro i; rw [boehm U hU k x h1 h2 κ κ' hcorr hv' u p i, add_smul]
  simp only [e, sum_add_distrib]
  have e' : ∀ i, bsp (insKnots U k x) κ' u p i • insPts U k x p P i =
      (insAlpha U k x p i * bsp (insKnots U k x) κ' u p i) • P i +
      ((1 - insAlpha U k x p i) * bsp (insKnots U k x) κ' u p i) • P (i - 1) := by
    intro i; rw [insPts, smul_add, smul_smul, smul_smul, mul_comm, mul_comm (bsp _ _ _ _ _)]
  simp only [e', sum_add_distrib]
  congr 1
  · rw [sum_range_succ]
    have : insAlpha U k x p n = 0 := by rw [insAlpha, if_neg (by omega), if_neg (by omega)]
    rw [this]; simp
  · rw [sum_range_succ']
    have : insAlpha U k x p 0 = 1 := if_pos (by omega)
    rw [this]; simp

/-! ### several insertions -/

/-- The knot vector with `j` copies of `x` after index `k`. -/
def insKnotsN (U : ℕ → K) (k : ℕ) (x : K) (j : ℕ) : ℕ → K := fun i =>
  if i ≤ k then U i else if i ≤ k + j then x else U (i - j)

omit [Field K] [LinearOrder K] [IsStrictOrderedRing K] in
theorem insKnotsN_zero [Field K] (U : ℕ → K) (k : ℕ) (x : K) : insKnotsN U k x 0 = U := by
  funext i
  unfold insKnotsN
  by_cases h : i ≤ k
  · rw [if_pos h]
  · rw [if_neg h, if_neg (by omega)]; rfl
omit [LinearOrder K] [IsStrictOrderedRing K] in
theorem insKnotsN_succ (U : ℕ → K) (k : ℕ) (x : K) (j : ℕ) :
    insKnots (insKnotsN U k x j) (k + j) x = insKnotsN U k x (j + 1) := by
  funext i
  unfold insKnots insKnotsN
  by_cases h : i ≤ k
  · rw [if_pos (by omega), if_pos h, if_pos h]
  · by_cases h2 : i ≤ k + j
    · rw [if_pos h2, if_neg h, if_pos h2, if_neg h, if_pos (by omega)]
    · by_cases h3 : i = k + j + 1
      · rw [if_neg h2, if_pos h3, if_neg h, if_pos (by omega)]
      · rw [if_neg h2, if_neg h3, if_neg (by omega), if_neg (by omega), if_neg h, if_neg (by omega)]
        congr 1; omega

/-- The control points after `j` insertions. -/
def insPtsN (U : ℕ → K) (k : ℕ) (x : K) (p : ℕ) (P : ℕ → V) : ℕ → ℕ → V
  | 0 => P
  | j + 1 => insPts (insKnotsN U k x j) (k + j) x p (insPtsN U k x p P j)

omit [IsStrictOrderedRing K] in
theorem insKnotsN_mono (U : ℕ → K) (hU : Monotone U) (k : ℕ) (x : K) (h1 : U k ≤ x) (h2 : x < U (k + 1)) (j : ℕ) :
    Monotone (insKnotsN U k x j) ∧ insKnotsN U k x j (k + j) ≤ x ∧ x < insKnotsN U k x j (k + j + 1) := by
  have a : insKnotsN U k x j (k + j) ≤ x := by
    unfold insKnotsN
    by_cases h : k + j ≤ k
    · rw [if_pos h, show k + j = k by omega]; exact h1
    · rw [if_neg h, if_pos (le_refl _)]
  have b : x < insKnotsN U k x j (k + j + 1) := by
    unfold insKnotsN
    rw [if_neg (by omega), if_neg (by omega), show k + j + 1 - j = k + 1 by omega]; exact h2
  refine ⟨?_, a, b⟩
  induction j with
  | zero => rw [insKnotsN_zero]; exact hU
  | succ j ih =>
    have hj : insKnotsN U k x j (k + j) ≤ x := by
      unfold insKnotsN
      by_cases h : k + j ≤ k
      · rw [if_pos h, show k + j = k by omega]; exact h1
      · rw [if_neg h, if_pos (le_refl _)]
    have hj' : x < insKnotsN U k x j (k + j + 1) := by
      unfold insKnotsN
      rw [if_neg (by omega), if_neg (by omega), show k + j + 1 - j = k + 1 by omega]; exact h2
    rw [← insKnotsN_succ]
    exact insKnots_mono _ (ih hj hj') _ x hj hj'.le

/-- Inserting one knot keeps every point of a curve, for the evaluation by the code. -/
theorem curve_insert_one (p n : ℕ) (U : ℕ → K) (hU : Monotone U) (hpn : p < n) (P : ℕ → V) (k : ℕ) (x : K)
    (hk : p ≤ k) (hkn : k < n) (h1 : U k ≤ x) (h2 : x < U (k + 1)) (hlast : U (n - 1) < U n) (u : K)
    (hu1 : U p ≤ u) (hu2 : u ≤ U n) :
    curvePoint p (insKnots U k x) (insPts U k x p P) (n + 1) u = curvePoint p U P n u := by
  have hm' := insKnots_mono U hU k x h1 h2.le
  rw [curvePoint_eq p _ _ (n + 1) u (by omega), curvePoint_eq p U P n u hpn]
  obtain ⟨hs1, hs2, hs3, hs4, -⟩ := C19_linear p n U u hpn
  obtain ⟨ht1, ht2, ht3, ht4, -⟩ := C19_linear p (n + 1) (insKnots U k x) u (by omega)
  have hn' : insKnots U k x (n + 1) = U n := by
    rw [insKnots_gt _ _ _ _ (by omega)]; rfl
  have hp' : insKnots U k x p = U p := insKnots_le _ _ _ _ hk
  rw [hn', hp'] at ht3
  rw [hn'] at ht4
  rcases hu2.lt_or_eq with hu2 | hu2
  · obtain ⟨a, b⟩ := hs3 hu1 hu2
    obtain ⟨c, d⟩ := ht3 hu1 hu2
    generalize findSpanLinear p U n u = κ at *
    generalize findSpanLinear p (insKnots U k x) (n + 1) u = κ' at *
    apply boehm_sum U hU k x h1 h2 κ κ' _ (c.trans_lt d) u p n hk hkn P
    -- the new span corresponds to the old one
    rcases Nat.lt_trichotomy κ k with h | h | h
    · left
      refine ⟨h, span_unique _ hm' u _ _ ⟨c, d⟩ ?_⟩
      rw [insKnots_le _ _ _ _ h.le, insKnots_le _ _ _ _ (by omega)]; exact ⟨a, b⟩
    · right; left
      subst h
      refine ⟨rfl, ?_⟩
      rcases lt_or_ge u x with hux | hux
      · left
        apply span_unique _ hm' u _ _ ⟨c, d⟩
        rw [insKnots_le _ _ _ _ (le_refl _), insKnots_eq]; exact ⟨a, hux⟩
      · right
        apply span_unique _ hm' u _ _ ⟨c, d⟩
        rw [insKnots_eq, insKnots_gt _ _ _ _ (by omega)]; exact ⟨hux, b⟩
    · right; right
      refine ⟨h, span_unique _ hm' u _ _ ⟨c, d⟩ ?_⟩
      rw [insKnots_gt _ _ _ _ (by omega), insKnots_gt _ _ _ _ (by omega)]; exact ⟨a, b⟩
  · rw [hs4 hU hu2.ge, ht4 hm' hu2.ge]
    have hn1 : n - 1 + 1 = n := by omega
    apply boehm_sum U hU k x h1 h2 (n - 1) (n + 1 - 1) _ _ u p n hk hkn P
    · rcases Nat.lt_or_ge k (n - 1) with h | h
      · right; right; exact ⟨h, by omega⟩
      · right; left; exact ⟨by omega, Or.inr (by omega)⟩
    · rw [show n + 1 - 1 = n by omega, hn']
      rcases Nat.lt_or_ge k (n - 1) with h | h
      · rw [insKnots_gt _ _ _ _ (by omega)]; exact hlast
      · obtain rfl : k = n - 1 := by omega
        have : insKnots U (n - 1) x n = x := by
          have := insKnots_eq U (n - 1) x; rwa [hn1] at this
        rw [this]; rwa [hn1] at h2

/-- Inserting a knot `num` times keeps every point of the curve. -/
theorem curve_insert_many (p n : ℕ) (U : ℕ → K) (hU : Monotone U) (hpn : p < n) (P : ℕ → V) (k : ℕ) (x : K)
    (hk : p ≤ k) (hkn : k < n) (h1 : U k ≤ x) (h2 : x < U (k + 1)) (hlast : U (n - 1) < U n) (num : ℕ) (u : K)
    (hu1 : U p ≤ u) (hu2 : u ≤ U n) :
    curvePoint p (insKnotsN U k x num) (insPtsN U k x p P num) (n + num) u = curvePoint p U P n u := by
  induction num with
  | zero => rw [insKnotsN_zero]; rfl
  | succ j ih =>
    obtain ⟨hm, ha, hb⟩ := insKnotsN_mono U hU k x h1 h2 j
    rw [← ih, ← insKnotsN_succ]
    have hn : insKnotsN U k x j (n + j) = U n := by
      unfold insKnotsN
      rw [if_neg (by omega), if_neg (by omega)]; congr 1; omega
    apply curve_insert_one p (n + j) _ hm (by omega) _ (k + j) x (by omega) (by omega) ha hb
    · rw [hn]
      rcases Nat.lt_or_ge k (n - 1) with h | h
      · have : insKnotsN U k x j (n + j - 1) = U (n - 1) := by
          unfold insKnotsN
          rw [if_neg (by omega), if_neg (by omega)]; congr 1; omega
        rw [this]; exact hlast
      · obtain rfl : k = n - 1 := by omega
        rw [show n + j - 1 = n - 1 + j by omega]
        refine ha.trans_lt ?_
        rw [show n = n - 1 + 1 by omega]; simpa using h2
    · have : insKnotsN U k x j p = U p := by unfold insKnotsN; rw [if_pos hk]
      rw [this]; exact hu1
    · rw [hn]; exact hu2

end
end Volmdlr
