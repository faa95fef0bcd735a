import Verif.Nurbs.Model
import Mathlib.Tactic.Ring
import Mathlib.Tactic.FieldSimp
import Mathlib.Tactic.Linarith
import Mathlib.Tactic.LinearCombination
import Mathlib.Algebra.BigOperators.Intervals
import Mathlib.Algebra.Order.BigOperators.Group.Finset
import Mathlib.Algebra.BigOperators.Group.List.Basic

/-!
# C19, C20: knot spans and basis functions
-/

namespace Volmdlr
section
variable {K : Type*} [Field K] [LinearOrder K]

/-- Specification: the Cox–de Boor basis functions `N_{i,p}(u)` of degree `p`, a quotient with denominator
zero counting as zero (this is Lean's convention for division). -/
def coxDeBoor (U : ℕ → K) (u : K) : ℕ → ℕ → K
  | 0, i => if U i ≤ u ∧ u < U (i + 1) then 1 else 0
  | p + 1, i => (u - U i) / (U (i + p + 1) - U i) * coxDeBoor U u p i +
      (U (i + p + 2) - u) / (U (i + p + 2) - U (i + 1)) * coxDeBoor U u p (i + 1)

/-- The polynomial piece of the basis functions on the span `κ`: the same recursion started with the
indicator of `κ`. -/
def bsp (U : ℕ → K) (κ : ℕ) (u : K) : ℕ → ℕ → K
  | 0, i => if i = κ then 1 else 0
  | p + 1, i => (u - U i) / (U (i + p + 1) - U i) * bsp U κ u p i +
      (U (i + p + 2) - u) / (U (i + p + 2) - U (i + 1)) * bsp U κ u p (i + 1)

omit [LinearOrder K] in
theorem bsp_zero_of_lt (U : ℕ → K) (κ : ℕ) (u : K) (p i : ℕ) (h : κ < i) : bsp U κ u p i = 0 := by
  induction p generalizing i with
  | zero => simp [bsp]; omega
  | succ p ih => rw [bsp, ih i h, ih (i + 1) (by omega)]; simp
omit [LinearOrder K] in
theorem bsp_zero_of_gt (U : ℕ → K) (κ : ℕ) (u : K) (p i : ℕ) (h : i + p < κ) : bsp U κ u p i = 0 := by
  induction p generalizing i with
  | zero => simp [bsp]; omega
  | succ p ih => rw [bsp, ih i (by omega), ih (i + 1) (by omega)]; simp

/-- On a span the piece is the Cox–de Boor function. -/
theorem bsp_eq_coxDeBoor (U : ℕ → K) (hU : Monotone U) (κ : ℕ) (u : K) (h1 : U κ ≤ u) (h2 : u < U (κ + 1))
    (p i : ℕ) : coxDeBoor U u p i = bsp U κ u p i := by
  induction p generalizing i with
  | zero =>
    simp only [coxDeBoor, bsp]
    congr 1
    apply propext
    constructor
    · rintro ⟨a, b⟩
      by_contra hne
      rcases Nat.lt_or_gt_of_ne hne with h | h
      · have := hU (show i + 1 ≤ κ by omega); exact absurd (this.trans h1) (not_le.2 b)
      · have := hU (show κ + 1 ≤ i by omega); exact absurd (this.trans a) (not_le.2 h2)
    · rintro rfl; exact ⟨h1, h2⟩
  | succ p ih => rw [coxDeBoor, bsp, ih, ih]

end
section
variable {K : Type*} [Field K] [LinearOrder K] [IsStrictOrderedRing K]

/-! ### C19 -/

omit [Field K] [IsStrictOrderedRing K] in
theorem spanLoop_spec (U : ℕ → K) (n : ℕ) (u : K) (s : ℕ) (hs : s ≤ n) :
    s ≤ spanLoop U n u s ∧ spanLoop U n u s ≤ n ∧
    (spanLoop U n u s < n → u < U (spanLoop U n u s)) ∧
    (∀ i, s ≤ i → i < spanLoop U n u s → U i ≤ u) := by
  induction h : n - s generalizing s with
  | zero =>
    have : s = n := by omega
    subst this
    rw [spanLoop, if_neg (by simp)]
    exact ⟨le_refl _, le_refl _, fun h => absurd h (lt_irrefl _), fun i h1 h2 => by omega⟩
  | succ d ih =>
    rw [spanLoop]
    split
    · rename_i hc
      obtain ⟨a, b, c, e⟩ := ih (s + 1) (by omega) (by omega)
      refine ⟨by omega, b, c, ?_⟩
      intro i h1 h2
      rcases h1.eq_or_lt with rfl | h1
      · exact hc.2
      · exact e i h1 h2
    · rename_i hc
      refine ⟨le_refl _, hs, ?_, fun i h1 h2 => by omega⟩
      intro hlt
      by_contra hle
      exact hc ⟨hlt, not_lt.1 hle⟩

omit [Field K] [IsStrictOrderedRing K] in
/-- **C19** `find_span_linear`: for every parameter of the domain the returned index is the span that
contains it; at (and beyond) the right end it is the last span; before the domain it is the first one. -/
theorem C19_linear [Field K] (p n : ℕ) (U : ℕ → K) (u : K) (hpn : p < n) :
    p ≤ findSpanLinear p U n u ∧ findSpanLinear p U n u < n ∧
    (U p ≤ u → u < U n → U (findSpanLinear p U n u) ≤ u ∧ u < U (findSpanLinear p U n u + 1)) ∧
    (Monotone U → U n ≤ u → findSpanLinear p U n u = n - 1) ∧
    (Monotone U → u < U p → findSpanLinear p U n u = p) := by
  obtain ⟨a, b, c, e⟩ := spanLoop_spec U n u (p + 1) (by omega)
  unfold findSpanLinear
  generalize spanLoop U n u (p + 1) = s at *
  refine ⟨by omega, by omega, ?_, ?_, ?_⟩
  · intro h1 h2
    constructor
    · rcases a.eq_or_lt with h | h
      · rw [← h]; simpa using h1
      · exact e (s - 1) (by omega) (by omega)
    · rw [show s - 1 + 1 = s by omega]
      rcases b.lt_or_eq with h | h
      · exact c h
      · rw [h]; exact h2
  · intro hm h1
    have : s = n := by
      by_contra hne
      have := c (by omega)
      exact absurd ((hm (show s ≤ n by omega)).trans h1) (not_le.2 this)
    omega
  · intro hm h1
    have : s = p + 1 := by
      by_contra hne
      have h2 := e (p + 1) (le_refl _) (by omega)
      exact absurd ((hm (show p ≤ p + 1 by omega)).trans h2) (not_le.2 h1)
    omega
example : findSpanLinear 2 (fun i => ([0, 0, 0, 1, 2, 3, 3, 3] : List ℚ).getD i 0) 5 (3 / 2) = 3 := by decide +kernel

omit [Field K] [IsStrictOrderedRing K] in
theorem span_unique [Field K] (U : ℕ → K) (hU : Monotone U) (u : K) (i j : ℕ)
    (hi : U i ≤ u ∧ u < U (i + 1)) (hj : U j ≤ u ∧ u < U (j + 1)) : i = j := by
  rcases Nat.lt_trichotomy i j with h | h | h
  · exact absurd ((hU (show i + 1 ≤ j by omega)).trans hj.1) (not_le.2 hi.2)
  · exact h
  · exact absurd ((hU (show j + 1 ≤ i by omega)).trans hi.1) (not_le.2 hj.2)

omit [Field K] [IsStrictOrderedRing K] in
theorem binLoop_spec [Field K] (U : ℕ → K) (hU : Monotone U) (u : K) (fuel low high mid : ℕ)
    (h1 : U low ≤ u) (h2 : u < U high) (hl : low ≤ mid) (hh : mid < high) (hm : mid = (low + high) / 2)
    (hf : high - low < fuel) :
    ∃ r, binLoop U u fuel low high mid = some r ∧ U r ≤ u ∧ u < U (r + 1) := by
  induction fuel generalizing low high mid with
  | zero => omega
  | succ f ih =>
    rw [binLoop]
    split
    · rename_i hc
      split
      · rename_i hlt
        have hlow : low < mid := by
          by_contra hcc
          have : mid = low := by omega
          rw [this] at hlt
          exact absurd h1 (not_le.2 hlt)
        exact ih low mid _ h1 hlt (by omega) (by omega) rfl (by omega)
      · rename_i hlt
        have hge : U (mid + 1) ≤ u := hc.resolve_left hlt
        have hhigh : mid + 1 < high := by
          by_contra hcc
          have : mid + 1 = high := by omega
          rw [this] at hge
          exact absurd hge (not_le.2 h2)
        exact ih mid high _ (not_lt.1 hlt) h2 (by omega) (by omega) rfl (by omega)
    · rename_i hc
      push Not at hc
      exact ⟨mid, rfl, hc.1, hc.2⟩

/-- **C19** `find_span_binsearch` terminates within `n - p + 1` iterations and agrees with
`find_span_linear`, for every parameter of the domain that is not within the tolerance of the right end. -/
theorem C19_binsearch (tol : K) (p n : ℕ) (U : ℕ → K) (hU : Monotone U) (u : K) (hpn : p < n) (fuel : ℕ)
    (hfuel : n - p < fuel) (h1 : U p ≤ u) (h2 : u < U n) (h3 : tol < |U n - u|) :
    findSpanBinsearch tol fuel p U n u = some (findSpanLinear p U n u) := by
  unfold findSpanBinsearch
  dsimp only
  rw [show n - 1 + 1 = n by omega, if_neg (not_le.2 h3)]
  obtain ⟨r, hr, hr1, hr2⟩ := binLoop_spec U hU u fuel p n ((p + n) / 2) h1 h2 (by omega) (by omega) rfl hfuel
  rw [hr]
  congr 1
  exact span_unique U hU u _ _ ⟨hr1, hr2⟩ ((C19_linear p n U u hpn).2.2.1 h1 h2)
/-- **C19** at the right end both searches return the last span. -/
theorem C19_binsearch_end (tol : K) (ht : 0 ≤ tol) (p n : ℕ) (U : ℕ → K) (hU : Monotone U) (hpn : p < n)
    (fuel : ℕ) : findSpanBinsearch tol fuel p U n (U n) = some (findSpanLinear p U n (U n)) := by
  unfold findSpanBinsearch
  dsimp only
  rw [show n - 1 + 1 = n by omega, if_pos (by simpa using ht), (C19_linear p n U (U n) hpn).2.2.2.1 hU (le_refl _)]

/-- The claim of C19 that both searches agree on the whole domain. -/
def C19_agree_full_statement (K : Type) [Field K] [LinearOrder K] : Prop :=
  ∀ (p n : ℕ) (U : ℕ → K) (u : K) (fuel : ℕ), Monotone U → p < n → n - p < fuel → U p ≤ u → u ≤ U n →
    findSpanBinsearch (1 / 10 ^ 5) fuel p U n u = some (findSpanLinear p U n u)

/-- **C19** the two searches disagree within the tolerance `10e-6` of the right end when there is a knot
there. -/
theorem C19_agree_counterexample : ¬ C19_agree_full_statement ℚ := by
  intro h
  have := h 1 3 (fun i => if i ≤ 1 then 0 else if i = 2 then 1 - 1 / 10 ^ 6 else 1) (1 - 2 / 10 ^ 6) 10
    (by
      apply monotone_nat_of_le_succ
      intro i
      rcases i with _ | _ | _ | i <;> norm_num
      rw [if_neg (by omega), if_neg (by omega)])
    (by norm_num) (by norm_num) (by norm_num) (by norm_num)
  revert this
  decide +kernel

omit [Field K] [IsStrictOrderedRing K] in
/-- **C19** outside the domain the binary search never ends: for a parameter before the first knot of the
domain no number of iterations is enough. -/
theorem C19_binsearch_diverges [Field K] (U : ℕ → K) (hU : Monotone U) (u : K) (p n : ℕ) (hpn : p < n) (h : u < U p)
    (fuel : ℕ) : binLoop U u fuel p n ((p + n) / 2) = none := by
  have gen : ∀ fuel high, p ≤ high → binLoop U u fuel p high ((p + high) / 2) = none := by
    intro fuel
    induction fuel with
    | zero => intro high _; rfl
    | succ f ih =>
      intro high hh
      have hlt : u < U ((p + high) / 2) := lt_of_lt_of_le h (hU (by omega))
      rw [binLoop, if_pos (Or.inl hlt), if_pos hlt]
      exact ih _ (by omega)
  exact gen fuel n hpn.le

/-! ### C20 -/

omit [LinearOrder K] [IsStrictOrderedRing K] in
theorem basisInner_spec (U : ℕ → K) (span : ℕ) (u : K) (j : ℕ) (hj : j + 1 ≤ span) (N : ℕ → K)
    (hN : ∀ r, r ≤ j → N r = bsp U span u j (span - j + r)) (r : ℕ) (hr : r ≤ j + 1) :
    (∀ t, t < r → (basisInner U span u (j + 1) N r).1 t = bsp U span u (j + 1) (span - (j + 1) + t)) ∧
    (∀ t, r ≤ t → (basisInner U span u (j + 1) N r).1 t = N t) ∧
    (basisInner U span u (j + 1) N r).2 =
      (u - U (span - (j + 1) + r)) / (U (span - (j + 1) + r + j + 1) - U (span - (j + 1) + r)) *
        bsp U span u j (span - (j + 1) + r) := by
  induction r with
  | zero =>
    refine ⟨fun t h => by omega, fun t _ => rfl, ?_⟩
    rw [bsp_zero_of_gt U span u j (span - (j + 1) + 0) (by omega)]
    simp [basisInner]
  | succ r ih =>
    obtain ⟨h1, h2, h3⟩ := ih (by omega)
    have hNr := hN r (by omega)
    rw [show span - j + r = span - (j + 1) + (r + 1) by omega] at hNr
    have hden : U (span + (r + 1)) - u + (u - U (span + 1 - (j + 1 - r))) =
        U (span - (j + 1) + r + j + 2) - U (span - (j + 1) + r + 1) := by
      rw [show span + 1 - (j + 1 - r) = span - (j + 1) + r + 1 by omega,
        show span - (j + 1) + r + j + 2 = span + (r + 1) by omega]; ring
    refine ⟨?_, ?_, ?_⟩
    · intro t ht
      simp only [basisInner]
      rcases Nat.lt_succ_iff_lt_or_eq.1 ht with h | h
      · rw [Function.update_of_ne (by omega)]; exact h1 t h
      · subst h
        rw [Function.update_self, h2 t (le_refl _), h3, hNr, hden, bsp,
          show span + (t + 1) = span - (j + 1) + t + j + 2 by omega]
        ring_nf
    · intro t ht
      simp only [basisInner]
      rw [Function.update_of_ne (by omega)]; exact h2 t (by omega)
    · simp only [basisInner]
      rw [h2 r (le_refl _), hNr, hden, show span + 1 - (j + 1 - r) = span - (j + 1) + (r + 1) by omega,
        show span - (j + 1) + (r + 1) + j + 1 = span - (j + 1) + r + j + 2 by omega,
        show span - (j + 1) + r + 1 = span - (j + 1) + (r + 1) by omega]
      ring

omit [LinearOrder K] [IsStrictOrderedRing K] in
theorem basisOuter_eq_bsp (U : ℕ → K) (span : ℕ) (u : K) (j : ℕ) (hj : j ≤ span) (r : ℕ) (hr : r ≤ j) :
    basisOuter U span u j r = bsp U span u j (span - j + r) := by
  induction j generalizing r with
  | zero =>
    obtain rfl : r = 0 := by omega
    simp [basisOuter, bsp]
  | succ j ih =>
    obtain ⟨h1, h2, h3⟩ := basisInner_spec U span u j hj (basisOuter U span u j) (ih (by omega)) (j + 1) (le_refl _)
    simp only [basisOuter]
    rcases hr.lt_or_eq with h | h
    · rw [Function.update_of_ne (by omega)]; exact h1 r h
    · rw [h, Function.update_self, h3, bsp]
      rw [bsp_zero_of_lt U span u j (span - (j + 1) + (j + 1) + 1) (by omega)]
      simp

/-- **C20** `basis_function` returns the `p + 1` Cox–de Boor basis functions `N_{span-p}, …, N_span` at every
parameter of the span, for every non-decreasing knot vector. -/
theorem C20_coxDeBoor (p : ℕ) (U : ℕ → K) (hU : Monotone U) (span : ℕ) (hp : p ≤ span) (u : K)
    (h1 : U span ≤ u) (h2 : u < U (span + 1)) :
    basisFunction p U span u = (List.range (p + 1)).map fun r => coxDeBoor U u p (span - p + r) := by
  unfold basisFunction
  apply List.map_congr_left
  intro r hr
  rw [basisOuter_eq_bsp U span u p hp r (by simpa [Nat.lt_succ_iff] using List.mem_range.1 hr),
    bsp_eq_coxDeBoor U hU span u h1 h2]
example : basisFunction 2 (fun i => ([0, 0, 0, 1, 2, 2, 2] : List ℚ).getD i 2) 2 (1 / 2) = [1 / 4, 5 / 8, 1 / 8] := by
  decide +kernel

/-- **C20** all other basis functions of degree `p` vanish on the span. -/
theorem C20_support (p : ℕ) (U : ℕ → K) (hU : Monotone U) (span : ℕ) (u : K) (h1 : U span ≤ u)
    (h2 : u < U (span + 1)) (i : ℕ) (hi : i + p < span ∨ span < i) : coxDeBoor U u p i = 0 := by
  rw [bsp_eq_coxDeBoor U hU span u h1 h2]
  rcases hi with h | h
  · exact bsp_zero_of_gt U span u p i h
  · exact bsp_zero_of_lt U span u p i h

theorem bsp_nonneg (U : ℕ → K) (hU : Monotone U) (κ : ℕ) (u : K) (h1 : U κ ≤ u) (h2 : u ≤ U (κ + 1)) (p i : ℕ) :
    0 ≤ bsp U κ u p i := by
  induction p generalizing i with
  | zero => simp only [bsp]; split <;> norm_num
  | succ p ih =>
    rw [bsp]
    apply add_nonneg
    · by_cases h : κ < i
      · rw [bsp_zero_of_lt _ _ _ _ _ h]; simp
      · apply mul_nonneg _ (ih i)
        apply div_nonneg
        · have := hU (show i ≤ κ by omega); linarith
        · have := hU (show i ≤ i + p + 1 by omega); linarith
    · by_cases h : i + 1 + p < κ
      · rw [bsp_zero_of_gt _ _ _ _ _ h]; simp
      · apply mul_nonneg _ (ih (i + 1))
        apply div_nonneg
        · have := hU (show κ + 1 ≤ i + p + 2 by omega); linarith
        · have := hU (show i + 1 ≤ i + p + 2 by omega); linarith

open Finset in
/-- Partition of unity for the pieces, over the support. -/
theorem bsp_sum (U : ℕ → K) (hU : Monotone U) (κ : ℕ) (u : K) (hne : U κ < U (κ + 1)) (p : ℕ) (hp : p ≤ κ) :
    ∑ r ∈ range (p + 1), bsp U κ u p (κ - p + r) = 1 := by
  induction p with
  | zero => simp [bsp]
  | succ p ih =>
    rw [← ih (by omega)]
    -- coefficients of the two terms
    have e : ∀ r, bsp U κ u (p + 1) (κ - (p + 1) + r) =
        (u - U (κ - (p + 1) + r)) / (U (κ - (p + 1) + r + p + 1) - U (κ - (p + 1) + r)) * bsp U κ u p (κ - (p + 1) + r) +
        (U (κ - (p + 1) + (r + 1) + p + 1) - u) / (U (κ - (p + 1) + (r + 1) + p + 1) - U (κ - (p + 1) + (r + 1))) *
          bsp U κ u p (κ - (p + 1) + (r + 1)) := by
      intro r; rw [bsp, show κ - (p + 1) + (r + 1) + p + 1 = κ - (p + 1) + r + p + 2 by omega]; rfl
    simp only [e]
    rw [sum_add_distrib]
    have s1 : ∑ r ∈ range (p + 1 + 1), (u - U (κ - (p + 1) + r)) / (U (κ - (p + 1) + r + p + 1) - U (κ - (p + 1) + r)) *
        bsp U κ u p (κ - (p + 1) + r) =
        ∑ r ∈ range (p + 1), (u - U (κ - p + r)) / (U (κ - p + r + p + 1) - U (κ - p + r)) * bsp U κ u p (κ - p + r) := by
      rw [sum_range_succ', bsp_zero_of_gt U κ u p (κ - (p + 1) + 0) (by omega), mul_zero, add_zero]
      apply sum_congr rfl
      intro r _
      rw [show κ - (p + 1) + (r + 1) = κ - p + r by omega]
    have s2 : ∑ r ∈ range (p + 1 + 1), (U (κ - (p + 1) + (r + 1) + p + 1) - u) /
        (U (κ - (p + 1) + (r + 1) + p + 1) - U (κ - (p + 1) + (r + 1))) * bsp U κ u p (κ - (p + 1) + (r + 1)) =
        ∑ r ∈ range (p + 1), (U (κ - p + r + p + 1) - u) / (U (κ - p + r + p + 1) - U (κ - p + r)) *
          bsp U κ u p (κ - p + r) := by
      rw [sum_range_succ, bsp_zero_of_lt U κ u p (κ - (p + 1) + (p + 1 + 1)) (by omega), mul_zero, add_zero]
      apply sum_congr rfl
      intro r _
      rw [show κ - (p + 1) + (r + 1) = κ - p + r by omega]
    rw [s1, s2, ← sum_add_distrib]
    apply sum_congr rfl
    intro r hr
    have hr' := mem_range.1 hr
    have hd : U (κ - p + r) < U (κ - p + r + p + 1) :=
      lt_of_le_of_lt (hU (show κ - p + r ≤ κ by omega)) (hne.trans_le (hU (by omega)))
    have hd' : U (κ - p + r + p + 1) - U (κ - p + r) ≠ 0 := by intro e; linarith
    rw [← add_mul, ← add_div]
    rw [show u - U (κ - p + r) + (U (κ - p + r + p + 1) - u) = U (κ - p + r + p + 1) - U (κ - p + r) by ring,
      div_self hd', one_mul]

theorem list_range_sum (f : ℕ → K) (n : ℕ) : ((List.range n).map f).sum = ∑ r ∈ Finset.range n, f r := by
  induction n with
  | zero => simp
  | succ n ih => rw [List.range_succ, List.map_append, List.sum_append, ih, Finset.sum_range_succ]; simp

/-- **C20** the values are non-negative and add up to one, at every parameter of the (closed) span. -/
theorem C20_nonneg_sum_one (p : ℕ) (U : ℕ → K) (hU : Monotone U) (span : ℕ) (hp : p ≤ span) (u : K)
    (h1 : U span ≤ u) (h2 : u ≤ U (span + 1)) (hne : U span < U (span + 1)) :
    (basisFunction p U span u).length = p + 1 ∧ (∀ x ∈ basisFunction p U span u, 0 ≤ x) ∧
    (basisFunction p U span u).sum = 1 := by
  have hmap : basisFunction p U span u = (List.range (p + 1)).map fun r => bsp U span u p (span - p + r) := by
    unfold basisFunction
    apply List.map_congr_left
    intro r hr
    exact basisOuter_eq_bsp U span u p hp r (by simpa [Nat.lt_succ_iff] using List.mem_range.1 hr)
  refine ⟨by simp [basisFunction], ?_, ?_⟩
  · intro x hx
    rw [hmap] at hx
    obtain ⟨r, _, rfl⟩ := List.mem_map.1 hx
    exact bsp_nonneg U hU span u h1 h2 p _
  · rw [hmap, list_range_sum, bsp_sum U hU span u hne p hp]

/-! `basis_function_one` -/

omit [IsStrictOrderedRing K] in
theorem basisOneInner_spec (U : ℕ → K) (span : ℕ) (u : K) (k d : ℕ) (N : ℕ → K)
    (hN : ∀ r, r ≤ d → N r = coxDeBoor U u k (span + r)) (j : ℕ) (hj : j ≤ d) :
    (∀ t, t < j → (basisOneInner U span u (k + 1) N j).1 t = coxDeBoor U u (k + 1) (span + t)) ∧
    (∀ t, j ≤ t → (basisOneInner U span u (k + 1) N j).1 t = N t) ∧
    (basisOneInner U span u (k + 1) N j).2 =
      (u - U (span + j)) / (U (span + j + k + 1) - U (span + j)) * coxDeBoor U u k (span + j) := by
  induction j with
  | zero =>
    refine ⟨fun t h => by omega, fun t _ => rfl, ?_⟩
    have h0 := hN 0 (Nat.zero_le _)
    simp only [basisOneInner]
    split
    · rw [h0]; simp only [add_zero, ← add_assoc]; ring
    · rename_i h
      push Not at h
      rw [h] at h0; rw [← h0]; simp
  | succ j ih =>
    obtain ⟨h1, h2, h3⟩ := ih (by omega)
    have hNj := hN (j + 1) hj
    have h2' := h2 (j + 1) (by omega)
    rw [hNj] at h2'
    simp only [basisOneInner]
    rw [h2', h3]
    by_cases hz : coxDeBoor U u k (span + (j + 1)) = 0
    · rw [if_pos hz]
      refine ⟨?_, ?_, ?_⟩
      · intro t ht
        rcases Nat.lt_succ_iff_lt_or_eq.1 ht with h | h
        · dsimp only; rw [Function.update_of_ne (by omega)]; exact h1 t h
        · subst h
          dsimp only
          rw [Function.update_self, coxDeBoor, show span + t + 1 = span + (t + 1) by omega, hz]; simp
      · intro t ht
        dsimp only
        rw [Function.update_of_ne (by omega)]; exact h2 t (by omega)
      · rw [hz]; simp
    · rw [if_neg hz]
      refine ⟨?_, ?_, ?_⟩
      · intro t ht
        rcases Nat.lt_succ_iff_lt_or_eq.1 ht with h | h
        · dsimp only; rw [Function.update_of_ne (by omega)]; exact h1 t h
        · subst h
          dsimp only
          rw [Function.update_self, coxDeBoor]
          rw [show span + t + (k + 1) + 1 = span + t + k + 2 by omega, show span + (t + 1) = span + t + 1 by omega]
          ring
      · intro t ht
        dsimp only
        rw [Function.update_of_ne (by omega)]; exact h2 t (by omega)
      · dsimp only
        rw [show span + j + (k + 1) + 1 = span + (j + 1) + k + 1 by omega, show span + j + 1 = span + (j + 1) by omega]
        ring

omit [IsStrictOrderedRing K] in
theorem basisOneOuter_spec (degree : ℕ) (U : ℕ → K) (span : ℕ) (u : K) (k : ℕ) (hk : k ≤ degree) :
    ∀ r, r ≤ degree - k → basisOneOuter degree U span u k r = coxDeBoor U u k (span + r) := by
  induction k with
  | zero =>
    intro r hr
    simp only [basisOneOuter, basisOneInit, coxDeBoor]
    congr 1
    apply propext
    exact ⟨fun h => h.2, fun h => ⟨by omega, h⟩⟩
  | succ k ih =>
    intro r hr
    simp only [basisOneOuter]
    have h := basisOneInner_spec U span u k (degree - k) _ (ih (by omega)) (degree - (k + 1) + 1) (by omega)
    exact h.1 r (by omega)

/-- **C20** `basis_function_one` is the Cox–de Boor function `N_{i,p}(u)` for every index and every parameter,
except for the two boundary cases that the code sets to one. -/
theorem C20_one (p : ℕ) (U : ℕ → K) (hU : Monotone U) (m i : ℕ) (u : K)
    (hb : ¬ ((i = 0 ∧ u = U 0) ∨ (i + p + 2 = m ∧ u = U (m - 1)))) :
    basisFunctionOne p U m i u = coxDeBoor U u p i := by
  unfold basisFunctionOne
  rw [if_neg hb]
  split
  · rename_i h
    have hout : ∀ (q j : ℕ), i ≤ j → j + q ≤ i + p → coxDeBoor U u q j = 0 := by
      intro q
      induction q with
      | zero =>
        intro j h1 h2
        rw [coxDeBoor, if_neg]
        rintro ⟨a, b⟩
        rcases h with h | h
        · exact absurd (hU (show i ≤ j by omega) |>.trans a) (not_le.2 h)
        · exact absurd (hU (show j + 1 ≤ i + p + 1 by omega) |>.trans h) (not_le.2 b)
      | succ q ih =>
        intro j h1 h2
        rw [coxDeBoor, ih j h1 (by omega), ih (j + 1) (by omega) (by omega)]; simp
    exact (hout p i (le_refl _) (by omega)).symm
  · have := basisOneOuter_spec p U i u p (le_refl _) 0 (by omega)
    simpa using this
/-- **C20** the two boundary cases of a clamped knot vector: the first basis function is one at the left
end. -/
theorem C20_one_left (p : ℕ) (U : ℕ → K) (hU : Monotone U) (m : ℕ) (hc : U 0 = U p) (hs : U p < U (p + 1)) :
    basisFunctionOne p U m 0 (U 0) = 1 ∧ coxDeBoor U (U 0) p 0 = 1 := by
  constructor
  · simp [basisFunctionOne]
  · have h0 : ∀ i, i ≤ p → U i = U 0 := fun i hi =>
      le_antisymm (by rw [hc]; exact hU hi) (hU (Nat.zero_le _))
    have gen : ∀ q, q ≤ p → ∀ i, i ≤ p - q → coxDeBoor U (U 0) q i = if i = p - q then 1 else 0 := by
      intro q
      induction q with
      | zero =>
        intro _ i hi
        rw [coxDeBoor]
        congr 1
        apply propext
        rw [h0 i (by omega)]
        constructor
        · rintro ⟨_, h⟩
          by_contra hne
          rw [h0 (i + 1) (by omega)] at h
          exact lt_irrefl _ h
        · intro h
          refine ⟨le_refl _, ?_⟩
          rw [show i + 1 = p + 1 by omega, hc]; exact hs
      | succ q ih =>
        intro hq i hi
        rw [coxDeBoor, h0 i (by omega), sub_self, zero_div, zero_mul, zero_add, ih (by omega) (i + 1) (by omega)]
        by_cases h : i = p - (q + 1)
        · rw [if_pos (by omega), if_pos h, h0 (i + 1) (by omega), mul_one, show i + q + 2 = p + 1 by omega, div_self]
          rw [hc]; intro e; linarith
        · rw [if_neg (by omega), if_neg h, mul_zero]
    have := gen p (le_refl _) 0 (by omega)
    simpa using this
end
end Volmdlr
