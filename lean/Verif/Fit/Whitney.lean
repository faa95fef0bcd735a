import Verif.Fit.Rolle
import Verif.Nurbs.Curve
import Verif.Nurbs.Deriv
import Mathlib.Topology.Algebra.Polynomial
import Mathlib.Algebra.Polynomial.Derivative
import Mathlib.Algebra.Polynomial.Roots
import Mathlib.Analysis.Calculus.Deriv.Polynomial
import Mathlib.Order.Interval.Set.Infinite

/-!
# The Schoenberg–Whitney theorem

Mathematics about the basis functions of `Verif.Nurbs.Basis`: interpolation by a clamped B-spline with simple interior knots has at most one solution when
each parameter is inside the support of its basis function.
-/

namespace Volmdlr.Fit
open Finset Polynomial

/-- Knots of a clamped B-spline of degree `p ≥ 1` with `n` control points, the interior knots being distinct. -/
structure SimpleKnots (p n : ℕ) (U : ℕ → ℝ) : Prop where
  hp : 1 ≤ p
  pn : p < n
  mono : Monotone U
  strict : ∀ i, p ≤ i → i < n → U i < U (i + 1)
  left : U 0 = U p
  right : U (n + p) = U n

lemma SimpleKnots.clamped {p n : ℕ} {U : ℕ → ℝ} (h : SimpleKnots p n U) : Clamped p n U where
  pn := h.pn
  mono := h.mono
  left := h.left
  right := h.right
  first := h.strict p le_rfl h.pn
  last := by
    have := h.strict (n - 1) (by have := h.pn; omega) (by have := h.pn; omega)
    rwa [show n - 1 + 1 = n by have := h.pn; omega] at this

/-! ## The pieces as polynomials -/

/-- The pieces of the basis functions, as polynomials. -/
noncomputable def bspPoly (U : ℕ → ℝ) (κ : ℕ) : ℕ → ℕ → ℝ[X]
  | 0, i => if i = κ then 1 else 0
  | p + 1, i => C (1 / (U (i + p + 1) - U i)) * ((X - C (U i)) * bspPoly U κ p i) +
      C (1 / (U (i + p + 2) - U (i + 1))) * ((C (U (i + p + 2)) - X) * bspPoly U κ p (i + 1))

lemma eval_bspPoly (U : ℕ → ℝ) (κ : ℕ) (t : ℝ) (p i : ℕ) : (bspPoly U κ p i).eval t = bsp U κ t p i := by
  induction p generalizing i with
  | zero => unfold bspPoly bsp; split_ifs <;> simp
  | succ p ih =>
    rw [bspPoly, bsp, eval_add, eval_mul, eval_mul, eval_mul, eval_mul, eval_C, eval_C, eval_sub, eval_sub, eval_C, eval_C, eval_X, ih, ih]
    ring

lemma natDegree_bspPoly (U : ℕ → ℝ) (κ p i : ℕ) : (bspPoly U κ p i).natDegree ≤ p := by
  induction p generalizing i with
  | zero => unfold bspPoly; split_ifs <;> simp
  | succ p ih =>
    rw [bspPoly]
    refine natDegree_add_le_of_degree_le ?_ ?_
    · refine (natDegree_C_mul_le _ _).trans (natDegree_mul_le.trans ?_)
      have := ih i
      have := natDegree_X_sub_C_le (U i)
      omega
    · refine (natDegree_C_mul_le _ _).trans (natDegree_mul_le.trans ?_)
      have := ih (i + 1)
      have h2 : (C (U (i + p + 2)) - X : ℝ[X]).natDegree ≤ 1 := by
        refine (natDegree_sub_le _ _).trans ?_
        simp
      omega

lemma derivative_bspPoly {U : ℕ → ℝ} (hU : Monotone U) {κ : ℕ} (hv : U κ < U (κ + 1)) (p i : ℕ) :
    derivative (bspPoly U κ (p + 1) i) =
      C ((p + 1 : ℕ) / (U (i + p + 1) - U i)) * bspPoly U κ p i - C ((p + 1 : ℕ) / (U (i + p + 2) - U (i + 1))) * bspPoly U κ p (i + 1) := by
  refine Polynomial.funext fun t => ?_
  have h1 := (bspPoly U κ (p + 1) i).hasDerivAt t
  have h2 := bsp_hasDerivAt U hU κ hv p i t
  have e : (fun s => (bspPoly U κ (p + 1) i).eval s) = fun s => bsp U κ s (p + 1) i := by
    funext s; exact eval_bspPoly U κ s (p + 1) i
  rw [e] at h1
  rw [h1.unique h2, eval_sub, eval_mul, eval_mul, eval_C, eval_C, eval_bspPoly, eval_bspPoly]
  ring

lemma bspPoly_lt (U : ℕ → ℝ) (κ p i : ℕ) (h : κ < i) : bspPoly U κ p i = 0 :=
  Polynomial.funext fun t => by rw [eval_bspPoly, bsp_zero_of_lt U κ t p i h, eval_zero]

lemma bspPoly_gt (U : ℕ → ℝ) (κ p i : ℕ) (h : i + p < κ) : bspPoly U κ p i = 0 :=
  Polynomial.funext fun t => by rw [eval_bspPoly, bsp_zero_of_gt U κ t p i h, eval_zero]

/-- Local independence of the basis functions. -/
lemma bspPoly_independent {U : ℕ → ℝ} (hU : Monotone U) {κ : ℕ} (hv : U κ < U (κ + 1)) (p : ℕ) (hp : p ≤ κ) (a : ℕ → ℝ)
    (h : ∑ r ∈ range (p + 1), C (a r) * bspPoly U κ p (κ - p + r) = 0) : ∀ r ≤ p, a r = 0 := by
  induction p generalizing a with
  | zero =>
    intro r hr
    obtain rfl : r = 0 := by omega
    have := congrArg (eval 0) h
    simpa [bspPoly] using this
  | succ p ih =>
    have hd := congrArg derivative h
    rw [derivative_sum, derivative_zero] at hd
    have e1 : ∑ r ∈ range (p + 1 + 1), derivative (C (a r) * bspPoly U κ (p + 1) (κ - (p + 1) + r)) =
        ∑ r ∈ range (p + 1), C ((a (r + 1) - a r) * ((p + 1 : ℕ) / (U (κ + r + 1) - U (κ - p + r)))) * bspPoly U κ p (κ - p + r) := by
      have t : ∀ r, derivative (C (a r) * bspPoly U κ (p + 1) (κ - (p + 1) + r)) =
          C (a r * ((p + 1 : ℕ) / (U (κ + r) - U (κ - (p + 1) + r)))) * bspPoly U κ p (κ - (p + 1) + r) -
          C (a r * ((p + 1 : ℕ) / (U (κ + r + 1) - U (κ - p + r)))) * bspPoly U κ p (κ - p + r) := by
        intro r
        rw [derivative_C_mul, derivative_bspPoly hU hv, show κ - (p + 1) + r + p + 1 = κ + r by omega, show κ - (p + 1) + r + p + 2 = κ + r + 1 by omega,
          show κ - (p + 1) + r + 1 = κ - p + r by omega, C_mul, C_mul]
        ring
      rw [sum_congr rfl fun r _ => t r, sum_sub_distrib, sum_range_succ' _ (p + 1), sum_range_succ _ (p + 1)]
      rw [bspPoly_lt U κ p (κ - p + (p + 1)) (by omega), bspPoly_gt U κ p (κ - (p + 1) + 0) (by omega)]
      rw [mul_zero, mul_zero, add_zero, add_zero, ← sum_sub_distrib]
      refine sum_congr rfl fun r _ => ?_
      rw [show κ - (p + 1) + (r + 1) = κ - p + r by omega, show κ + (r + 1) = κ + r + 1 by omega, sub_mul, C_sub]
      ring
    rw [e1] at hd
    have hs := ih (by omega) _ hd
    have heq : ∀ r ≤ p, a (r + 1) = a r := by
      intro r hr
      have := hs r hr
      have d : 0 < U (κ + r + 1) - U (κ - p + r) := by
        have h1 := hU (show κ + 1 ≤ κ + r + 1 by omega)
        have h2 := hU (show κ - p + r ≤ κ by omega)
        linarith
      have d2 : ((p + 1 : ℕ) : ℝ) / (U (κ + r + 1) - U (κ - p + r)) ≠ 0 := by positivity
      rcases mul_eq_zero.1 this with h | h
      · linarith
      · exact absurd h d2
    have hall : ∀ r ≤ p + 1, a r = a 0 := by
      intro r
      induction r with
      | zero => intro _; rfl
      | succ r ihr => intro hr; rw [heq r (by omega), ihr (by omega)]
    have h0 : a 0 = 0 := by
      have hev := congrArg (eval (U κ)) h
      rw [eval_finsetSum, eval_zero] at hev
      rw [sum_congr rfl (fun r hr => by
        rw [eval_mul, eval_C, eval_bspPoly, hall r (by have := mem_range.1 hr; omega)]), ← mul_sum, bsp_sum U hU κ (U κ) hv (p + 1) hp, mul_one] at hev
      exact hev
    intro r hr
    rw [hall r hr, h0]

/-! ## Smoothness at a simple knot -/

lemma bsp_join {U : ℕ → ℝ} {κ : ℕ} (h1 : U κ < U (κ + 1)) (h2 : U (κ + 1) < U (κ + 2)) (p i : ℕ) :
    bsp U κ (U (κ + 1)) (p + 1) i = bsp U (κ + 1) (U (κ + 1)) (p + 1) i := by
  induction p generalizing i with
  | zero =>
    have d1 : U (κ + 1) - U κ ≠ 0 := by linarith
    have d2 : U (κ + 2) - U (κ + 1) ≠ 0 := by linarith
    simp only [bsp, Nat.add_zero]
    by_cases a : i = κ
    · subst a
      simp only [if_true, if_neg (show i + 1 ≠ i by omega), if_neg (show i ≠ i + 1 by omega)]
      rw [div_self d1, div_self d2]; ring
    · by_cases b : i = κ + 1
      · subst b
        simp only [if_neg (show κ + 1 ≠ κ by omega), if_neg (show κ + 1 + 1 ≠ κ by omega), if_true, if_neg (show κ + 1 + 1 ≠ κ + 1 by omega)]
        simp
      · by_cases c : i + 1 = κ
        · subst c
          simp
          intro h; omega
        · simp [a, b, c]
  | succ p ih => rw [bsp, ih, ih]; rfl

lemma bspPoly_join {U : ℕ → ℝ} (hU : Monotone U) {κ : ℕ} (h1 : U κ < U (κ + 1)) (h2 : U (κ + 1) < U (κ + 2)) (q p i : ℕ) (hq : q < p) :
    (derivative^[q] (bspPoly U κ p i)).eval (U (κ + 1)) = (derivative^[q] (bspPoly U (κ + 1) p i)).eval (U (κ + 1)) := by
  induction q generalizing p i with
  | zero =>
    obtain ⟨p, rfl⟩ := Nat.exists_eq_add_of_le' hq
    rw [Function.iterate_zero, id_eq, id_eq, eval_bspPoly, eval_bspPoly]
    exact bsp_join h1 h2 p i
  | succ q ih =>
    obtain ⟨p, rfl⟩ := Nat.exists_eq_add_of_le' (show 1 ≤ p by omega)
    rw [Function.iterate_succ_apply, Function.iterate_succ_apply, derivative_bspPoly hU h1, derivative_bspPoly hU h2]
    rw [iterate_derivative_sub, iterate_derivative_sub, iterate_derivative_C_mul, iterate_derivative_C_mul, iterate_derivative_C_mul,
      iterate_derivative_C_mul]
    rw [eval_sub, eval_sub, eval_mul, eval_mul, eval_mul, eval_mul, ih p i (by omega), ih p (i + 1) (by omega)]

/-! ## Splines -/

/-- The piece of a spline on a span. -/
noncomputable def piece (U : ℕ → ℝ) (p n : ℕ) (a : ℕ → ℝ) (κ : ℕ) : ℝ[X] := ∑ j ∈ range n, C (a j) * bspPoly U κ p j

/-- The derivative of order `q` of a spline. -/
noncomputable def der (U : ℕ → ℝ) (p n : ℕ) (a : ℕ → ℝ) (q : ℕ) (t : ℝ) : ℝ :=
  (derivative^[q] (piece U p n a (findSpanLinear p U n t))).eval t

lemma natDegree_piece (U : ℕ → ℝ) (p n : ℕ) (a : ℕ → ℝ) (κ : ℕ) : (piece U p n a κ).natDegree ≤ p :=
  natDegree_sum_le_of_forall_le _ _ fun j _ => (natDegree_C_mul_le _ _).trans (natDegree_bspPoly U κ p j)

lemma der_zero (U : ℕ → ℝ) (p n : ℕ) (hpn : p < n) (a : ℕ → ℝ) (t : ℝ) : der U p n a 0 t = curvePoint p U a n t := by
  unfold der piece
  rw [curvePoint_eq p U a n t hpn, Function.iterate_zero, id_eq, eval_finsetSum]
  refine sum_congr rfl fun j _ => ?_
  rw [eval_mul, eval_C, eval_bspPoly, smul_eq_mul, mul_comm]

namespace SimpleKnots
variable {p n : ℕ} {U : ℕ → ℝ} (h : SimpleKnots p n U)
include h

lemma span_eq {κ : ℕ} (h1 : p ≤ κ) (h2 : κ < n) {t : ℝ} (h3 : U κ ≤ t) (h4 : t < U (κ + 1)) : findSpanLinear p U n t = κ := by
  have hs := (C19_linear p n U t h.pn).2.2.1 ((h.mono h1).trans h3) (h4.trans_le (h.mono (by omega)))
  exact span_unique U h.mono t _ _ hs ⟨h3, h4⟩

lemma span_end : findSpanLinear p U n (U n) = n - 1 := (C19_linear p n U (U n) h.pn).2.2.2.1 h.mono le_rfl

lemma span_spec {t : ℝ} (h1 : U p ≤ t) (h2 : t < U n) :
    p ≤ findSpanLinear p U n t ∧ findSpanLinear p U n t < n ∧ U (findSpanLinear p U n t) ≤ t ∧ t < U (findSpanLinear p U n t + 1) := by
  obtain ⟨a, b, c, -⟩ := C19_linear p n U t h.pn
  exact ⟨a, b, c h1 h2⟩

lemma piece_join (a : ℕ → ℝ) {κ : ℕ} (h1 : p ≤ κ) (h2 : κ + 1 < n) {q : ℕ} (hq : q < p) :
    (derivative^[q] (piece U p n a κ)).eval (U (κ + 1)) = (derivative^[q] (piece U p n a (κ + 1))).eval (U (κ + 1)) := by
  unfold piece
  rw [iterate_derivative_sum, iterate_derivative_sum, eval_finsetSum, eval_finsetSum]
  refine sum_congr rfl fun j _ => ?_
  rw [iterate_derivative_C_mul, iterate_derivative_C_mul, eval_mul, eval_mul,
    bspPoly_join h.mono (h.strict κ h1 (by omega)) (h.strict (κ + 1) (by omega) h2) q p j hq]

/-- On a closed span, the derivatives of order less than the degree are those of the piece. -/
lemma der_closed (a : ℕ → ℝ) {κ : ℕ} (h1 : p ≤ κ) (h2 : κ < n) {q : ℕ} (hq : q < p) {t : ℝ} (h3 : U κ ≤ t) (h4 : t ≤ U (κ + 1)) :
    der U p n a q t = (derivative^[q] (piece U p n a κ)).eval t := by
  unfold der
  rcases h4.lt_or_eq with h4 | h4
  · rw [h.span_eq h1 h2 h3 h4]
  · subst h4
    by_cases hk : κ + 1 < n
    · rw [h.span_eq (by omega) hk le_rfl (h.strict (κ + 1) (by omega) hk), h.piece_join a h1 hk hq]
    · obtain rfl : n = κ + 1 := by omega
      rw [h.span_end, Nat.add_sub_cancel]

lemma der_continuous (a : ℕ → ℝ) {κ₁ κ₂ : ℕ} (h1 : p ≤ κ₁) (h12 : κ₁ ≤ κ₂) (h2 : κ₂ < n) {q : ℕ} (hq : q < p) :
    ContinuousOn (der U p n a q) (Set.Icc (U κ₁) (U (κ₂ + 1))) := by
  have one : ∀ κ, p ≤ κ → κ < n → ContinuousOn (der U p n a q) (Set.Icc (U κ) (U (κ + 1))) := by
    intro κ k1 k2
    refine ContinuousOn.congr (f := fun t => (derivative^[q] (piece U p n a κ)).eval t) (Polynomial.continuous _).continuousOn ?_
    intro t ht
    exact h.der_closed a k1 k2 hq ht.1 ht.2
  induction κ₂, h12 using Nat.le_induction with
  | base => exact one κ₁ h1 h2
  | succ κ hk ih =>
    have := (ih (by omega)).union_of_isClosed (one (κ + 1) (by omega) h2) isClosed_Icc isClosed_Icc
    rwa [Set.Icc_union_Icc_eq_Icc (h.mono (by omega)) (h.mono (by omega))] at this

lemma der_right (a : ℕ → ℝ) {κ₁ κ₂ : ℕ} (h1 : p ≤ κ₁) (h12 : κ₁ ≤ κ₂) (h2 : κ₂ < n) {q : ℕ} (hq : q < p) :
    RightDeriv (der U p n a q) (der U p n a (q + 1)) (U κ₁) (U (κ₂ + 1)) where
  cont := h.der_continuous a h1 h12 h2 hq
  deriv := by
    intro x hx
    obtain ⟨k1, k2, k3, k4⟩ := h.span_spec ((h.mono h1).trans hx.1) (hx.2.trans_le (h.mono (by omega)))
    generalize hκ : findSpanLinear p U n x = κ at k1 k2 k3 k4
    have hd : HasDerivWithinAt (fun t => (derivative^[q] (piece U p n a κ)).eval t) ((derivative^[q + 1] (piece U p n a κ)).eval x) (Set.Ici x) x := by
      rw [Function.iterate_succ_apply']
      exact ((derivative^[q] (piece U p n a κ)).hasDerivAt x).hasDerivWithinAt
    have e : der U p n a (q + 1) x = (derivative^[q + 1] (piece U p n a κ)).eval x := by unfold der; rw [hκ]
    rw [e]
    refine hd.congr_of_eventuallyEq ?_ (h.der_closed a k1 k2 hq k3 k4.le)
    have : Set.Ico x (U (κ + 1)) ∈ nhdsWithin x (Set.Ici x) := Ico_mem_nhdsGE k4
    filter_upwards [this] with t ht
    exact h.der_closed a k1 k2 hq (k3.trans ht.1) ht.2.le

omit h in
lemma der_top (a : ℕ → ℝ) {t t' : ℝ} (e : findSpanLinear p U n t = findSpanLinear p U n t') : der U p n a p t = der U p n a p t' := by
  unfold der
  rw [e]
  have h0 : (derivative^[p] (piece U p n a (findSpanLinear p U n t'))).natDegree = 0 := by
    have := natDegree_iterate_derivative (piece U p n a (findSpanLinear p U n t')) p
    have := natDegree_piece U p n a (findSpanLinear p U n t')
    omega
  rw [eq_C_of_natDegree_eq_zero h0, eval_C, eval_C]

/-- A spline whose piece is null on a span has null coefficients there. -/
lemma piece_zero (a : ℕ → ℝ) {κ : ℕ} (h1 : p ≤ κ) (h2 : κ < n) (hz : piece U p n a κ = 0) : ∀ j, κ - p ≤ j → j ≤ κ → a j = 0 := by
  have e : ∑ r ∈ range (p + 1), C (a (κ - p + r)) * bspPoly U κ p (κ - p + r) = 0 := by
    rw [← hz]
    unfold piece
    refine Polynomial.funext fun t => ?_
    rw [eval_finsetSum, eval_finsetSum]
    have := bsp_sum_support U κ t p n h1 h2 a
    simp only [smul_eq_mul] at this
    simp only [eval_mul, eval_C, eval_bspPoly]
    rw [sum_congr rfl (fun r _ => mul_comm (a (κ - p + r)) _), this]
    exact sum_congr rfl fun j _ => mul_comm _ _
  intro j hj1 hj2
  have := bspPoly_independent h.mono (h.strict κ h1 h2) p h1 (fun r => a (κ - p + r)) e (j - (κ - p)) (by omega)
  rwa [show κ - p + (j - (κ - p)) = j by omega] at this

/-- **Schoenberg–Whitney**: a spline whose first and last coefficients are null, and which vanishes at `n - 2` increasing parameters, each inside the
support of its basis function, is null. -/
theorem whitney (a v : ℕ → ℝ) (hv : ∀ i, 1 ≤ i → i + 1 < n → U i < v i ∧ v i < U (i + p + 1)) (hvm : ∀ i, 1 ≤ i → i + 2 < n → v i < v (i + 1))
    (ha : a 0 = 0) (hb : a (n - 1) = 0) (hz : ∀ i, 1 ≤ i → i + 1 < n → curvePoint p U a n (v i) = 0) : ∀ j < n, a j = 0 := by
  have hp := h.hp
  have hpn := h.pn
  by_contra hn
  push Not at hn
  obtain ⟨j, hj, hj0⟩ := hn
  -- a span on which the spline is not null
  obtain ⟨κ, k1, k2, k3⟩ : ∃ κ, p ≤ κ ∧ κ < n ∧ piece U p n a κ ≠ 0 := by
    by_cases hjp : p ≤ j
    · exact ⟨j, hjp, hj, fun e => hj0 (h.piece_zero a hjp hj e j (by omega) le_rfl)⟩
    · exact ⟨p, le_rfl, hpn, fun e => hj0 (h.piece_zero a le_rfl hpn e j (by omega) (by omega))⟩
  -- the longest run of such spans
  obtain ⟨κ₁, a1, a2, a3, a4⟩ : ∃ κ₁, p ≤ κ₁ ∧ κ₁ ≤ κ ∧ (∀ k, κ₁ ≤ k → k ≤ κ → piece U p n a k ≠ 0) ∧ (κ₁ = p ∨ piece U p n a (κ₁ - 1) = 0) := by
    have : ∀ d, d ≤ κ - p → (∀ k, κ - d ≤ k → k ≤ κ → piece U p n a k ≠ 0) ∨
        ∃ κ₁, p ≤ κ₁ ∧ κ₁ ≤ κ ∧ (∀ k, κ₁ ≤ k → k ≤ κ → piece U p n a k ≠ 0) ∧ (κ₁ = p ∨ piece U p n a (κ₁ - 1) = 0) := by
      intro d
      induction d with
      | zero =>
        intro _
        left
        intro k hk1 hk2
        obtain rfl : k = κ := by omega
        exact k3
      | succ d ih =>
        intro hd
        rcases ih (by omega) with hl | hr
        · by_cases hc : piece U p n a (κ - (d + 1)) = 0
          · right
            exact ⟨κ - d, by omega, by omega, hl, Or.inr (by rwa [show κ - d - 1 = κ - (d + 1) by omega])⟩
          · left
            intro k hk1 hk2
            by_cases hk : k = κ - (d + 1)
            · rw [hk]; exact hc
            · exact hl k (by omega) hk2
        · exact Or.inr hr
    rcases this (κ - p) le_rfl with hl | hr
    · exact ⟨p, le_rfl, k1, fun k hk1 hk2 => hl k (by omega) hk2, Or.inl rfl⟩
    · exact hr
  obtain ⟨κ₂, b1, b2, b3, b4⟩ : ∃ κ₂, κ ≤ κ₂ ∧ κ₂ < n ∧ (∀ k, κ ≤ k → k ≤ κ₂ → piece U p n a k ≠ 0) ∧ (κ₂ = n - 1 ∨ piece U p n a (κ₂ + 1) = 0) := by
    have : ∀ d, κ + d < n → (∀ k, κ ≤ k → k ≤ κ + d → piece U p n a k ≠ 0) ∨
        ∃ κ₂, κ ≤ κ₂ ∧ κ₂ < n ∧ (∀ k, κ ≤ k → k ≤ κ₂ → piece U p n a k ≠ 0) ∧ (κ₂ = n - 1 ∨ piece U p n a (κ₂ + 1) = 0) := by
      intro d
      induction d with
      | zero =>
        intro _
        left
        intro k hk1 hk2
        obtain rfl : k = κ := by omega
        exact k3
      | succ d ih =>
        intro hd
        rcases ih (by omega) with hl | hr
        · by_cases hc : piece U p n a (κ + d + 1) = 0
          · right
            exact ⟨κ + d, by omega, by omega, hl, Or.inr hc⟩
          · left
            intro k hk1 hk2
            by_cases hk : k = κ + d + 1
            · rw [hk]; exact hc
            · exact hl k hk1 (by omega)
        · exact Or.inr hr
    rcases this (n - 1 - κ) (by omega) with hl | hr
    · exact ⟨n - 1, by omega, by omega, fun k hk1 hk2 => hl k hk1 (by omega), Or.inl rfl⟩
    · exact hr
  have hrun : ∀ k, κ₁ ≤ k → k ≤ κ₂ → piece U p n a k ≠ 0 := by
    intro k hk1 hk2
    by_cases hk : k ≤ κ
    · exact a3 k hk1 hk
    · exact b3 k (by omega) hk2
  -- the zeros inside
  obtain ⟨iL, hiL⟩ : ∃ iL, iL = if κ₁ = p then 1 else κ₁ := ⟨_, rfl⟩
  obtain ⟨iR, hiR⟩ : ∃ iR, iR = if κ₂ = n - 1 then n - 1 else κ₂ - p + 1 := ⟨_, rfl⟩
  have hin : ∀ i, iL ≤ i → i < iR → 1 ≤ i ∧ i + 1 < n ∧ U κ₁ < v i ∧ v i < U (κ₂ + 1) := by
    intro i hi1 hi2
    have i1 : 1 ≤ i := by
      rw [hiL] at hi1
      split_ifs at hi1 <;> omega
    have i2 : i + 1 < n := by
      rw [hiR] at hi2
      split_ifs at hi2 <;> omega
    obtain ⟨w1, w2⟩ := hv i i1 i2
    refine ⟨i1, i2, lt_of_le_of_lt ?_ w1, lt_of_lt_of_le w2 ?_⟩
    · rw [hiL] at hi1
      split_ifs at hi1 with hc
      · rw [hc, ← h.left]; exact h.mono (by omega)
      · exact h.mono hi1
    · rw [hiR] at hi2
      split_ifs at hi2 with hc
      · rw [hc, show n - 1 + 1 = n by omega, ← h.right]; exact h.mono (by omega)
      · exact h.mono (by omega)
  have hAB : U κ₁ < U (κ₂ + 1) := (h.strict κ₁ a1 (by omega)).trans_le (h.mono (by omega))
  have hcase : iL = (if κ₁ = p then 1 else κ₁) ∧ iR = (if κ₂ = n - 1 then n - 1 else κ₂ - p + 1) := ⟨hiL, hiR⟩
  obtain ⟨r, hr⟩ : ∃ r, r = iR - iL := ⟨_, rfl⟩
  obtain ⟨z, hzdef⟩ : ∃ z : ℕ → ℝ, z = fun i => if i = 0 then U κ₁ else if i ≤ r then v (iL + i - 1) else U (κ₂ + 1) := ⟨_, rfl⟩
  have z0 : z 0 = U κ₁ := by rw [hzdef]; simp
  have zr : z (r + 1) = U (κ₂ + 1) := by rw [hzdef]; simp
  have zi : ∀ i, 1 ≤ i → i ≤ r → z i = v (iL + i - 1) := by
    intro i hi1 hi2
    rw [hzdef]
    dsimp only
    rw [if_neg (by omega), if_pos hi2]
  have hzm : ∀ i < r + 1, z i < z (i + 1) := by
    intro i hi
    by_cases i0 : i = 0
    · subst i0
      rw [z0]
      by_cases hr0 : r = 0
      · rw [hr0] at zr; rw [zr]; exact hAB
      · rw [zi (0 + 1) (by omega) (by omega)]
        exact (hin (iL + (0 + 1) - 1) (by omega) (by omega)).2.2.1
    · rw [zi i (by omega) (by omega)]
      by_cases hir : i = r
      · rw [hir, zr]
        exact (hin (iL + r - 1) (by omega) (by omega)).2.2.2
      · rw [zi (i + 1) (by omega) (by omega)]
        have q1 := hin (iL + i - 1) (by omega) (by omega)
        have q2 := hin (iL + (i + 1) - 1) (by omega) (by omega)
        have := hvm (iL + i - 1) q1.1 (by have := q2.2.1; omega)
        rwa [show iL + i - 1 + 1 = iL + (i + 1) - 1 by omega] at this
  have hzAB : ∀ i ≤ r + 1, U κ₁ ≤ z i ∧ z i ≤ U (κ₂ + 1) := by
    intro i hi
    by_cases i0 : i = 0
    · rw [i0, z0]; exact ⟨le_rfl, hAB.le⟩
    · by_cases hir : i ≤ r
      · rw [zi i (by omega) hir]
        obtain ⟨-, -, q1, q2⟩ := hin (iL + i - 1) (by omega) (by omega)
        exact ⟨q1.le, q2.le⟩
      · rw [show i = r + 1 by omega, zr]; exact ⟨hAB.le, le_rfl⟩
  -- the derivatives at the ends
  have hc := C21_end_points p n U h.clamped a
  have hLeft : ∀ q < (if κ₁ = p then 1 else p), der U p n a q (U κ₁) = 0 := by
    intro q hq
    split_ifs at hq with hk
    · obtain rfl : q = 0 := by omega
      rw [der_zero U p n hpn, hk, hc.1, ha]
    · have hz0 := a4.resolve_left hk
      have j1 := h.piece_join a (κ := κ₁ - 1) (by omega) (by omega) hq
      rw [show κ₁ - 1 + 1 = κ₁ by omega, hz0, iterate_derivative_zero, eval_zero] at j1
      rw [h.der_closed a a1 (by omega) hq le_rfl (h.mono (by omega)), ← j1]
  have hRight : ∀ q < (if κ₂ = n - 1 then 1 else p), der U p n a q (U (κ₂ + 1)) = 0 := by
    intro q hq
    split_ifs at hq with hk
    · obtain rfl : q = 0 := by omega
      rw [der_zero U p n hpn, hk, show n - 1 + 1 = n by omega, hc.2, hb]
    · have hz0 := b4.resolve_left hk
      rw [h.der_closed a (κ := κ₂ + 1) (by omega) (by omega) hq le_rfl (h.mono (by omega)), hz0, iterate_derivative_zero, eval_zero]
  have hzz : ∀ i ≤ r + 1, der U p n a 0 (z i) = 0 := by
    intro i hi
    by_cases i0 : i = 0
    · rw [i0, z0]; exact hLeft 0 (by split_ifs <;> omega)
    · by_cases hir : i ≤ r
      · rw [zi i (by omega) hir, der_zero U p n hpn]
        obtain ⟨q1, q2, -, -⟩ := hin (iL + i - 1) (by omega) (by omega)
        exact hz _ q1 q2
      · rw [show i = r + 1 by omega, zr]; exact hRight 0 (by split_ifs <;> omega)
  -- the spline is not null in the gaps
  have hgap : ∀ i < r + 1, ∃ w, z i < w ∧ w < z (i + 1) ∧ der U p n a 0 w ≠ 0 := by
    intro i hi
    have zl := (hzAB i (by omega)).1
    have zu := (hzAB (i + 1) (by omega)).2
    have zm := hzm i hi
    have ztop : z i < U n := (zm.trans_le zu).trans_le (h.mono (by omega))
    obtain ⟨s1, s2, s3, s4⟩ := h.span_spec ((h.mono a1).trans zl) ztop
    generalize findSpanLinear p U n (z i) = s at s1 s2 s3 s4
    have l1 : κ₁ ≤ s := by
      by_contra hcon
      exact absurd (lt_of_lt_of_le s4 (h.mono (by omega))) (not_lt.2 zl)
    have l2 : s ≤ κ₂ := by
      by_contra hcon
      have := h.mono (show κ₂ + 1 ≤ s by omega)
      linarith
    by_contra hcon
    push Not at hcon
    refine hrun s l1 l2 (eq_zero_of_infinite_isRoot _ ((Set.Ioo_infinite (lt_min zm s4)).mono ?_))
    intro w hw
    have w2 := lt_min_iff.1 hw.2
    have := hcon w hw.1 w2.1
    unfold der at this
    rw [h.span_eq s1 s2 (s3.trans hw.1.le) w2.2] at this
    exact this
  have hspan : ∀ t, U κ₁ ≤ t → t < U (κ₂ + 1) → p ≤ findSpanLinear p U n t ∧ findSpanLinear p U n t < n ∧
      U (findSpanLinear p U n t) ≤ t ∧ t < U (findSpanLinear p U n t + 1) := fun t h1 h2 =>
    h.span_spec ((h.mono a1).trans h1) (h2.trans_le (h.mono (by omega)))
  have bound := zeros_bound (der U p n a) p hp (U κ₁) (U (κ₂ + 1)) (fun q hq => h.der_right a a1 (by omega) b2 hq)
    (if κ₁ = p then 1 else p) (if κ₂ = n - 1 then 1 else p) (by split_ifs <;> omega) (by split_ifs <;> omega) hLeft hRight z (r + 1) z0 zr (by omega) hzm hzz hgap
    (findSpanLinear p U n) κ₂
    (by
      intro t t' h1 h2 h3
      obtain ⟨-, -, x1, -⟩ := hspan t h1 (h2.trans_lt h3)
      obtain ⟨-, -, -, x2⟩ := hspan t' (h1.trans h2) h3
      by_contra hcon
      have := h.mono (show findSpanLinear p U n t' + 1 ≤ findSpanLinear p U n t by omega)
      linarith)
    (by
      intro t h1 h2
      obtain ⟨-, -, x1, -⟩ := hspan t h1 h2
      by_contra hcon
      have := h.mono (show κ₂ + 1 ≤ findSpanLinear p U n t by omega)
      linarith)
    (fun t t' _ _ _ e => der_top a e)
  rw [h.span_eq a1 (by omega) le_rfl (h.strict κ₁ a1 (by omega))] at bound
  rw [hr, hcase.1, hcase.2] at bound
  split_ifs at bound <;> omega

end SimpleKnots
end Volmdlr.Fit
