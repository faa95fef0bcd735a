import Verif.Nurbs.Basis
import Mathlib.Algebra.BigOperators.GroupWithZero.Action
import Mathlib.Algebra.Module.LinearMap.Basic
import Mathlib.Algebra.Module.Prod
import Mathlib.Algebra.Module.BigOperators
import Mathlib.Algebra.Order.Field.Rat
import Mathlib.Tactic.Positivity

/-!
# C21, C62: curve and surface evaluation
-/

namespace Volmdlr
open Finset
section
variable {K : Type*} [Field K] [LinearOrder K] {V : Type*} [AddCommGroup V] [Module K V]

/-- Specification: `x` is a convex combination of the points `P 0, …, P (n-1)`. -/
def ConvexComb (n : ℕ) (P : ℕ → V) (x : V) : Prop :=
  ∃ w : ℕ → K, (∀ i, 0 ≤ w i) ∧ ∑ i ∈ range n, w i = 1 ∧ x = ∑ i ∈ range n, w i • P i

/-- Specification: a clamped knot vector for `n` control points and degree `p`: non-decreasing, `p + 1` equal
knots at each end, non-empty first and last span. -/
structure Clamped (p n : ℕ) (U : ℕ → K) : Prop where
  pn : p < n
  mono : Monotone U
  left : U 0 = U p
  right : U (n + p) = U n
  first : U p < U (p + 1)
  last : U (n - 1) < U n

theorem foldl_range_sum (f : ℕ → V) (n : ℕ) (x : V) :
    (List.range n).foldl (fun c i => c + f i) x = x + ∑ i ∈ range n, f i := by
  induction n with
  | zero => simp
  | succ n ih => rw [List.range_succ, List.foldl_append, ih, sum_range_succ]; simp [add_assoc]

end
section
variable {K : Type*} [Field K] [LinearOrder K] [IsStrictOrderedRing K]
variable {V : Type*} [AddCommGroup V] [Module K V]

omit [LinearOrder K] [IsStrictOrderedRing K] in
/-- A sum over the support is a sum over all control points. -/
theorem bsp_sum_support (U : ℕ → K) (κ : ℕ) (u : K) (p n : ℕ) (hp : p ≤ κ) (hn : κ < n) (P : ℕ → V) :
    ∑ r ∈ range (p + 1), bsp U κ u p (κ - p + r) • P (κ - p + r) = ∑ i ∈ range n, bsp U κ u p i • P i := by
  have h1 : ∑ i ∈ range n, bsp U κ u p i • P i = ∑ i ∈ Ico (κ - p) (κ + 1), bsp U κ u p i • P i := by
    symm
    apply sum_subset
    · intro i hi; simp only [mem_Ico, mem_range] at *; omega
    · intro i _ hi
      simp only [mem_Ico] at hi
      by_cases h : κ < i
      · rw [bsp_zero_of_lt _ _ _ _ _ h, zero_smul]
      · rw [bsp_zero_of_gt _ _ _ _ _ (by omega), zero_smul]
  rw [h1, sum_Ico_eq_sum_range]
  rw [show κ + 1 - (κ - p) = p + 1 by omega]

omit [IsStrictOrderedRing K] in
/-- What the code computes: the sum of the basis pieces of the span times the control points. -/
theorem curvePoint_eq (p : ℕ) (U : ℕ → K) (P : ℕ → V) (n : ℕ) (u : K) (hpn : p < n) :
    curvePoint p U P n u = ∑ i ∈ range n, bsp U (findSpanLinear p U n u) u p i • P i := by
  obtain ⟨h1, h2, -⟩ := C19_linear p n U u hpn
  rw [← bsp_sum_support U _ u p n h1 h2 P]
  unfold curvePoint
  dsimp only
  rw [foldl_range_sum, zero_add]
  apply sum_congr rfl
  intro r hr
  rw [basisOuter_eq_bsp U _ u p h1 r (by have := mem_range.1 hr; omega)]

/-- **C21** the evaluated point is `Σ N_{i,p}(u) P_i` with the Cox–de Boor basis functions, for every parameter
of the half-open domain. -/
theorem C21_eval_spec (p : ℕ) (U : ℕ → K) (hU : Monotone U) (P : ℕ → V) (n : ℕ) (u : K) (hpn : p < n)
    (h1 : U p ≤ u) (h2 : u < U n) :
    curvePoint p U P n u = ∑ i ∈ range n, coxDeBoor U u p i • P i := by
  rw [curvePoint_eq p U P n u hpn]
  obtain ⟨-, -, h, -⟩ := C19_linear p n U u hpn
  obtain ⟨ha, hb⟩ := h h1 h2
  apply sum_congr rfl
  intro i _
  rw [bsp_eq_coxDeBoor U hU _ u ha hb]

/-- The span found for a parameter of a clamped domain is not empty and contains the parameter. -/
theorem span_valid (p n : ℕ) (U : ℕ → K) (hc : Clamped p n U) (u : K) (h1 : U p ≤ u) (h2 : u ≤ U n) :
    U (findSpanLinear p U n u) ≤ u ∧ u ≤ U (findSpanLinear p U n u + 1) ∧
    U (findSpanLinear p U n u) < U (findSpanLinear p U n u + 1) := by
  obtain ⟨-, -, h, he, -⟩ := C19_linear p n U u hc.pn
  rcases h2.lt_or_eq with h2 | h2
  · obtain ⟨a, b⟩ := h h1 h2
    exact ⟨a, b.le, a.trans_lt b⟩
  · rw [he hc.mono h2.ge]
    have : n - 1 + 1 = n := by have := hc.pn; omega
    rw [this, h2]
    exact ⟨hc.last.le, le_refl _, hc.last⟩

/-- **C21** every evaluated point of a curve is a convex combination of the control points. -/
theorem C21_convex_hull (p n : ℕ) (U : ℕ → K) (hc : Clamped p n U) (P : ℕ → V) (u : K) (h1 : U p ≤ u)
    (h2 : u ≤ U n) : ConvexComb (K := K) n P (curvePoint p U P n u) := by
  obtain ⟨ha, hb, hl⟩ := span_valid p n U hc u h1 h2
  obtain ⟨hs1, hs2, -⟩ := C19_linear p n U u hc.pn
  refine ⟨bsp U (findSpanLinear p U n u) u p, bsp_nonneg U hc.mono _ u ha hb p, ?_, curvePoint_eq p U P n u hc.pn⟩
  have := bsp_sum_support U _ u p n hs1 hs2 (fun _ => (1 : K))
  simp only [smul_eq_mul, mul_one] at this
  rw [← this, bsp_sum U hc.mono _ u hl p hs1]

/-- **C21** hence every coordinate (more generally every linear form) of an evaluated point lies between the
bounds of the control points. -/
theorem C21_bounds (p n : ℕ) (U : ℕ → K) (hc : Clamped p n U) (P : ℕ → V) (u : K) (h1 : U p ≤ u)
    (h2 : u ≤ U n) (f : V →ₗ[K] K) (lo hi : K) (hP : ∀ i < n, lo ≤ f (P i) ∧ f (P i) ≤ hi) :
    lo ≤ f (curvePoint p U P n u) ∧ f (curvePoint p U P n u) ≤ hi := by
  obtain ⟨w, hw0, hw1, hx⟩ := C21_convex_hull p n U hc P u h1 h2
  rw [hx, map_sum]
  simp only [map_smul, smul_eq_mul]
  constructor
  · calc lo = ∑ i ∈ range n, w i * lo := by rw [← sum_mul, hw1, one_mul]
      _ ≤ _ := sum_le_sum fun i hi => mul_le_mul_of_nonneg_left (hP i (mem_range.1 hi)).1 (hw0 i)
  · calc _ ≤ ∑ i ∈ range n, w i * hi := sum_le_sum fun i hi => mul_le_mul_of_nonneg_left (hP i (mem_range.1 hi)).2 (hw0 i)
      _ = hi := by rw [← sum_mul, hw1, one_mul]

/-- **C21** evaluation commutes with affine maps of the control points. -/
theorem C21_affine {W : Type*} [AddCommGroup W] [Module K W] (p n : ℕ) (U : ℕ → K) (hc : Clamped p n U)
    (P : ℕ → V) (u : K) (h1 : U p ≤ u) (h2 : u ≤ U n) (A : V →ₗ[K] W) (b : W) :
    curvePoint p U (fun i => A (P i) + b) n u = A (curvePoint p U P n u) + b := by
  obtain ⟨ha, hb, hl⟩ := span_valid p n U hc u h1 h2
  obtain ⟨hs1, hs2, -⟩ := C19_linear p n U u hc.pn
  rw [curvePoint_eq p U _ n u hc.pn, curvePoint_eq p U _ n u hc.pn, map_sum]
  simp only [smul_add, map_smul, sum_add_distrib, ← sum_smul]
  have := bsp_sum_support U _ u p n hs1 hs2 (fun _ => (1 : K))
  simp only [smul_eq_mul, mul_one] at this
  rw [← this, bsp_sum U hc.mono _ u hl p hs1, one_smul]

/-- At the left end of a span whose last knots coincide the first basis function of the support is one. -/
theorem bsp_left (U : ℕ → K) (κ : ℕ) (u : K) (hs : u < U (κ + 1)) (q : ℕ)
    (h : ∀ i, κ < i + q → i ≤ κ → U i = u) (i : ℕ) : bsp U κ u q i = if i + q = κ then 1 else 0 := by
  induction q generalizing i with
  | zero => simp [bsp]
  | succ q ih =>
    have ih := ih (fun i h1 h2 => h i (by omega) h2)
    rw [bsp, ih, ih]
    have t1 : (u - U i) / (U (i + q + 1) - U i) * (if i + q = κ then 1 else 0) = 0 := by
      split
      · rename_i e; rw [h i (by omega) (by omega)]; simp
      · simp
    rw [t1, zero_add]
    by_cases e : i + (q + 1) = κ
    · rw [if_pos (by omega), if_pos e, mul_one, h (i + 1) (by omega) (by omega),
        show i + q + 2 = κ + 1 by omega, div_self]
      intro e'; linarith
    · rw [if_neg (by omega), if_neg e, mul_zero]

/-- At the right end of a span whose next knots coincide the last basis function of the support is one. -/
theorem bsp_right (U : ℕ → K) (κ : ℕ) (u : K) (hs : U κ < u) (q : ℕ)
    (h : ∀ i, κ < i → i ≤ κ + q → U i = u) (i : ℕ) : bsp U κ u q i = if i = κ then 1 else 0 := by
  induction q generalizing i with
  | zero => simp [bsp]
  | succ q ih =>
    have ih := ih (fun i h1 h2 => h i h1 (by omega))
    rw [bsp, ih, ih]
    have t2 : (U (i + q + 2) - u) / (U (i + q + 2) - U (i + 1)) * (if i + 1 = κ then 1 else 0) = 0 := by
      split
      · rename_i e; rw [h (i + q + 2) (by omega) (by omega)]; simp
      · simp
    rw [t2, add_zero]
    by_cases e : i = κ
    · rw [if_pos e, mul_one, h (i + q + 1) (by omega) (by omega), e, div_self]
      intro e'; linarith
    · rw [if_neg e, mul_zero]

/-- **C21** a clamped curve starts at its first control point and ends at its last one. -/
theorem C21_end_points (p n : ℕ) (U : ℕ → K) (hc : Clamped p n U) (P : ℕ → V) :
    curvePoint p U P n (U p) = P 0 ∧ curvePoint p U P n (U n) = P (n - 1) := by
  have hpn := hc.pn
  constructor
  · have hspan : findSpanLinear p U n (U p) = p := by
      obtain ⟨a, b, c, -⟩ := C19_linear p n U (U p) hpn
      have hlt : U p < U n := hc.first.trans_le (hc.mono (by omega))
      exact span_unique U hc.mono (U p) _ _ (c (le_refl _) hlt) ⟨le_refl _, hc.first⟩
    rw [curvePoint_eq p U P n (U p) hpn, hspan, sum_eq_single 0]
    · rw [bsp_left U p (U p) hc.first p, if_pos (by omega), one_smul]
      intro i _ h2
      exact le_antisymm (hc.mono h2) (by rw [← hc.left]; exact hc.mono (Nat.zero_le _))
    · intro i _ hi
      rw [bsp_left U p (U p) hc.first p, if_neg (by omega), zero_smul]
      intro i _ h2
      exact le_antisymm (hc.mono h2) (by rw [← hc.left]; exact hc.mono (Nat.zero_le _))
    · intro h; exact absurd (mem_range.2 (by omega)) h
  · have hspan : findSpanLinear p U n (U n) = n - 1 := (C19_linear p n U (U n) hpn).2.2.2.1 hc.mono (le_refl _)
    have hr : ∀ i, n - 1 < i → i ≤ n - 1 + p → U i = U n := by
      intro i h1 h2
      exact le_antisymm (by rw [← hc.right]; exact hc.mono (by omega)) (hc.mono (by omega))
    rw [curvePoint_eq p U P n (U n) hpn, hspan, sum_eq_single (n - 1)]
    · rw [bsp_right U (n - 1) (U n) hc.last p hr, if_pos rfl, one_smul]
    · intro i _ hi
      rw [bsp_right U (n - 1) (U n) hc.last p hr, if_neg hi, zero_smul]
    · intro h; exact absurd (mem_range.2 (by omega)) h

theorem clamped_example : Clamped 2 4 (fun i => if i ≤ 2 then (0 : ℚ) else if i = 3 then 1 else 2) := by
  refine ⟨by norm_num, ?_, by norm_num, by norm_num, by norm_num, by norm_num⟩
  apply monotone_nat_of_le_succ
  intro i
  rcases i with _ | _ | _ | _ | i <;> norm_num
  rw [if_neg (by omega), if_neg (by omega)]
example : curvePoint 2 (fun i => if i ≤ 2 then (0 : ℚ) else if i = 3 then 1 else 2) (fun i => ((i : ℚ) ^ 2)) 4 (1 / 2) = 9 / 8 := by
  decide +kernel

/-! ### rational curves -/

omit [LinearOrder K] [IsStrictOrderedRing K] in
theorem fst_sum_weighted (f : ℕ → K) (P : ℕ → V) (w : ℕ → K) (n : ℕ) :
    (∑ i ∈ range n, f i • weighted P w i) = (∑ i ∈ range n, (f i * w i) • P i, ∑ i ∈ range n, f i * w i) := by
  ext
  · rw [Prod.fst_sum]; simp [weighted, smul_smul]
  · rw [Prod.snd_sum]; simp [weighted]

/-- **C21** a rational curve whose weights are all equal (and not zero) is the non-rational curve. -/
theorem C21_equal_weights (p n : ℕ) (U : ℕ → K) (hc : Clamped p n U) (P : ℕ → V) (w : K) (hw : w ≠ 0) (u : K)
    (h1 : U p ≤ u) (h2 : u ≤ U n) :
    curvePointRational p U (weighted P fun _ => w) n u = curvePoint p U P n u := by
  obtain ⟨ha, hb, hl⟩ := span_valid p n U hc u h1 h2
  obtain ⟨hs1, hs2, -⟩ := C19_linear p n U u hc.pn
  have hsum := bsp_sum_support U _ u p n hs1 hs2 (fun _ => (1 : K))
  simp only [smul_eq_mul, mul_one] at hsum
  rw [bsp_sum U hc.mono _ u hl p hs1] at hsum
  unfold curvePointRational
  dsimp only
  rw [curvePoint_eq p U _ n u hc.pn, curvePoint_eq p U _ n u hc.pn, fst_sum_weighted]
  dsimp only
  rw [← sum_mul, ← hsum, one_mul, smul_sum]
  apply sum_congr rfl
  intro i _
  rw [smul_smul]; congr 1; field_simp

/-- **C21** with positive weights a rational point is still a convex combination of the control points. -/
theorem C21_rational_convex (p n : ℕ) (U : ℕ → K) (hc : Clamped p n U) (P : ℕ → V) (w : ℕ → K)
    (hw : ∀ i < n, 0 < w i) (u : K) (h1 : U p ≤ u) (h2 : u ≤ U n) :
    ConvexComb (K := K) n P (curvePointRational p U (weighted P w) n u) := by
  obtain ⟨ha, hb, hl⟩ := span_valid p n U hc u h1 h2
  obtain ⟨hs1, hs2, -⟩ := C19_linear p n U u hc.pn
  have hsum := bsp_sum_support U _ u p n hs1 hs2 (fun _ => (1 : K))
  simp only [smul_eq_mul, mul_one] at hsum
  rw [bsp_sum U hc.mono _ u hl p hs1] at hsum
  have hnn := bsp_nonneg U hc.mono (findSpanLinear p U n u) u ha hb p
  unfold curvePointRational
  dsimp only
  rw [curvePoint_eq p U _ n u hc.pn, fst_sum_weighted]
  dsimp only
  set B := bsp U (findSpanLinear p U n u) u p with hB
  have hpos : 0 < ∑ i ∈ range n, B i * w i := by
    have hex : ∃ i ∈ range n, 0 < B i := by
      by_contra hcon
      push Not at hcon
      have : ∑ i ∈ range n, B i ≤ 0 := sum_nonpos hcon
      rw [← hsum] at this; linarith
    apply sum_pos'
    · intro i hi; exact mul_nonneg (hnn i) (hw i (mem_range.1 hi)).le
    · obtain ⟨i, hi, hpi⟩ := hex
      exact ⟨i, hi, mul_pos hpi (hw i (mem_range.1 hi))⟩
  refine ⟨fun i => if i < n then (∑ i ∈ range n, B i * w i)⁻¹ * (B i * w i) else 0, ?_, ?_, ?_⟩
  · intro i
    dsimp only
    split
    · exact mul_nonneg (inv_nonneg.2 hpos.le) (mul_nonneg (hnn i) (hw i ‹_›).le)
    · exact le_refl _
  · rw [sum_congr rfl (g := fun i => (∑ i ∈ range n, B i * w i)⁻¹ * (B i * w i))]
    · rw [← mul_sum]; exact inv_mul_cancel₀ hpos.ne'
    · intro i hi; dsimp only; rw [if_pos (mem_range.1 hi)]
  · rw [smul_sum]
    apply sum_congr rfl
    intro i hi
    dsimp only
    rw [if_pos (mem_range.1 hi), smul_smul]

/-- **C21** a clamped rational curve starts and ends at its end control points. -/
theorem C21_rational_end_points (p n : ℕ) (U : ℕ → K) (hc : Clamped p n U) (P : ℕ → V) (w : ℕ → K)
    (hw : ∀ i < n, w i ≠ 0) :
    curvePointRational p U (weighted P w) n (U p) = P 0 ∧
    curvePointRational p U (weighted P w) n (U n) = P (n - 1) := by
  obtain ⟨e1, e2⟩ := C21_end_points p n U hc (weighted P w)
  have hpn := hc.pn
  unfold curvePointRational
  rw [e1, e2]
  constructor
  · simp only [weighted, smul_smul]
    rw [inv_mul_cancel₀ (hw 0 (by omega)), one_smul]
  · simp only [weighted, smul_smul]
    rw [inv_mul_cancel₀ (hw (n - 1) (by omega)), one_smul]

/-! ### surfaces -/

omit [IsStrictOrderedRing K] in
/-- A surface point is a curve point (in `u`) of curve points (in `v`), the rows of the control net. -/
theorem surfacePoint_eq (pu pv : ℕ) (Uu Uv : ℕ → K) (P : ℕ → V) (su sv : ℕ) (u v : K) :
    surfacePoint pu pv Uu Uv P su sv u v =
      curvePoint pu Uu (fun k => curvePoint pv Uv (fun m => P (m + sv * k)) sv v) su u := by
  unfold surfacePoint curvePoint
  dsimp only

/-- **C62** a surface point is a convex combination of the control points. -/
theorem C62_convex (pu pv : ℕ) (Uu Uv : ℕ → K) (P : ℕ → V) (su sv : ℕ) (hcu : Clamped pu su Uu)
    (hcv : Clamped pv sv Uv) (u v : K) (hu1 : Uu pu ≤ u) (hu2 : u ≤ Uu su) (hv1 : Uv pv ≤ v) (hv2 : v ≤ Uv sv) :
    ∃ w : ℕ → ℕ → K, (∀ i j, 0 ≤ w i j) ∧ ∑ i ∈ range su, ∑ j ∈ range sv, w i j = 1 ∧
      surfacePoint pu pv Uu Uv P su sv u v = ∑ i ∈ range su, ∑ j ∈ range sv, w i j • P (j + sv * i) := by
  rw [surfacePoint_eq]
  obtain ⟨a, ha0, ha1, hax⟩ := C21_convex_hull pu su Uu hcu
    (fun k => curvePoint pv Uv (fun m => P (m + sv * k)) sv v) u hu1 hu2
  -- the weights in v do not depend on the row
  obtain ⟨hva, hvb, hvl⟩ := span_valid pv sv Uv hcv v hv1 hv2
  obtain ⟨hs1, hs2, -⟩ := C19_linear pv sv Uv v hcv.pn
  have hsum := bsp_sum_support Uv _ v pv sv hs1 hs2 (fun _ => (1 : K))
  simp only [smul_eq_mul, mul_one] at hsum
  rw [bsp_sum Uv hcv.mono _ v hvl pv hs1] at hsum
  refine ⟨fun i j => a i * bsp Uv (findSpanLinear pv Uv sv v) v pv j, ?_, ?_, ?_⟩
  · intro i j; exact mul_nonneg (ha0 i) (bsp_nonneg Uv hcv.mono _ v hva hvb pv j)
  · simp only [← mul_sum, ← hsum, mul_one, ha1]
  · rw [hax]
    apply sum_congr rfl
    intro i _
    dsimp only
    rw [curvePoint_eq pv Uv _ sv v hcv.pn, smul_sum]
    apply sum_congr rfl
    intro j _
    rw [smul_smul]

/-- **C62** evaluation commutes with affine maps of the control points. -/
theorem C62_affine {W : Type*} [AddCommGroup W] [Module K W] (pu pv : ℕ) (Uu Uv : ℕ → K) (P : ℕ → V) (su sv : ℕ)
    (hcu : Clamped pu su Uu) (hcv : Clamped pv sv Uv) (u v : K) (hu1 : Uu pu ≤ u) (hu2 : u ≤ Uu su)
    (hv1 : Uv pv ≤ v) (hv2 : v ≤ Uv sv) (A : V →ₗ[K] W) (b : W) :
    surfacePoint pu pv Uu Uv (fun i => A (P i) + b) su sv u v = A (surfacePoint pu pv Uu Uv P su sv u v) + b := by
  rw [surfacePoint_eq, surfacePoint_eq]
  rw [show (fun k => curvePoint pv Uv (fun m => A (P (m + sv * k)) + b) sv v) =
    fun k => A (curvePoint pv Uv (fun m => P (m + sv * k)) sv v) + b from
      funext fun k => C21_affine pv sv Uv hcv _ v hv1 hv2 A b]
  exact C21_affine pu su Uu hcu _ u hu1 hu2 A b

/-- **C62** the four corners of a clamped surface are the corner control points. -/
theorem C62_corners (pu pv : ℕ) (Uu Uv : ℕ → K) (P : ℕ → V) (su sv : ℕ) (hcu : Clamped pu su Uu)
    (hcv : Clamped pv sv Uv) :
    surfacePoint pu pv Uu Uv P su sv (Uu pu) (Uv pv) = P 0 ∧
    surfacePoint pu pv Uu Uv P su sv (Uu pu) (Uv sv) = P (sv - 1) ∧
    surfacePoint pu pv Uu Uv P su sv (Uu su) (Uv pv) = P (sv * (su - 1)) ∧
    surfacePoint pu pv Uu Uv P su sv (Uu su) (Uv sv) = P (sv - 1 + sv * (su - 1)) := by
  simp only [surfacePoint_eq, (C21_end_points pu su Uu hcu _).1, (C21_end_points pu su Uu hcu _).2,
    (C21_end_points pv sv Uv hcv _).1, (C21_end_points pv sv Uv hcv _).2]
  simp

/-- **C62** with equal non-zero weights the rational surface is the non-rational one. -/
theorem C62_equal_weights (pu pv : ℕ) (Uu Uv : ℕ → K) (P : ℕ → V) (su sv : ℕ)
    (hcu : Clamped pu su Uu) (hcv : Clamped pv sv Uv) (w : K) (hw : w ≠ 0) (u v : K) (hu1 : Uu pu ≤ u) (hu2 : u ≤ Uu su)
    (hv1 : Uv pv ≤ v) (hv2 : v ≤ Uv sv) :
    surfacePointRational pu pv Uu Uv (weighted P fun _ => w) su sv u v = surfacePoint pu pv Uu Uv P su sv u v := by
  have h := C62_affine pu pv Uu Uv P su sv hcu hcv u v hu1 hu2 hv1 hv2
    (LinearMap.prod (w • (LinearMap.id : V →ₗ[K] V)) (0 : V →ₗ[K] K)) ((0 : V), w)
  have e : (fun i => (LinearMap.prod (w • (LinearMap.id : V →ₗ[K] V)) (0 : V →ₗ[K] K)) (P i) + ((0 : V), w)) =
      weighted P fun _ => w := by
    funext i; ext <;> simp [weighted]
  rw [e] at h
  unfold surfacePointRational
  rw [h]
  simp [smul_smul, hw]
end
end Volmdlr
