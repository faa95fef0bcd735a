import Verif.Nurbs.Deriv
import Mathlib.Analysis.Calculus.Deriv.Prod

/-!
# C76: `derivatives` of curves and surfaces are the derivatives of `evaluate`
-/

open Finset

namespace Volmdlr
section
variable {V : Type*} [NormedAddCommGroup V] [NormedSpace ℝ V]

/-- Specification: `S` is a neighbourhood of the parameter `u` in the domain `[U p, U n]` that has no knot inside,
right-sided (`[u, b)`), left-sided at the end of the domain (`(a, U n]`), or two-sided (`(a, b)`).  Derivatives
within `S` are the right, the left and the ordinary derivatives. -/
def KnotFreeNhd (p n : ℕ) (U : ℕ → ℝ) (u : ℝ) (S : Set ℝ) : Prop :=
  (∃ b, u < b ∧ U p ≤ u ∧ b ≤ U n ∧ (∀ i, ¬ (u < U i ∧ U i < b)) ∧ S = Set.Ico u b) ∨
  (∃ a, a < u ∧ U p ≤ a ∧ u = U n ∧ (∀ i, ¬ (a < U i ∧ U i < u)) ∧ S = Set.Ioc a u) ∨
  (∃ a b, a < u ∧ u < b ∧ U p ≤ a ∧ b ≤ U n ∧ (∀ i, ¬ (a < U i ∧ U i < b)) ∧ S = Set.Ioo a b)

theorem KnotFreeNhd.mem {p n : ℕ} {U : ℕ → ℝ} {u : ℝ} {S : Set ℝ} (h : KnotFreeNhd p n U u S) : u ∈ S := by
  rcases h with ⟨b, h1, -, -, -, rfl⟩ | ⟨a, h1, -, -, -, rfl⟩ | ⟨a, b, h1, h2, -, -, -, rfl⟩
  · exact ⟨le_refl _, h1⟩
  · exact ⟨h1, le_refl _⟩
  · exact ⟨h1, h2⟩
theorem KnotFreeNhd.uniqueDiff {p n : ℕ} {U : ℕ → ℝ} {u : ℝ} {S : Set ℝ} (h : KnotFreeNhd p n U u S) :
    UniqueDiffOn ℝ S := by
  rcases h with ⟨b, h1, -, -, -, rfl⟩ | ⟨a, h1, -, -, -, rfl⟩ | ⟨a, b, h1, h2, -, -, -, rfl⟩
  · exact uniqueDiffOn_Ico _ _
  · exact uniqueDiffOn_Ioc _ _
  · exact uniqueDiffOn_Ioo _ _
theorem KnotFreeNhd.domain {p n : ℕ} {U : ℕ → ℝ} {u : ℝ} {S : Set ℝ} (h : KnotFreeNhd p n U u S) :
    ∀ t ∈ S, U p ≤ t ∧ t ≤ U n := by
  rcases h with ⟨b, h1, h2, h3, -, rfl⟩ | ⟨a, h1, h2, h3, -, rfl⟩ | ⟨a, b, h1, h2, h3, h4, -, rfl⟩
  · intro t ht; exact ⟨h2.trans ht.1, ht.2.le.trans h3⟩
  · intro t ht; exact ⟨h2.trans ht.1.le, ht.2.trans h3.le⟩
  · intro t ht; exact ⟨h3.trans ht.1.le, ht.2.le.trans h4⟩

/-- The whole of such a neighbourhood lies in one span, the one found for `u`. -/
theorem KnotFreeNhd.span {p n : ℕ} {U : ℕ → ℝ} {u : ℝ} {S : Set ℝ} (hc : Clamped p n U) (h : KnotFreeNhd p n U u S) :
    ∀ t ∈ S, findSpanLinear p U n t = findSpanLinear p U n u := by
  have key : ∀ x y : ℝ, U p ≤ x → x ≤ y → y < U n → (∀ i, ¬ (x < U i ∧ U i ≤ y)) →
      findSpanLinear p U n x = findSpanLinear p U n y := by
    intro x y h1 h2 h3 h4
    obtain ⟨-, -, hx, -⟩ := C19_linear p n U x hc.pn
    obtain ⟨-, -, hy, -⟩ := C19_linear p n U y hc.pn
    obtain ⟨a1, a2⟩ := hx h1 (h2.trans_lt h3)
    obtain ⟨b1, b2⟩ := hy (h1.trans h2) h3
    refine span_unique U hc.mono y _ _ ⟨a1.trans h2, ?_⟩ ⟨b1, b2⟩
    by_contra hh
    exact h4 _ ⟨a2, not_lt.1 hh⟩
  rcases h with ⟨b, h1, h2, h3, h4, rfl⟩ | ⟨a, h1, h2, h3, h4, rfl⟩ | ⟨a, b, h1, h2, h3, h4, h5, rfl⟩
  · intro t ht
    exact (key u t h2 ht.1 (ht.2.trans_le h3) fun i hi => h4 i ⟨hi.1, hi.2.trans_lt ht.2⟩).symm
  · intro t ht
    rcases ht.2.lt_or_eq with hlt | rfl
    · obtain ⟨s1, s2, hx, -⟩ := C19_linear p n U t hc.pn
      obtain ⟨a1, a2⟩ := hx (h2.trans ht.1.le) (hlt.trans_le h3.le)
      obtain ⟨-, -, -, hy, -⟩ := C19_linear p n U u hc.pn
      rw [hy hc.mono h3.ge]
      have hle : U (n - 1) ≤ a := by
        by_contra hh
        exact h4 (n - 1) ⟨not_le.1 hh, by rw [h3]; exact hc.last⟩
      have e : n - 1 + 1 = n := by have := hc.pn; omega
      exact span_unique U hc.mono t _ _ ⟨a1, a2⟩ ⟨hle.trans ht.1.le, by rw [e, ← h3]; exact hlt⟩
    · rfl
  · intro t ht
    rcases le_total t u with hle | hle
    · exact key t u (h3.trans ht.1.le) hle (h2.trans_le h4) fun i hi => h5 i ⟨ht.1.trans hi.1, hi.2.trans_lt h2⟩
    · exact (key u t (h3.trans h1.le) hle (ht.2.trans_le h4) fun i hi => h5 i ⟨h1.trans hi.1, hi.2.trans_lt ht.2⟩).symm

/-- The polynomial piece of a curve on the span `κ`. -/
noncomputable def curvePiece (p : ℕ) (U : ℕ → ℝ) (κ : ℕ) (P : ℕ → V) (n : ℕ) (t : ℝ) : V :=
  ∑ i ∈ range n, bsp U κ t p i • P i

theorem curvePiece_contDiff (p : ℕ) (U : ℕ → ℝ) (κ : ℕ) (P : ℕ → V) (n : ℕ) (m : WithTop ℕ∞) :
    ContDiff ℝ m (curvePiece p U κ P n) := by
  unfold curvePiece
  exact ContDiff.sum fun i _ => (bsp_contDiff U κ p i m).smul contDiff_const

theorem iteratedDeriv_smul_const' (f : ℝ → ℝ) (hf : ∀ m : WithTop ℕ∞, ContDiff ℝ m f) (k : ℕ) (v : V) (t : ℝ) :
    iteratedDeriv k (fun y => f y • v) t = iteratedDeriv k f t • v := by
  have := iteratedDerivWithin_smul_const (Set.mem_univ t) uniqueDiffOn_univ ((hf k).contDiffAt.contDiffWithinAt (x := t) (s := Set.univ)) v
  simpa using this

theorem curvePiece_iteratedDeriv (p : ℕ) (U : ℕ → ℝ) (κ : ℕ) (P : ℕ → V) (n : ℕ) (k : ℕ) (t : ℝ) :
    iteratedDeriv k (curvePiece p U κ P n) t = ∑ i ∈ range n, iteratedDeriv k (fun t => bsp U κ t p i) t • P i := by
  unfold curvePiece
  have h := iteratedDeriv_fun_sum (n := k) (x := t) (I := range n) (f := fun i t => bsp U κ t p i • P i)
    fun i _ => ((bsp_contDiff U κ p i k).smul contDiff_const).contDiffAt
  rw [h]
  exact sum_congr rfl fun i _ => iteratedDeriv_smul_const' _ (bsp_contDiff U κ p i) k (P i) t

/-- The code sums over the `p + 1` functions of the span: the other ones have zero derivatives. -/
theorem iteratedDeriv_support (p : ℕ) (U : ℕ → ℝ) (κ : ℕ) (hp : p ≤ κ) (n : ℕ) (hn : κ < n) (P : ℕ → V) (k : ℕ) (t : ℝ) :
    ∑ r ∈ range (p + 1), iteratedDeriv k (fun t => bsp U κ t p (κ - p + r)) t • P (κ - p + r) =
      ∑ i ∈ range n, iteratedDeriv k (fun t => bsp U κ t p i) t • P i := by
  have hz : ∀ i, (κ < i ∨ i + p < κ) → iteratedDeriv k (fun t => bsp U κ t p i) t = 0 := by
    intro i hi
    have : (fun t => bsp U κ t p i) = fun _ => (0 : ℝ) := by
      funext t
      rcases hi with h | h
      · exact bsp_zero_of_lt _ _ _ _ _ h
      · exact bsp_zero_of_gt _ _ _ _ _ h
    rw [this]; exact iteratedDeriv_fun_const_zero
  have h1 : ∑ i ∈ range n, iteratedDeriv k (fun t => bsp U κ t p i) t • P i =
      ∑ i ∈ Ico (κ - p) (κ + 1), iteratedDeriv k (fun t => bsp U κ t p i) t • P i := by
    symm
    apply sum_subset
    · intro i hi; simp only [mem_Ico, mem_range] at *; omega
    · intro i _ hi
      simp only [mem_Ico] at hi
      rw [hz i (by omega), zero_smul]
  rw [h1, sum_Ico_eq_sum_range, show κ + 1 - (κ - p) = p + 1 by omega]

/-- **C76** `basis_function_ders`: entry `[k][r]` is the `k`-th derivative of the `r`-th basis function of the span. -/
theorem C76_basis_ders (p : ℕ) (U : ℕ → ℝ) (hU : Monotone U) (span : ℕ) (hp : p ≤ span) (a u b : ℝ)
    (h1 : U span ≤ a) (h2 : a < u) (h3 : u < b) (h4 : b ≤ U (span + 1)) (order : ℕ) (ho : order ≤ p) (k r : ℕ)
    (hk : k ≤ order) (hr : r ≤ p) :
    basisFunctionDers p U span u order k r = iteratedDeriv k (fun t => coxDeBoor U t p (span - p + r)) u := by
  rw [basisFunctionDers_eq U span u p order hp ho k r hk hr]
  have hv : U span < U (span + 1) := by linarith
  have he : (fun t => coxDeBoor U t p (span - p + r)) =ᶠ[nhds u] (fun t => bsp U span t p (span - p + r)) := by
    filter_upwards [Ioo_mem_nhds h2 h3] with t ht
    exact bsp_eq_coxDeBoor U hU span t (h1.trans ht.1.le) (ht.2.trans_le h4) _ _
  rw [he.iteratedDeriv_eq, bsp_iteratedDeriv U hU span hv]
  dsimp only
  rw [if_pos (hk.trans ho)]

theorem derivativesCurve_eq (p n : ℕ) (U : ℕ → ℝ) (hU : Monotone U) (hpn : p < n) (P : ℕ → V) (u : ℝ)
    (hv : U (findSpanLinear p U n u) < U (findSpanLinear p U n u + 1)) (order k : ℕ) (hk : k ≤ order) :
    derivativesCurve p U P n u order k = iteratedDeriv k (curvePiece p U (findSpanLinear p U n u) P n) u := by
  obtain ⟨hs1, hs2, -⟩ := C19_linear p n U u hpn
  rw [curvePiece_iteratedDeriv, ← iteratedDeriv_support p U _ hs1 n hs2]
  unfold derivativesCurve
  dsimp only
  by_cases hkp : k ≤ p
  · rw [if_pos (by omega), foldl_range_sum, zero_add]
    apply sum_congr rfl
    intro r hr
    rw [basisFunctionDers_eq U _ u p (min p order) hs1 (min_le_left _ _) k r (by omega) (by have := mem_range.1 hr; omega),
      bsp_iteratedDeriv U hU _ hv]
    dsimp only
    rw [if_pos hkp]
  · rw [if_neg (by omega)]
    symm
    apply sum_eq_zero
    intro r _
    rw [bsp_iteratedDeriv U hU _ hv]
    dsimp only
    rw [if_neg hkp, zero_smul]

theorem curve_eqOn (p n : ℕ) (U : ℕ → ℝ) (hc : Clamped p n U) (P : ℕ → V) (u : ℝ) (S : Set ℝ) (hS : KnotFreeNhd p n U u S) :
    Set.EqOn (curvePoint p U P n) (curvePiece p U (findSpanLinear p U n u) P n) S := by
  intro t ht
  rw [curvePoint_eq p U P n t hc.pn, hS.span hc t ht]; rfl

/-- **C76** `derivatives(u, order)[k]` of a curve is its `k`-th derivative in the parameter, for every clamped
knot vector, every order (also above the degree, where it is zero), every parameter of the domain; at a knot it
is the derivative from the right, at the end of the domain the one from the left. -/
theorem C76_curve (p n : ℕ) (U : ℕ → ℝ) (hc : Clamped p n U) (P : ℕ → V) (u : ℝ) (S : Set ℝ)
    (hS : KnotFreeNhd p n U u S) (order k : ℕ) (hk : k ≤ order) :
    derivativesCurve p U P n u order k = iteratedDerivWithin k (curvePoint p U P n) S u := by
  have hd := hS.domain u hS.mem
  obtain ⟨-, -, hv⟩ := span_valid p n U hc u hd.1 hd.2
  rw [derivativesCurve_eq p n U hc.mono hc.pn P u hv order k hk,
    iteratedDerivWithin_congr (curve_eqOn p n U hc P u S hS) hS.mem,
    iteratedDerivWithin_eq_iteratedDeriv hS.uniqueDiff (curvePiece_contDiff _ _ _ _ _ _).contDiffAt hS.mem]

/-- **C76** at a parameter that is not a knot these are the ordinary derivatives. -/
theorem C76_curve_interior (p n : ℕ) (U : ℕ → ℝ) (hc : Clamped p n U) (P : ℕ → V) (u : ℝ) (h1 : U p < u) (h2 : u < U n)
    (hne : ∀ i, U i ≠ u) (order k : ℕ) (hk : k ≤ order) :
    derivativesCurve p U P n u order k = iteratedDeriv k (curvePoint p U P n) u := by
  obtain ⟨hs1, hs2, hx, -⟩ := C19_linear p n U u hc.pn
  obtain ⟨a1, a2⟩ := hx h1.le h2
  have hS : KnotFreeNhd p n U u (Set.Ioo (U (findSpanLinear p U n u)) (U (findSpanLinear p U n u + 1))) := by
    refine Or.inr (Or.inr ⟨_, _, lt_of_le_of_ne a1 (hne _), a2, hc.mono hs1, hc.mono (by omega), ?_, rfl⟩)
    rintro i ⟨b1, b2⟩
    rcases Nat.lt_or_ge (findSpanLinear p U n u) i with h | h
    · exact absurd (hc.mono (show findSpanLinear p U n u + 1 ≤ i from h)) (not_le.2 b2)
    · exact absurd (hc.mono h) (not_le.2 b1)
  rw [C76_curve p n U hc P u _ hS order k hk, iteratedDerivWithin_of_isOpen isOpen_Ioo hS.mem]


/-! ### Rational curves -/

theorem binomial_real (k i : ℕ) : (binomialCoefficient k i : ℝ) = (k.choose i : ℝ) := C27_binomial k i

omit [NormedSpace ℝ V] in
theorem foldl_range_sub (f : ℕ → V) (n : ℕ) (x : V) :
    (List.range n).foldl (fun c i => c - f i) x = x - ∑ i ∈ range n, f i := by
  induction n with
  | zero => simp
  | succ n ih => rw [List.range_succ, List.foldl_append, ih, sum_range_succ]; simp [sub_sub]

theorem rationalDerivs_spec (CKw : ℕ → V × ℝ) (D : ℕ → V) (order : ℕ) (hw : (CKw 0).2 ≠ 0)
    (hL : ∀ k ≤ order, (CKw k).1 = ∑ i ∈ range (k + 1), ((k.choose i : ℝ) * (CKw i).2) • D (k - i)) (m : ℕ)
    (hm : m ≤ order + 1) : rationalDerivs CKw m = (List.range m).map D := by
  induction m with
  | zero => rfl
  | succ k ih =>
    rw [rationalDerivs, List.range_succ, List.map_append, ih (by omega)]
    congr 1
    rw [List.map_singleton, foldl_range_sub, hL k (by omega), sum_range_succ']
    have : ∑ x ∈ range k, (binomialCoefficient k (x + 1) * (CKw (x + 1)).2) • ((List.range k).map D).getD (k - (x + 1)) 0 =
        ∑ x ∈ range k, ((k.choose (x + 1) : ℝ) * (CKw (x + 1)).2) • D (k - (x + 1)) := by
      apply sum_congr rfl
      intro x hx
      have hx := mem_range.1 hx
      rw [binomial_real]
      congr 1
      rw [List.getD_eq_getElem _ _ (by rw [List.length_map, List.length_range]; omega)]
      simp
    rw [this, add_sub_cancel_left, smul_smul]
    simp only [Nat.choose_zero_right, Nat.cast_one, one_mul, Nat.sub_zero]
    rw [one_div, inv_mul_cancel₀ hw, one_smul]

theorem iteratedDeriv_fst_snd (f : ℝ → V × ℝ) (hf : ∀ m : WithTop ℕ∞, ContDiff ℝ m f) (k : ℕ) (t : ℝ) :
    iteratedDeriv k f t = (iteratedDeriv k (fun t => (f t).1) t, iteratedDeriv k (fun t => (f t).2) t) := by
  induction k generalizing t with
  | zero => simp
  | succ k ih =>
    have h1 : ContDiff ℝ (k + 1 : ℕ) (fun t => (f t).1) := (hf _).fst
    have h2 : ContDiff ℝ (k + 1 : ℕ) (fun t => (f t).2) := (hf _).snd
    have d1 := (h1.differentiable_iteratedDeriv k (by exact_mod_cast Nat.lt_succ_self k)) t
    have d2 := (h2.differentiable_iteratedDeriv k (by exact_mod_cast Nat.lt_succ_self k)) t
    rw [iteratedDeriv_succ, iteratedDeriv_succ, iteratedDeriv_succ, show iteratedDeriv k f = _ from funext ih]
    exact (HasDerivAt.prodMk d1.hasDerivAt d2.hasDerivAt).deriv

/-- The weight of a point of a rational curve with positive weights is positive. -/
theorem weight_pos (p n : ℕ) (U : ℕ → ℝ) (hc : Clamped p n U) (Pw : ℕ → V × ℝ) (hw : ∀ i < n, 0 < (Pw i).2) (u : ℝ)
    (h1 : U p ≤ u) (h2 : u ≤ U n) : 0 < (curvePoint p U Pw n u).2 := by
  obtain ⟨c, hc0, hc1, hcs⟩ := C21_convex_hull p n U hc Pw u h1 h2
  rw [hcs, Prod.snd_sum]
  have hex : ∃ i ∈ range n, 0 < c i := by
    by_contra hcon
    push Not at hcon
    have : ∑ i ∈ range n, c i ≤ 0 := sum_nonpos hcon
    linarith
  apply sum_pos'
  · intro i hi; exact mul_nonneg (hc0 i) (hw i (mem_range.1 hi)).le
  · obtain ⟨i, hi, hpi⟩ := hex
    exact ⟨i, hi, mul_pos hpi (hw i (mem_range.1 hi))⟩

/-- **C76** `derivatives(u, order)` of a rational curve with positive weights: the list of its derivatives of
order `0, …, order`. -/
theorem C76_curve_rational (p n : ℕ) (U : ℕ → ℝ) (hc : Clamped p n U) (P : ℕ → V) (w : ℕ → ℝ) (hw : ∀ i < n, 0 < w i)
    (u : ℝ) (S : Set ℝ) (hS : KnotFreeNhd p n U u S) (order : ℕ) :
    derivativesCurveRational p U (weighted P w) n u order =
      (List.range (order + 1)).map fun k => iteratedDerivWithin k (curvePointRational p U (weighted P w) n) S u := by
  have hd := hS.domain u hS.mem
  obtain ⟨-, -, hv⟩ := span_valid p n U hc u hd.1 hd.2
  set Pw := weighted P w with hPw
  have hpos : ∀ t ∈ S, (curvePoint p U Pw n t).2 ≠ 0 := fun t ht =>
    (weight_pos p n U hc Pw (fun i hi => hw i hi) t (hS.domain t ht).1 (hS.domain t ht).2).ne'
  have heq := curve_eqOn p n U hc Pw u S hS
  set κ := findSpanLinear p U n u
  set F := curvePiece p U κ Pw n with hF
  have hFs : ∀ m : WithTop ℕ∞, ContDiff ℝ m F := curvePiece_contDiff p U κ Pw n
  have hA : ∀ m : WithTop ℕ∞, ContDiff ℝ m (fun t => (F t).1) := fun m => (hFs m).fst
  have hW : ∀ m : WithTop ℕ∞, ContDiff ℝ m (fun t => (F t).2) := fun m => (hFs m).snd
  have hWne : ∀ t ∈ S, (F t).2 ≠ 0 := fun t ht => by rw [← heq ht]; exact hpos t ht
  set C := curvePointRational p U Pw n with hCdef
  have hC : Set.EqOn C (fun t => (F t).2⁻¹ • (F t).1) S := by
    intro t ht
    show (curvePoint p U Pw n t).2⁻¹ • (curvePoint p U Pw n t).1 = _
    rw [heq ht]
  have hCs : ∀ m : WithTop ℕ∞, ContDiffOn ℝ m C S := fun m =>
    (((hW m).contDiffOn.inv hWne).smul (hA m).contDiffOn).congr hC
  refine rationalDerivs_spec _ (fun k => iteratedDerivWithin k C S u) order ?_ ?_ (order + 1) (le_refl _)
  · rw [derivativesCurve_eq p n U hc.mono hc.pn Pw u hv order 0 (by omega), iteratedDeriv_zero]
    exact hWne u hS.mem
  · intro k hk
    rw [derivativesCurve_eq p n U hc.mono hc.pn Pw u hv order k hk, iteratedDeriv_fst_snd F hFs]
    dsimp only
    have h1 : Set.EqOn (fun t => (F t).1) ((fun t => (F t).2) • C) S := by
      intro t ht
      show (F t).1 = (F t).2 • C t
      rw [hC ht]
      dsimp only
      rw [smul_smul, mul_inv_cancel₀ (hWne t ht), one_smul]
    rw [← iteratedDerivWithin_eq_iteratedDeriv hS.uniqueDiff (hA k).contDiffAt hS.mem,
      iteratedDerivWithin_congr h1 hS.mem,
      iteratedDerivWithin_smul hS.mem hS.uniqueDiff (hW k).contDiffAt.contDiffWithinAt ((hCs k) u hS.mem)]
    apply sum_congr rfl
    intro i hi
    have hi := mem_range.1 hi
    rw [derivativesCurve_eq p n U hc.mono hc.pn Pw u hv order i (by omega), iteratedDeriv_fst_snd F hFs,
      iteratedDerivWithin_eq_iteratedDeriv hS.uniqueDiff (hW i).contDiffAt hS.mem, mul_smul, Nat.cast_smul_eq_nsmul ℝ]


/-! ### Surfaces -/

/-- The derivatives in `v` of the rows of the control net. -/
noncomputable def rowDeriv (pv : ℕ) (Uv : ℕ → ℝ) (κ : ℕ) (P : ℕ → V) (sv : ℕ) (v : ℝ) (l i : ℕ) : V :=
  iteratedDeriv l (curvePiece pv Uv κ (fun m => P (m + sv * i)) sv) v

theorem derivativesSurface_eq (pu pv : ℕ) (Uu Uv : ℕ → ℝ) (hUu : Monotone Uu) (hUv : Monotone Uv) (P : ℕ → V) (su sv : ℕ)
    (hpu : pu < su) (hpv : pv < sv) (u v : ℝ)
    (hvu : Uu (findSpanLinear pu Uu su u) < Uu (findSpanLinear pu Uu su u + 1))
    (hvv : Uv (findSpanLinear pv Uv sv v) < Uv (findSpanLinear pv Uv sv v + 1)) (order k l : ℕ) (hk : k ≤ order) (hl : l ≤ order) :
    derivativesSurface pu pv Uu Uv P su sv u v order k l =
      iteratedDeriv k (curvePiece pu Uu (findSpanLinear pu Uu su u)
        (rowDeriv pv Uv (findSpanLinear pv Uv sv v) P sv v l) su) u := by
  obtain ⟨hs1, hs2, -⟩ := C19_linear pu su Uu u hpu
  obtain ⟨ht1, ht2, -⟩ := C19_linear pv sv Uv v hpv
  rw [curvePiece_iteratedDeriv, ← iteratedDeriv_support pu Uu _ hs1 su hs2]
  unfold derivativesSurface rowDeriv
  dsimp only
  simp only [curvePiece_iteratedDeriv, ← iteratedDeriv_support pv Uv _ ht1 sv ht2]
  by_cases hkl : k ≤ pu ∧ l ≤ pv
  · rw [if_pos (by omega)]
    simp only [foldl_range_sum, zero_add, smul_sum]
    rw [sum_comm]
    apply sum_congr rfl
    intro r hr
    have hr := mem_range.1 hr
    apply sum_congr rfl
    intro s hs
    have hs := mem_range.1 hs
    rw [basisFunctionDers_eq Uu _ u pu (min pu order) hs1 (min_le_left _ _) k r (by omega) (by omega),
      basisFunctionDers_eq Uv _ v pv (min pv order) ht1 (min_le_left _ _) l s (by omega) (by omega),
      bsp_iteratedDeriv Uu hUu _ hvu, bsp_iteratedDeriv Uv hUv _ hvv]
    dsimp only
    rw [if_pos hkl.1, if_pos hkl.2, smul_comm]
  · rw [if_neg (by omega)]
    symm
    apply sum_eq_zero
    intro r _
    rcases not_and_or.1 hkl with h | h
    · rw [bsp_iteratedDeriv Uu hUu _ hvu]
      dsimp only
      rw [if_neg h, zero_smul]
    · rw [sum_eq_zero, smul_zero]
      intro s _
      rw [bsp_iteratedDeriv Uv hUv _ hvv]
      dsimp only
      rw [if_neg h, zero_smul]

/-- The polynomial piece of a surface. -/
noncomputable def surfacePiece (pu pv : ℕ) (Uu Uv : ℕ → ℝ) (κu κv : ℕ) (P : ℕ → V) (su sv : ℕ) (s t : ℝ) : V :=
  curvePiece pu Uu κu (fun i => curvePiece pv Uv κv (fun m => P (m + sv * i)) sv t) su s

theorem surfacePiece_contDiff (pu pv : ℕ) (Uu Uv : ℕ → ℝ) (κu κv : ℕ) (P : ℕ → V) (su sv : ℕ) (s : ℝ) (m : WithTop ℕ∞) :
    ContDiff ℝ m (surfacePiece pu pv Uu Uv κu κv P su sv s) := by
  unfold surfacePiece
  rw [show (fun t => curvePiece pu Uu κu (fun i => curvePiece pv Uv κv (fun m => P (m + sv * i)) sv t) su s) =
    fun t => ∑ i ∈ range su, bsp Uu κu s pu i • curvePiece pv Uv κv (fun m => P (m + sv * i)) sv t from rfl]
  exact ContDiff.sum fun i _ => contDiff_const.smul (curvePiece_contDiff _ _ _ _ _ _)

theorem surfacePiece_iteratedDeriv (pu pv : ℕ) (Uu Uv : ℕ → ℝ) (κu κv : ℕ) (P : ℕ → V) (su sv : ℕ) (s v : ℝ) (l : ℕ) :
    iteratedDeriv l (surfacePiece pu pv Uu Uv κu κv P su sv s) v = curvePiece pu Uu κu (rowDeriv pv Uv κv P sv v l) su s := by
  have h := iteratedDeriv_fun_sum (n := l) (x := v) (I := range su)
    (f := fun i t => bsp Uu κu s pu i • curvePiece pv Uv κv (fun m => P (m + sv * i)) sv t)
    fun i _ => (contDiff_const.smul (curvePiece_contDiff _ _ _ _ _ _)).contDiffAt
  rw [show surfacePiece pu pv Uu Uv κu κv P su sv s =
    fun t => ∑ i ∈ range su, bsp Uu κu s pu i • curvePiece pv Uv κv (fun m => P (m + sv * i)) sv t from rfl, h]
  unfold curvePiece rowDeriv
  apply sum_congr rfl
  intro i _
  exact iteratedDeriv_fun_const_smul_field _ _

theorem surface_eqOn (pu pv : ℕ) (Uu Uv : ℕ → ℝ) (su sv : ℕ) (hcu : Clamped pu su Uu) (hcv : Clamped pv sv Uv) (P : ℕ → V)
    (u v : ℝ) (Su Sv : Set ℝ) (hSu : KnotFreeNhd pu su Uu u Su) (hSv : KnotFreeNhd pv sv Uv v Sv) (s : ℝ) (hs : s ∈ Su) :
    Set.EqOn (surfacePoint pu pv Uu Uv P su sv s)
      (surfacePiece pu pv Uu Uv (findSpanLinear pu Uu su u) (findSpanLinear pv Uv sv v) P su sv s) Sv := by
  intro t ht
  rw [surfacePoint_eq, curve_eqOn pu su Uu hcu _ u Su hSu hs]
  unfold surfacePiece
  congr 1
  funext i
  exact curve_eqOn pv sv Uv hcv _ v Sv hSv ht

/-- **C76** `derivatives(u, v, order)[k][l]` of a surface is its partial derivative, `k` times in `u` and `l` times
in `v`. -/
theorem C76_surface (pu pv : ℕ) (Uu Uv : ℕ → ℝ) (su sv : ℕ) (hcu : Clamped pu su Uu) (hcv : Clamped pv sv Uv) (P : ℕ → V)
    (u v : ℝ) (Su Sv : Set ℝ) (hSu : KnotFreeNhd pu su Uu u Su) (hSv : KnotFreeNhd pv sv Uv v Sv) (order k l : ℕ)
    (hk : k ≤ order) (hl : l ≤ order) :
    derivativesSurface pu pv Uu Uv P su sv u v order k l =
      iteratedDerivWithin k (fun s => iteratedDerivWithin l (fun t => surfacePoint pu pv Uu Uv P su sv s t) Sv v) Su u := by
  have hdu := hSu.domain u hSu.mem
  have hdv := hSv.domain v hSv.mem
  obtain ⟨-, -, hvu⟩ := span_valid pu su Uu hcu u hdu.1 hdu.2
  obtain ⟨-, -, hvv⟩ := span_valid pv sv Uv hcv v hdv.1 hdv.2
  rw [derivativesSurface_eq pu pv Uu Uv hcu.mono hcv.mono P su sv hcu.pn hcv.pn u v hvu hvv order k l hk hl]
  have h1 : Set.EqOn (fun s => iteratedDerivWithin l (fun t => surfacePoint pu pv Uu Uv P su sv s t) Sv v)
      (curvePiece pu Uu (findSpanLinear pu Uu su u) (rowDeriv pv Uv (findSpanLinear pv Uv sv v) P sv v l) su) Su := by
    intro s hs
    dsimp only
    rw [iteratedDerivWithin_congr (surface_eqOn pu pv Uu Uv su sv hcu hcv P u v Su Sv hSu hSv s hs) hSv.mem,
      iteratedDerivWithin_eq_iteratedDeriv hSv.uniqueDiff (surfacePiece_contDiff _ _ _ _ _ _ _ _ _ _ _).contDiffAt hSv.mem,
      surfacePiece_iteratedDeriv]
  rw [iteratedDerivWithin_congr h1 hSu.mem,
    iteratedDerivWithin_eq_iteratedDeriv hSu.uniqueDiff (curvePiece_contDiff _ _ _ _ _ _).contDiffAt hSu.mem]

/-! ### Rational surfaces -/

theorem rationalSurfaceStep_spec (W : ℕ → ℕ → V × ℝ) (SKL D : ℕ → ℕ → V) (k l : ℕ) (hw : (W 0 0).2 ≠ 0)
    (hL : (W k l).1 = ∑ j ∈ range (l + 1), ∑ i ∈ range (k + 1),
      ((l.choose j : ℝ) * ((k.choose i : ℝ) * (W i j).2)) • D (k - i) (l - j))
    (h1 : ∀ k' l', k' < k → l' ≤ l → SKL k' l' = D k' l') (h2 : ∀ l' < l, SKL k l' = D k l') :
    rationalSurfaceStep W SKL k l = D k l := by
  unfold rationalSurfaceStep
  dsimp only
  have e0 : (List.range k).foldl (fun v i =>
      v - (binomialCoefficient k (i + 1) * (W (i + 1) 0).2 : ℝ) • SKL (k - (i + 1)) l -
      (binomialCoefficient k (i + 1) : ℝ) • (List.range l).foldl
      (fun s j => s + (binomialCoefficient l (j + 1) * (W (i + 1) (j + 1)).2 : ℝ) • SKL (k - (i + 1)) (l - (j + 1))) 0)
      ((List.range l).foldl (fun v j => v - (binomialCoefficient l (j + 1) * (W 0 (j + 1)).2 : ℝ) • SKL k (l - (j + 1))) (W k l).1) =
      (W k l).1 - ∑ j ∈ range l, ((l.choose (j + 1) : ℝ) * (W 0 (j + 1)).2) • D k (l - (j + 1)) -
      ∑ i ∈ range k, (((k.choose (i + 1) : ℝ) * (W (i + 1) 0).2) • D (k - (i + 1)) l +
        ∑ j ∈ range l, ((l.choose (j + 1) : ℝ) * ((k.choose (i + 1) : ℝ) * (W (i + 1) (j + 1)).2)) • D (k - (i + 1)) (l - (j + 1))) := by
    simp only [sub_sub]
    rw [foldl_range_sub, foldl_range_sub]
    rw [sub_sub]
    congr 2
    · apply sum_congr rfl
      intro j hj
      have hj := mem_range.1 hj
      rw [binomial_real, h2 _ (by omega)]
    · apply sum_congr rfl
      intro i hi
      have hi := mem_range.1 hi
      rw [foldl_range_sum, zero_add, binomial_real, h1 _ _ (by omega) (le_refl _), smul_sum]
      congr 1
      apply sum_congr rfl
      intro j hj
      rw [h1 _ _ (by omega) (by omega), binomial_real, smul_smul]
      congr 1; ring
  rw [e0, hL, sum_range_succ']
  have e1 : ∑ i ∈ range (k + 1), ((l.choose 0 : ℝ) * ((k.choose i : ℝ) * (W i 0).2)) • D (k - i) (l - 0) =
      ∑ i ∈ range k, ((k.choose (i + 1) : ℝ) * (W (i + 1) 0).2) • D (k - (i + 1)) l + (W 0 0).2 • D k l := by
    rw [sum_range_succ']; simp
  have e2 : ∑ j ∈ range l, ∑ i ∈ range (k + 1), ((l.choose (j + 1) : ℝ) * ((k.choose i : ℝ) * (W i (j + 1)).2)) • D (k - i) (l - (j + 1)) =
      ∑ i ∈ range k, ∑ j ∈ range l, ((l.choose (j + 1) : ℝ) * ((k.choose (i + 1) : ℝ) * (W (i + 1) (j + 1)).2)) • D (k - (i + 1)) (l - (j + 1)) +
      ∑ j ∈ range l, ((l.choose (j + 1) : ℝ) * (W 0 (j + 1)).2) • D k (l - (j + 1)) := by
    rw [sum_comm, sum_range_succ']
    simp
  rw [e1, e2, sum_add_distrib]
  rw [show ∀ a b c d : V, a + b + (c + d) - b - (c + a) = d by intro a b c d; abel]
  rw [smul_smul, inv_mul_cancel₀ hw, one_smul]

theorem rationalSurfaceRow_spec (W : ℕ → ℕ → V × ℝ) (SKL D : ℕ → ℕ → V) (order k : ℕ) (hw : (W 0 0).2 ≠ 0) (hk : k ≤ order)
    (hL : ∀ k ≤ order, ∀ l ≤ order, (W k l).1 = ∑ j ∈ range (l + 1), ∑ i ∈ range (k + 1),
      ((l.choose j : ℝ) * ((k.choose i : ℝ) * (W i j).2)) • D (k - i) (l - j))
    (h1 : ∀ k' l', k' < k → l' ≤ order → SKL k' l' = D k' l') (l : ℕ) (hl : l ≤ order + 1) :
    (∀ k' l', k' < k → l' ≤ order → rationalSurfaceRow W SKL k l k' l' = D k' l') ∧
    (∀ l' < l, rationalSurfaceRow W SKL k l k l' = D k l') := by
  induction l with
  | zero => exact ⟨h1, fun l' h => by omega⟩
  | succ l ih =>
    obtain ⟨i1, i2⟩ := ih (by omega)
    have hs := rationalSurfaceStep_spec W (rationalSurfaceRow W SKL k l) D k l hw (hL k hk l (by omega))
      (fun k' l' a b => i1 k' l' a (by omega)) i2
    constructor
    · intro k' l' a b
      simp only [rationalSurfaceRow]
      rw [if_neg (by omega)]; exact i1 k' l' a b
    · intro l' a
      simp only [rationalSurfaceRow]
      by_cases hll : l' = l
      · subst hll; rw [if_pos ⟨trivial, rfl⟩, hs]
      · rw [if_neg (by omega)]; exact i2 l' (by omega)

theorem rationalSurfaceLoop_spec (W : ℕ → ℕ → V × ℝ) (D : ℕ → ℕ → V) (order : ℕ) (hw : (W 0 0).2 ≠ 0)
    (hL : ∀ k ≤ order, ∀ l ≤ order, (W k l).1 = ∑ j ∈ range (l + 1), ∑ i ∈ range (k + 1),
      ((l.choose j : ℝ) * ((k.choose i : ℝ) * (W i j).2)) • D (k - i) (l - j)) (m : ℕ) (hm : m ≤ order + 1) :
    ∀ k' l', k' < m → l' ≤ order → rationalSurfaceLoop W order m k' l' = D k' l' := by
  induction m with
  | zero => intro k' l' h; omega
  | succ k ih =>
    have h := rationalSurfaceRow_spec W (rationalSurfaceLoop W order k) D order k hw (by omega) hL (ih (by omega)) (order + 1) (le_refl _)
    intro k' l' a b
    simp only [rationalSurfaceLoop]
    by_cases hkk : k' = k
    · subst hkk; exact h.2 l' (by omega)
    · exact h.1 k' l' (by omega) b

/-- **C76** `derivatives(u, v, order)[k][l]` of a rational surface with positive weights is its partial derivative. -/
theorem C76_surface_rational (pu pv : ℕ) (Uu Uv : ℕ → ℝ) (su sv : ℕ) (hcu : Clamped pu su Uu) (hcv : Clamped pv sv Uv)
    (P : ℕ → V) (w : ℕ → ℝ) (hw : ∀ i < su * sv, 0 < w i) (u v : ℝ) (Su Sv : Set ℝ) (hSu : KnotFreeNhd pu su Uu u Su)
    (hSv : KnotFreeNhd pv sv Uv v Sv) (order k l : ℕ) (hk : k ≤ order) (hl : l ≤ order) :
    derivativesSurfaceRational pu pv Uu Uv (weighted P w) su sv u v order k l =
      iteratedDerivWithin k (fun s => iteratedDerivWithin l
        (fun t => surfacePointRational pu pv Uu Uv (weighted P w) su sv s t) Sv v) Su u := by
  have hdu := hSu.domain u hSu.mem
  have hdv := hSv.domain v hSv.mem
  obtain ⟨-, -, hvu⟩ := span_valid pu su Uu hcu u hdu.1 hdu.2
  obtain ⟨-, -, hvv⟩ := span_valid pv sv Uv hcv v hdv.1 hdv.2
  set Pw := weighted P w with hPw
  have hpos : ∀ s ∈ Su, ∀ t ∈ Sv, (surfacePoint pu pv Uu Uv Pw su sv s t).2 ≠ 0 := by
    intro s hs t ht
    rw [surfacePoint_eq]
    refine (weight_pos pu su Uu hcu _ (fun i hi => ?_) s (hSu.domain s hs).1 (hSu.domain s hs).2).ne'
    refine weight_pos pv sv Uv hcv _ (fun j hj => ?_) t (hSv.domain t ht).1 (hSv.domain t ht).2
    refine hw (j + sv * i) ?_
    calc j + sv * i < sv + sv * i := by omega
      _ = sv * (i + 1) := by ring
      _ ≤ sv * su := Nat.mul_le_mul_left _ hi
      _ = su * sv := Nat.mul_comm _ _
  have heq := surface_eqOn pu pv Uu Uv su sv hcu hcv Pw u v Su Sv hSu hSv
  have hWeq := fun i j (hi : i ≤ order) (hj : j ≤ order) =>
    derivativesSurface_eq pu pv Uu Uv hcu.mono hcv.mono Pw su sv hcu.pn hcv.pn u v hvu hvv order i j hi hj
  set κu := findSpanLinear pu Uu su u
  set κv := findSpanLinear pv Uv sv v
  set F := surfacePiece pu pv Uu Uv κu κv Pw su sv with hF
  have hFs : ∀ s, ∀ m : WithTop ℕ∞, ContDiff ℝ m (F s) := fun s m => surfacePiece_contDiff pu pv Uu Uv κu κv Pw su sv s m
  set G := fun l s => curvePiece pu Uu κu (rowDeriv pv Uv κv Pw sv v l) su s with hG
  have hGF : ∀ l s, iteratedDeriv l (F s) v = G l s := fun l s => surfacePiece_iteratedDeriv pu pv Uu Uv κu κv Pw su sv s v l
  have hGs : ∀ l, ∀ m : WithTop ℕ∞, ContDiff ℝ m (G l) := fun l m => curvePiece_contDiff _ _ _ _ _ m
  set R := surfacePointRational pu pv Uu Uv Pw su sv with hR
  set T := fun l s => iteratedDerivWithin l (fun t => R s t) Sv v with hT
  have hFne : ∀ s ∈ Su, ∀ t ∈ Sv, (F s t).2 ≠ 0 := fun s hs t ht => by rw [← heq s hs ht]; exact hpos s hs t ht
  -- in `v`
  have hRF : ∀ s ∈ Su, Set.EqOn (fun t => R s t) (fun t => (F s t).2⁻¹ • (F s t).1) Sv := by
    intro s hs t ht
    show (surfacePoint pu pv Uu Uv Pw su sv s t).2⁻¹ • (surfacePoint pu pv Uu Uv Pw su sv s t).1 = _
    rw [heq s hs ht]
  have hRs : ∀ s ∈ Su, ∀ m : WithTop ℕ∞, ContDiffOn ℝ m (fun t => R s t) Sv := fun s hs m =>
    (((hFs s m).snd.contDiffOn.inv (hFne s hs)).smul (hFs s m).fst.contDiffOn).congr (hRF s hs)
  have hleib : ∀ l, ∀ s ∈ Su, (G l s).1 = ∑ j ∈ range (l + 1), ((l.choose j : ℝ) * (G j s).2) • T (l - j) s := by
    intro l s hs
    have h1 : Set.EqOn (fun t => (F s t).1) ((fun t => (F s t).2) • (fun t => R s t)) Sv := by
      intro t ht
      show (F s t).1 = (F s t).2 • R s t
      have := hRF s hs ht
      dsimp only at this
      rw [this, smul_smul, mul_inv_cancel₀ (hFne s hs t ht), one_smul]
    have hc := fun j => iteratedDeriv_fst_snd (F s) (hFs s) j v
    rw [← hGF l s, hc l]
    dsimp only
    rw [← iteratedDerivWithin_eq_iteratedDeriv hSv.uniqueDiff (hFs s l).fst.contDiffAt hSv.mem,
      iteratedDerivWithin_congr h1 hSv.mem,
      iteratedDerivWithin_smul hSv.mem hSv.uniqueDiff (hFs s l).snd.contDiffAt.contDiffWithinAt (hRs s hs l v hSv.mem)]
    apply sum_congr rfl
    intro j _
    rw [← hGF j s, hc j, iteratedDerivWithin_eq_iteratedDeriv hSv.uniqueDiff (hFs s j).snd.contDiffAt hSv.mem, mul_smul,
      Nat.cast_smul_eq_nsmul ℝ]
  have hG0 : ∀ s ∈ Su, (G 0 s).2 ≠ 0 := by
    intro s hs
    rw [← hGF 0 s, iteratedDeriv_zero]; exact hFne s hs v hSv.mem
  -- smoothness in `u`
  have hTs : ∀ l, ∀ m : WithTop ℕ∞, ContDiffOn ℝ m (T l) Su := by
    intro l
    induction l using Nat.strong_induction_on with
    | _ l ih =>
      intro m
      have h1 : Set.EqOn (T l) (fun s => (G 0 s).2⁻¹ •
          ((G l s).1 - ∑ j ∈ range l, ((l.choose (j + 1) : ℝ) * (G (j + 1) s).2) • T (l - (j + 1)) s)) Su := by
        intro s hs
        dsimp only
        rw [hleib l s hs, sum_range_succ', add_sub_cancel_left, smul_smul]
        simp only [Nat.choose_zero_right, Nat.cast_one, one_mul, Nat.sub_zero]
        rw [inv_mul_cancel₀ (hG0 s hs), one_smul]
      refine ContDiffOn.congr ?_ h1
      refine ((hGs 0 m).snd.contDiffOn.inv hG0).smul ((hGs l m).fst.contDiffOn.sub (ContDiffOn.sum fun j hj => ?_))
      have hj := mem_range.1 hj
      exact (contDiffOn_const.mul (hGs (j + 1) m).snd.contDiffOn).smul (ih (l - (j + 1)) (by omega) m)
  -- in `u`
  refine rationalSurfaceLoop_spec _ (fun k l => iteratedDerivWithin k (T l) Su u) order ?_ ?_ (order + 1) (le_refl _) k l (by omega) hl
  · rw [hWeq 0 0 (by omega) (by omega), iteratedDeriv_zero]
    exact hG0 u hSu.mem
  · intro k hk l hl
    have hc := fun i j => iteratedDeriv_fst_snd (G j) (hGs j) i u
    rw [hWeq k l hk hl]
    show (iteratedDeriv k (G l) u).1 = _
    rw [hc k l]
    dsimp only
    rw [← iteratedDerivWithin_eq_iteratedDeriv hSu.uniqueDiff (hGs l k).fst.contDiffAt hSu.mem]
    have h1 : Set.EqOn (fun s => (G l s).1)
        (fun s => ∑ j ∈ range (l + 1), (((fun s => (l.choose j : ℝ) * (G j s).2) • T (l - j)) : ℝ → V) s) Su := by
      intro s hs; exact hleib l s hs
    rw [iteratedDerivWithin_congr h1 hSu.mem]
    have hsm : ∀ j, ContDiff ℝ k (fun s => (l.choose j : ℝ) * (G j s).2) := fun j => contDiff_const.mul (hGs j k).snd
    rw [iteratedDerivWithin_fun_sum hSu.mem hSu.uniqueDiff fun j _ =>
      ((hsm j).contDiffAt.contDiffWithinAt).smul (hTs (l - j) k u hSu.mem)]
    apply sum_congr rfl
    intro j hj
    have hj := mem_range.1 hj
    rw [iteratedDerivWithin_smul hSu.mem hSu.uniqueDiff (hsm j).contDiffAt.contDiffWithinAt (hTs (l - j) k u hSu.mem)]
    apply sum_congr rfl
    intro i hi
    have hi := mem_range.1 hi
    rw [hWeq i j (by omega) (by omega)]
    show _ = (((l.choose j : ℝ)) * ((k.choose i : ℝ) * (iteratedDeriv i (G j) u).2)) • _
    rw [hc i j, iteratedDerivWithin_const_mul_field,
      iteratedDerivWithin_eq_iteratedDeriv hSu.uniqueDiff (hGs j i).snd.contDiffAt hSu.mem, ← Nat.cast_smul_eq_nsmul ℝ, smul_smul]
    congr 1
    ring


/-! ### One basis function, all degrees, recursive basis functions -/

/-- The recursion for the derivatives in `basis_function_ders_one`: order `m` of the function `i` of degree `q`. -/
noncomputable def dersOneSpec (U : ℕ → ℝ) (u : ℝ) : ℕ → ℕ → ℕ → ℝ
  | 0, q, i => coxDeBoor U u q i
  | _ + 1, 0, _ => 0
  | m + 1, q + 1, i => ((q + 1 : ℕ) : ℝ) *
      (dersOneSpec U u m q i / (U (i + q + 1) - U i) - dersOneSpec U u m q (i + 1) / (U (i + q + 2) - U (i + 1)))

theorem dersOneInner_spec (degree : ℕ) (U : ℕ → ℝ) (span k jj : ℕ) (u : ℝ) (hk : k ≤ degree) (_hjj : jj + 1 ≤ k) (ND : ℕ → ℝ)
    (hN : ∀ r, r ≤ k - jj → ND r = dersOneSpec U u jj (degree - k + jj) (span + r)) (j : ℕ) (hj : j ≤ k - jj) :
    (∀ t, t < j → (dersOneInner degree U span k (jj + 1) ND j).1 t = dersOneSpec U u (jj + 1) (degree - k + jj + 1) (span + t)) ∧
    (∀ t, j ≤ t → (dersOneInner degree U span k (jj + 1) ND j).1 t = ND t) ∧
    (dersOneInner degree U span k (jj + 1) ND j).2 =
      dersOneSpec U u jj (degree - k + jj) (span + j) / (U (span + j + (degree - k + jj) + 1) - U (span + j)) := by
  induction j with
  | zero =>
    refine ⟨fun t h => by omega, fun t _ => rfl, ?_⟩
    have h0 := hN 0 (Nat.zero_le _)
    simp only [dersOneInner]
    split
    · rename_i h
      rw [h] at h0; rw [← h0]; simp
    · rw [h0]; simp only [add_zero]
      rw [show span + degree - k + (jj + 1) = span + (degree - k + jj) + 1 by omega]
  | succ j ih =>
    obtain ⟨h1, h2, h3⟩ := ih (by omega)
    have hNj := hN (j + 1) hj
    have h2' := h2 (j + 1) (by omega)
    rw [hNj] at h2'
    have hrec : dersOneSpec U u (jj + 1) (degree - k + jj + 1) (span + j) = ((degree - k + (jj + 1) : ℕ) : ℝ) *
        (dersOneSpec U u jj (degree - k + jj) (span + j) / (U (span + j + (degree - k + jj) + 1) - U (span + j)) -
        dersOneSpec U u jj (degree - k + jj) (span + (j + 1)) / (U (span + (j + 1) + (degree - k + jj) + 1) - U (span + (j + 1)))) := by
      rw [dersOneSpec, show degree - k + (jj + 1) = degree - k + jj + 1 by omega, show span + j + 1 = span + (j + 1) by omega,
        show span + j + (degree - k + jj) + 2 = span + (j + 1) + (degree - k + jj) + 1 by omega]
    simp only [dersOneInner]
    rw [h2', h3]
    by_cases hz : dersOneSpec U u jj (degree - k + jj) (span + (j + 1)) = 0
    · rw [if_pos hz]
      refine ⟨?_, ?_, ?_⟩
      · intro t ht
        rcases Nat.lt_succ_iff_lt_or_eq.1 ht with h | h
        · dsimp only; rw [Function.update_of_ne (by omega)]; exact h1 t h
        · subst h
          dsimp only
          rw [Function.update_self, hrec, hz, zero_div, sub_zero]
      · intro t ht
        dsimp only
        rw [Function.update_of_ne (by omega)]; exact h2 t (by omega)
      · rw [hz]; simp
    · rw [if_neg hz]
      have e : U (span + j + degree - k + (jj + 1) + 1) - U (span + j + 1) =
          U (span + (j + 1) + (degree - k + jj) + 1) - U (span + (j + 1)) := by
        rw [show span + j + degree - k + (jj + 1) + 1 = span + (j + 1) + (degree - k + jj) + 1 by omega]; rfl
      rw [e]
      refine ⟨?_, ?_, rfl⟩
      · intro t ht
        rcases Nat.lt_succ_iff_lt_or_eq.1 ht with h | h
        · dsimp only; rw [Function.update_of_ne (by omega)]; exact h1 t h
        · subst h
          dsimp only
          rw [Function.update_self, hrec]
      · intro t ht
        dsimp only
        rw [Function.update_of_ne (by omega)]; exact h2 t (by omega)

theorem dersOneOuter_spec (degree : ℕ) (U : ℕ → ℝ) (span : ℕ) (u : ℝ) (k : ℕ) (hk : k ≤ degree) (jj : ℕ) (hjj : jj ≤ k) :
    ∀ r, r ≤ k - jj → dersOneOuter degree U span u k jj r = dersOneSpec U u jj (degree - k + jj) (span + r) := by
  induction jj with
  | zero =>
    intro r hr
    simp only [dersOneOuter, dersOneTable]
    rw [if_pos (by omega), basisOneOuter_spec degree U span u (degree - k) (by omega) r (by omega)]
    rfl
  | succ jj ih =>
    intro r hr
    simp only [dersOneOuter]
    have h := dersOneInner_spec degree U span k jj u hk hjj _ (ih (by omega)) (k - (jj + 1) + 1) (by omega)
    exact h.1 r (by omega)

theorem dersOneSpec_eq (U : ℕ → ℝ) (hU : Monotone U) (κ : ℕ) (u : ℝ) (h1 : U κ ≤ u) (h2 : u < U (κ + 1)) (m q i : ℕ) :
    dersOneSpec U u m q i = iteratedDeriv m (fun t => bsp U κ t q i) u := by
  have hv := h1.trans_lt h2
  induction m generalizing q i with
  | zero => rw [iteratedDeriv_zero]; exact bsp_eq_coxDeBoor U hU κ u h1 h2 q i
  | succ m ih =>
    cases q with
    | zero =>
      rw [bsp_iteratedDeriv U hU κ hv]
      dsimp only
      rw [if_neg (by omega)]; rfl
    | succ q =>
      rw [dersOneSpec, ih, ih, iteratedDeriv_succ']
      have hd : deriv (fun t => bsp U κ t (q + 1) i) = fun t => ((q + 1 : ℕ) : ℝ) *
          ((fun t => (U (i + q + 1) - U i)⁻¹ * bsp U κ t q i) t - (fun t => (U (i + q + 2) - U (i + 1))⁻¹ * bsp U κ t q (i + 1)) t) := by
        funext t
        rw [(bsp_hasDerivAt U hU κ hv q i t).deriv]
        ring
      rw [hd, iteratedDeriv_const_mul_field]
      have hs := iteratedDeriv_sub (n := m) (x := u) (f := fun t => (U (i + q + 1) - U i)⁻¹ * bsp U κ t q i)
        (g := fun t => (U (i + q + 2) - U (i + 1))⁻¹ * bsp U κ t q (i + 1))
        (contDiff_const.mul (bsp_contDiff U κ q i m)).contDiffAt
        (contDiff_const.mul (bsp_contDiff U κ q (i + 1) m)).contDiffAt
      rw [show (fun t => (fun t => (U (i + q + 1) - U i)⁻¹ * bsp U κ t q i) t - (fun t => (U (i + q + 2) - U (i + 1))⁻¹ * bsp U κ t q (i + 1)) t) =
        (fun t => (U (i + q + 1) - U i)⁻¹ * bsp U κ t q i) - (fun t => (U (i + q + 2) - U (i + 1))⁻¹ * bsp U κ t q (i + 1)) from rfl, hs,
        iteratedDeriv_const_mul_field, iteratedDeriv_const_mul_field]
      ring

/-- **C76** `basis_function_ders_one(p, U, i, u, order)[k]` is the `k`-th derivative of the basis function `N_{i,p}`, for every
index, every order up to the degree and every parameter strictly inside a knot span. -/
theorem C76_basis_ders_one (p : ℕ) (U : ℕ → ℝ) (hU : Monotone U) (i : ℕ) (u : ℝ) (κ : ℕ) (h1 : U κ < u) (h2 : u < U (κ + 1))
    (k : ℕ) (hk : k ≤ p) :
    basisFunctionDersOne p U i u k = iteratedDeriv k (fun t => coxDeBoor U t p i) u := by
  have he : (fun t => coxDeBoor U t p i) =ᶠ[nhds u] (fun t => bsp U κ t p i) := by
    filter_upwards [Ioo_mem_nhds h1 h2] with t ht
    exact bsp_eq_coxDeBoor U hU κ t ht.1.le ht.2 _ _
  rw [he.iteratedDeriv_eq]
  unfold basisFunctionDersOne
  split
  · rename_i h
    have : (fun t => bsp U κ t p i) = fun _ => (0 : ℝ) := by
      funext t
      rcases h with h | h
      · refine bsp_zero_of_lt _ _ _ _ _ ?_
        by_contra hh
        exact absurd ((hU (not_lt.1 hh)).trans h1.le) (not_le.2 h)
      · refine bsp_zero_of_gt _ _ _ _ _ ?_
        by_contra hh
        exact absurd ((hU (show κ + 1 ≤ i + p + 1 by omega)).trans h) (not_le.2 h2)
    rw [this]; exact (iteratedDeriv_fun_const_zero).symm
  · rw [← dersOneSpec_eq U hU κ u h1.le h2]
    split
    · rename_i _ h0
      subst h0
      unfold dersOneTable
      rw [if_pos (by omega), basisOneOuter_spec p U i u p (le_refl _) 0 (by omega)]
      rfl
    · rw [dersOneOuter_spec p U i u k hk k (le_refl _) 0 (by omega)]
      rw [add_zero, Nat.sub_add_cancel hk]

end

section
variable {K : Type*} [Field K] [LinearOrder K] [IsStrictOrderedRing K]

omit [IsStrictOrderedRing K] in
/-- **C76** `basis_function_all`: entry `[j][i]` is the `j`-th non-vanishing basis function of degree `i`. -/
theorem C76_basis_all (degree : ℕ) (U : ℕ → K) (hU : Monotone U) (span : ℕ) (hp : degree ≤ span) (u : K)
    (h1 : U span ≤ u) (h2 : u < U (span + 1)) (j i : ℕ) :
    basisFunctionAll degree U span u j i =
      if i ≤ degree ∧ j ≤ i then some (coxDeBoor U u i (span - i + j)) else none := by
  unfold basisFunctionAll
  split
  · rename_i h
    rw [basisOuter_eq_bsp U span u i (by omega) j h.2, bsp_eq_coxDeBoor U hU span u h1 h2]
  · rfl

omit [IsStrictOrderedRing K] in
/-- **C76** the recursive basis functions of a surface are the Cox–de Boor functions. -/
theorem C76_recursive_basis (U : ℕ → K) (u : K) (k i : ℕ) : recBasis U u k i = coxDeBoor U u k i := by
  induction k generalizing i with
  | zero => rfl
  | succ k ih =>
    rw [recBasis, coxDeBoor, ih, ih]
    rw [show i + (k + 1) = i + k + 1 by omega, show i + k + 1 + 1 = i + k + 2 by omega]
    congr 1
    · split
      · rename_i h; rw [h, sub_self, div_zero, zero_mul]
      · rfl
    · split
      · rename_i h; rw [h, sub_self, div_zero, zero_mul]
      · rfl


/-- **C77** on the half-open domain the blending vector of a surface is non-negative and sums to one. -/
theorem C77_blending_partial (p n : ℕ) (U : ℕ → K) (hc : Clamped p n U) (u : K) (h1 : U p ≤ u) (h2 : u < U n) :
    (∀ b ∈ blendingVector p n U u, 0 ≤ b) ∧ (blendingVector p n U u).sum = 1 := by
  obtain ⟨hs1, hs2, hx, -⟩ := C19_linear p n U u hc.pn
  obtain ⟨ha, hb⟩ := hx h1 h2
  have hbl : blendingVector p n U u = (List.range n).map fun i => bsp U (findSpanLinear p U n u) u p i := by
    unfold blendingVector
    apply List.map_congr_left
    intro i _
    rw [C76_recursive_basis, bsp_eq_coxDeBoor U hc.mono _ u ha hb]
  rw [hbl]
  constructor
  · intro b hb'
    obtain ⟨i, -, rfl⟩ := List.mem_map.1 hb'
    exact bsp_nonneg U hc.mono _ u ha hb.le p i
  · rw [list_range_sum]
    have := bsp_sum_support U _ u p n hs1 hs2 (fun _ => (1 : K))
    simp only [smul_eq_mul, mul_one] at this
    rw [← this, bsp_sum U hc.mono _ u (ha.trans_lt hb) p hs1]
example : blendingVector 2 4 (fun i => if i ≤ 2 then (0 : ℚ) else if i = 3 then 1 else 2) (1 / 2) = [1 / 4, 5 / 8, 1 / 8, 0] := by
  decide +kernel

/-- The full claim, end of the domain included. -/
def C77_blending_full_statement (K : Type) [Field K] [LinearOrder K] : Prop :=
  ∀ (p n : ℕ) (U : ℕ → K), Clamped p n U → ∀ u, U p ≤ u → u ≤ U n → (blendingVector p n U u).sum = 1

/-- **C77** it fails: at the last parameter of the domain all the blending functions are zero. -/
theorem C77_blending_counterexample : ¬ C77_blending_full_statement ℚ := by
  intro h
  have := h 2 4 _ clamped_example 2 (by decide +kernel) (by decide +kernel)
  revert this
  decide +kernel

end

/-! ### Examples: the hypotheses can be met, and the algorithms on concrete data -/

theorem clamped_example_real : Clamped 2 4 (fun i => if i ≤ 2 then (0 : ℝ) else if i = 3 then 1 else 2) where
  pn := by norm_num
  mono := by
    intro a b h
    dsimp only
    split_ifs <;> norm_num <;> omega
  left := by norm_num
  right := by norm_num
  first := by norm_num
  last := by norm_num
theorem knot_example (i : ℕ) : (fun i => if i ≤ 2 then (0 : ℝ) else if i = 3 then 1 else 2) i = 0 ∨
    (fun i => if i ≤ 2 then (0 : ℝ) else if i = 3 then 1 else 2) i = 1 ∨ (fun i => if i ≤ 2 then (0 : ℝ) else if i = 3 then 1 else 2) i = 2 := by
  dsimp only; split_ifs <;> simp

/-- At a knot, to the right. -/
example : KnotFreeNhd 2 4 (fun i => if i ≤ 2 then (0 : ℝ) else if i = 3 then 1 else 2) 1 (Set.Ico 1 2) := by
  refine Or.inl ⟨2, by norm_num, by norm_num, by norm_num, ?_, rfl⟩
  intro i h
  rcases knot_example i with e | e | e <;> rw [e] at h <;> norm_num at h
/-- At the end of the domain, to the left. -/
example : KnotFreeNhd 2 4 (fun i => if i ≤ 2 then (0 : ℝ) else if i = 3 then 1 else 2) 2 (Set.Ioc 1 2) := by
  refine Or.inr (Or.inl ⟨1, by norm_num, by norm_num, by norm_num, ?_, rfl⟩)
  intro i h
  rcases knot_example i with e | e | e <;> rw [e] at h <;> norm_num at h
/-- Inside a span. -/
example : KnotFreeNhd 2 4 (fun i => if i ≤ 2 then (0 : ℝ) else if i = 3 then 1 else 2) (1 / 2) (Set.Ioo 0 1) := by
  refine Or.inr (Or.inr ⟨0, 1, by norm_num, by norm_num, by norm_num, by norm_num, ?_, rfl⟩)
  intro i h
  rcases knot_example i with e | e | e <;> rw [e] at h <;> norm_num at h
/-- The parabola through the Bézier points `0, 0, 1`: `t²`, derivatives `t², 2t, 2, 0`. -/
example : (List.range 4).map (fun k => derivativesCurve 2 (fun i => if i ≤ 2 then (0 : ℚ) else 1)
    (fun i => if i = 2 then (1 : ℚ) else 0) 3 (1 / 2) 3 k) = [1 / 4, 1, 2, 0] := by decide +kernel
/-- A cubic with an inner knot. -/
example : (List.range 4).map (fun k => derivativesCurve 3 (fun i => ([0, 0, 0, 0, 1, 3, 3, 3, 3] : List ℚ).getD i 3)
    (fun i => ([0, 1, 4, 2, 7] : List ℚ).getD i 0) 5 2 3 k) = [229 / 72, 29 / 24, 37 / 12, 77 / 12] := by decide +kernel
/-- `1 / t` on `[1, 2]` is a rational curve: with `P = (1, 1/2)`, `w = (1, 2)` and the knots `0, 0, 1, 1` the curve is
`1 / (1 + t)`, derivatives `(-1)ᵏ k! / (1 + t)ᵏ⁺¹`. -/
example : derivativesCurveRational 1 (fun i => if i ≤ 1 then (0 : ℚ) else 1)
    (weighted (fun i => if i = 0 then (1 : ℚ) else 1 / 2) (fun i => if i = 0 then 1 else 2)) 2 (1 / 2) 3 =
    [2 / 3, -4 / 9, 16 / 27, -32 / 27] := by decide +kernel
/-- The bilinear surface `u v`. -/
example : (List.range 2).map (fun k => (List.range 2).map fun l => derivativesSurface 1 1 (fun i => if i ≤ 1 then (0 : ℚ) else 1)
    (fun i => if i ≤ 1 then (0 : ℚ) else 1) (fun i => if i = 3 then (1 : ℚ) else 0) 2 2 (1 / 2) (1 / 3) 1 k l) =
    [[1 / 6, 1 / 2], [1 / 3, 1]] := by decide +kernel
/-- The rational surface `1 / ((1 + u)(1 + v))`. -/
example : (List.range 3).map (fun k => (List.range 3).map fun l => derivativesSurfaceRational 1 1 (fun i => if i ≤ 1 then (0 : ℚ) else 1)
    (fun i => if i ≤ 1 then (0 : ℚ) else 1) (weighted (fun i => ([1, 1 / 2, 1 / 2, 1 / 4] : List ℚ).getD i 0)
      (fun i => ([1, 2, 2, 4] : List ℚ).getD i 0)) 2 2 1 1 2 k l) =
    [[1 / 4, -1 / 8, 1 / 8], [-1 / 8, 1 / 16, -1 / 16], [1 / 8, -1 / 16, 1 / 16]] := by decide +kernel
example : (List.range 3).map (basisFunctionDersOne 2 (fun i => ([0, 0, 0, 1, 2, 2, 2] : List ℚ).getD i 2) 1 (1 / 2)) = [5 / 8, 1 / 2, -3] := by
  decide +kernel
end Volmdlr
