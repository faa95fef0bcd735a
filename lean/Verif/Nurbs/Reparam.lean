import Verif.Nurbs.Curve

/-!
# Change of parameter, restriction and reversal of B-spline curves

Lemmas for C23 (split) and C24 (reverse), at the level of knot functions `ℕ → K`.
-/

namespace Volmdlr
open Finset
section
variable {K : Type*} [Field K]

/-- The pieces of a span depend only on the knots next to it. -/
theorem bsp_congr (U W : ℕ → K) (κ : ℕ) (u : K) (p : ℕ)
    (h : ∀ j, κ + 1 ≤ j + p → j ≤ κ + p → U j = W j) (i : ℕ) : bsp U κ u p i = bsp W κ u p i := by
  induction p generalizing i with
  | zero => rfl
  | succ p ih =>
    have ih := ih (fun j h1 h2 => h j (by omega) (by omega))
    rw [bsp, bsp, ← ih, ← ih]
    congr 1
    · by_cases h1 : κ < i
      · rw [bsp_zero_of_lt _ _ _ _ _ h1, mul_zero, mul_zero]
      by_cases h2 : i + p < κ
      · rw [bsp_zero_of_gt _ _ _ _ _ h2, mul_zero, mul_zero]
      rw [h i (by omega) (by omega), h (i + p + 1) (by omega) (by omega)]
    · by_cases h1 : κ < i + 1
      · rw [bsp_zero_of_lt _ _ _ _ _ h1, mul_zero, mul_zero]
      by_cases h2 : i + 1 + p < κ
      · rw [bsp_zero_of_gt _ _ _ _ _ h2, mul_zero, mul_zero]
      rw [h (i + 1) (by omega) (by omega), h (i + p + 2) (by omega) (by omega)]

/-- Affine change of parameter. -/
theorem bsp_affine (U : ℕ → K) (κ : ℕ) (u a b : K) (hb : b ≠ 0) (p i : ℕ) :
    bsp (fun j => (U j - a) / b) κ ((u - a) / b) p i = bsp U κ u p i := by
  induction p generalizing i with
  | zero => rfl
  | succ p ih =>
    rw [bsp, bsp, ih, ih]
    have e : ∀ x y z w : K, ((x - a) / b - (y - a) / b) / ((z - a) / b - (w - a) / b) = (x - y) / (z - w) := by
      intro x y z w
      rw [← sub_div, ← sub_div, div_div_div_cancel_right₀ hb]
      congr 1 <;> ring
    rw [e, e]

/-- Shift of the indices. -/
theorem bsp_shift (U : ℕ → K) (κ d : ℕ) (u : K) (p i : ℕ) :
    bsp (fun j => U (j + d)) κ u p i = bsp U (κ + d) u p (i + d) := by
  induction p generalizing i with
  | zero => simp [bsp]
  | succ p ih =>
    rw [bsp, bsp, ih, ih, show i + p + 1 + d = i + d + p + 1 by omega, show i + p + 2 + d = i + d + p + 2 by omega,
      show i + 1 + d = i + d + 1 by omega]

/-- Reversal. -/
theorem bsp_reverse (U : ℕ → K) (m κ : ℕ) (hκ : κ < m) (c u : K) (p i : ℕ) (hi : i + p < m) :
    bsp (fun j => c - U (m - j)) κ (c - u) p i = bsp U (m - 1 - κ) u p (m - 1 - p - i) := by
  induction p generalizing i with
  | zero =>
    simp only [bsp]
    by_cases h : i = κ
    · rw [if_pos h, if_pos (by omega)]
    · rw [if_neg h, if_neg (by omega)]
  | succ p ih =>
    rw [bsp, bsp, ih i (by omega), ih (i + 1) (by omega), add_comm]
    obtain ⟨I, hI⟩ : ∃ I, m = I + i + p + 2 := ⟨m - i - p - 2, by omega⟩
    rw [show m - 1 - p - i = I + 1 by omega, show m - 1 - (p + 1) - i = I by omega,
      show m - 1 - p - (i + 1) = I by omega,
      show m - i = I + p + 2 by omega, show m - (i + p + 1) = I + 1 by omega,
      show m - (i + p + 2) = I by omega, show m - (i + 1) = I + p + 1 by omega]
    have e : ∀ x y z w : K, (c - x - (c - y)) / (c - z - (c - w)) = (y - x) / (w - z) := by
      intro x y z w; congr 1 <;> ring
    rw [e, e]

end
section
variable {K : Type*} [Field K] [LinearOrder K] [IsStrictOrderedRing K]
variable {V : Type*} [AddCommGroup V] [Module K V]

/-- At a knot of multiplicity at most the degree the pieces on both sides have the same value. -/
theorem bsp_knot (U : ℕ → K) (κ κ' : ℕ) (u : K) (hlt : κ < κ') (p : ℕ) (hp : κ' ≤ κ + p)
    (h : ∀ i, κ < i → i ≤ κ' → U i = u) (h1 : U κ < u) (h2 : u < U (κ' + 1)) (i : ℕ) :
    bsp U κ u p i = bsp U κ' u p i := by
  obtain ⟨d, rfl⟩ : ∃ d, p = (κ' - κ) + d := ⟨p - (κ' - κ), by omega⟩
  clear hp
  induction d generalizing i with
  | zero =>
    rw [add_zero, bsp_right U κ u h1 _ (fun i a b => h i a (by omega)),
      bsp_left U κ' u h2 _ (fun i a b => h i (by omega) b)]
    by_cases e : i = κ
    · rw [if_pos e, if_pos (by omega)]
    · rw [if_neg e, if_neg (by omega)]
  | succ d ih => rw [← add_assoc, bsp, bsp, ih, ih]

/-- Specification: a knot vector whose interior knots have a multiplicity at most the degree. -/
def InteriorMult (p n : ℕ) (U : ℕ → K) : Prop := ∀ i, 0 < i → i < n → U i < U (i + p)

/-- The value does not depend on which non-empty span containing the parameter is used. -/
theorem bsp_span_indep (p n : ℕ) (U : ℕ → K) (hU : Monotone U) (hi : InteriorMult p n U) (κ κ' : ℕ)
    (hκ : κ < n) (hκ' : κ' < n) (u : K)
    (a1 : U κ ≤ u) (a2 : u ≤ U (κ + 1)) (a3 : U κ < U (κ + 1))
    (b1 : U κ' ≤ u) (b2 : u ≤ U (κ' + 1)) (b3 : U κ' < U (κ' + 1)) (i : ℕ) :
    bsp U κ u p i = bsp U κ' u p i := by
  have main : ∀ κ κ' : ℕ, κ < κ' → κ' < n → U κ < U (κ + 1) → u ≤ U (κ + 1) → U κ' ≤ u → U κ' < U (κ' + 1) →
      bsp U κ u p i = bsp U κ' u p i := by
    intro κ κ' hlt hn h1 h2 h3 h4
    have h5 : U (κ + 1) ≤ U κ' := hU (by omega)
    have e : U (κ + 1) = u := le_antisymm (h5.trans h3) h2
    have e' : U κ' = u := le_antisymm h3 (h2.trans h5)
    apply bsp_knot U κ κ' u hlt p
    · by_contra hc
      have := hi (κ + 1) (by omega) (by omega)
      have h6 : U (κ + 1 + p) ≤ U κ' := hU (by omega)
      rw [e, ] at this
      rw [e'] at h6
      exact absurd h6 (not_le.2 this)
    · intro j hj1 hj2
      exact le_antisymm (e' ▸ hU hj2) (e ▸ hU (by omega))
    · rw [← e]; exact h1
    · rw [← e']; exact h4
  rcases Nat.lt_trichotomy κ κ' with h | h | h
  · exact main κ κ' h hκ' a3 a2 b1 b3
  · rw [h]
  · exact (main κ' κ h hκ b3 b2 a1 a3).symm

/-- Evaluation may use any non-empty span containing the parameter. -/
theorem curvePoint_any_span (p n : ℕ) (U : ℕ → K) (hc : Clamped p n U) (hi : InteriorMult p n U) (P : ℕ → V)
    (u : K) (h1 : U p ≤ u) (h2 : u ≤ U n) (κ : ℕ) (hκ : κ < n)
    (a1 : U κ ≤ u) (a2 : u ≤ U (κ + 1)) (a3 : U κ < U (κ + 1)) :
    curvePoint p U P n u = ∑ i ∈ range n, bsp U κ u p i • P i := by
  rw [curvePoint_eq p U P n u hc.pn]
  obtain ⟨b1, b2, b3⟩ := span_valid p n U hc u h1 h2
  apply sum_congr rfl
  intro i _
  rw [bsp_span_indep p n U hc.mono hi _ κ (C19_linear p n U u hc.pn).2.1 hκ u b1 b2 b3 a1 a2 a3]

/-- The reversed knot function. -/
def revKnots (c : K) (m : ℕ) (U : ℕ → K) : ℕ → K := fun j => c - U (m - j)

theorem revKnots_clamped (p n : ℕ) (U : ℕ → K) (hc : Clamped p n U) (c : K) :
    Clamped p n (revKnots c (n + p) U) := by
  have hpn := hc.pn
  unfold revKnots
  refine ⟨hpn, ?_, ?_, ?_, ?_, ?_⟩
  · intro i j hij
    have := hc.mono (show n + p - j ≤ n + p - i by omega)
    linarith
  · simp only [Nat.sub_zero, show n + p - p = n by omega, hc.right]
  · simp only [Nat.sub_self, show n + p - n = p by omega, hc.left]
  · have := hc.last
    rw [show n + p - p = n by omega, show n + p - (p + 1) = n - 1 by omega]
    linarith
  · have := hc.first
    rw [show n + p - n = p by omega, show n + p - (n - 1) = p + 1 by omega]
    linarith

/-- Reversing knots and control points reverses the parametrisation. -/
theorem curve_reverse (p n : ℕ) (U : ℕ → K) (hc : Clamped p n U) (hi : InteriorMult p n U) (P : ℕ → V)
    (c u : K) (h1 : U p ≤ u) (h2 : u ≤ U n) :
    curvePoint p (revKnots c (n + p) U) (fun i => P (n - 1 - i)) n (c - u) = curvePoint p U P n u := by
  have hpn := hc.pn
  have hcr := revKnots_clamped p n U hc c
  have e1 : revKnots c (n + p) U p = c - U n := by unfold revKnots; rw [show n + p - p = n by omega]
  have e2 : revKnots c (n + p) U n = c - U p := by unfold revKnots; rw [show n + p - n = p by omega]
  obtain ⟨s1, s2, s3⟩ := span_valid p n _ hcr (c - u) (by rw [e1]; linarith) (by rw [e2]; linarith)
  obtain ⟨k1, k2, -⟩ := C19_linear p n (revKnots c (n + p) U) (c - u) hpn
  rw [curvePoint_eq p _ _ n _ hpn]
  generalize findSpanLinear p (revKnots c (n + p) U) n (c - u) = κ at *
  have f1 : revKnots c (n + p) U κ = c - U (n + p - 1 - κ + 1) := by
    unfold revKnots; rw [show n + p - 1 - κ + 1 = n + p - κ by omega]
  have f2 : revKnots c (n + p) U (κ + 1) = c - U (n + p - 1 - κ) := by
    unfold revKnots; rw [show n + p - 1 - κ = n + p - (κ + 1) by omega]
  rw [f1] at s1 s3
  rw [f2] at s2 s3
  rw [curvePoint_any_span p n U hc hi P u h1 h2 (n + p - 1 - κ) (by omega) (by linarith) (by linarith)
    (by linarith)]
  rw [← sum_range_reflect]
  apply sum_congr rfl
  intro i hi
  have hi := mem_range.1 hi
  have := bsp_reverse U (n + p) κ (by omega) c u p (n - 1 - i) (by omega)
  unfold revKnots
  rw [this, show n + p - 1 - p - (n - 1 - i) = i by omega, show n - 1 - (n - 1 - i) = i by omega]

/-- Affine change of parameter of a curve. -/
theorem curve_affine_param (p n : ℕ) (U : ℕ → K) (hpn : p < n) (P : ℕ → V) (a b : K) (hb : 0 < b) (u : K) :
    curvePoint p (fun j => (U j - a) / b) P n ((u - a) / b) = curvePoint p U P n u := by
  have hspan : ∀ s, spanLoop (fun j => (U j - a) / b) n ((u - a) / b) s = spanLoop U n u s := by
    intro s
    induction hd : n - s using Nat.strong_induction_on generalizing s with
    | _ d ih =>
      rw [spanLoop.eq_1 _ _ _ s, spanLoop.eq_1 U n u s]
      have : (U s - a) / b ≤ (u - a) / b ↔ U s ≤ u := by
        rw [div_le_div_iff_of_pos_right hb]; constructor <;> intro h <;> linarith
      by_cases h : s < n ∧ U s ≤ u
      · rw [if_pos (by rw [this]; exact h), if_pos h]
        exact ih (n - (s + 1)) (by omega) _ rfl
      · rw [if_neg (by rw [this]; exact h), if_neg h]
  rw [curvePoint_eq p _ P n _ hpn, curvePoint_eq p U P n u hpn]
  unfold findSpanLinear
  rw [hspan]
  apply sum_congr rfl
  intro i _
  rw [bsp_affine U _ u a b hb.ne']

/-- Cutting a curve at a knot of multiplicity `p` (indices `a + 1, …, a + p`): the part before it. -/
theorem curve_cut_left (p n a : ℕ) (U W : ℕ → K) (P : ℕ → V) (x : K) (hc : Clamped p n U) (hp : 0 < p)
    (hpa : p ≤ a) (han : a + 1 < n) (hx : ∀ i, a < i → i ≤ a + p → U i = x) (h1 : U a < x) (h2 : x < U (a + p + 1))
    (hW : ∀ j, j ≤ a + p → W j = U j) (hW2 : ∀ j, a < j → W j = x) (u : K) (hu1 : U p ≤ u) (hu2 : u ≤ x) :
    Clamped p (a + 1) W ∧ curvePoint p W P (a + 1) u = curvePoint p U P n u := by
  have hWm : Monotone W := by
    intro i j hij
    rcases Nat.lt_or_ge a j with h | h
    · rw [hW2 j h]
      rcases Nat.lt_or_ge a i with h' | h'
      · rw [hW2 i h']
      · rw [hW i (by omega)]; exact (hc.mono h').trans h1.le
    · rw [hW j (by omega), hW i (by omega)]; exact hc.mono hij
  have hxa : U (a + p) = x := hx _ (by omega) (le_refl _)
  have hap : a + p < n := by
    by_contra hcon
    have h3 : U n ≤ U (a + p) := hc.mono (by omega)
    have h4 : U (a + p + 1) ≤ U n := by
      rcases Nat.lt_or_ge (a + p + 1) (n + p) with h | h
      · rw [← hc.right]; exact hc.mono (by omega)
      · exact absurd han (by omega)
    rw [hxa] at h3
    exact absurd (h2.trans_le h4) (not_lt.2 h3)
  have hcW : Clamped p (a + 1) W := by
    refine ⟨by omega, hWm, ?_, ?_, ?_, ?_⟩
    · rw [hW 0 (by omega), hW p (by omega), hc.left]
    · rw [hW2 _ (by omega), hW2 _ (by omega)]
    · rw [hW p (by omega), hW (p + 1) (by omega)]; exact hc.first
    · rw [show a + 1 - 1 = a by omega, hW a (by omega), hW2 _ (by omega)]; exact h1
  refine ⟨hcW, ?_⟩
  rcases hu2.lt_or_eq with hu | hu
  · -- strictly before the knot
    have hun : u < U n := by
      have : x ≤ U n := by rw [← hxa]; exact hc.mono hap.le
      exact hu.trans_le this
    obtain ⟨-, -, k3, -⟩ := C19_linear p n U u hc.pn
    obtain ⟨l1, l2, l3, -⟩ := C19_linear p (a + 1) W u (by omega)
    have k := k3 hu1 hun
    have l := l3 (by rw [hW p (by omega)]; exact hu1) (by rw [hW2 _ (by omega)]; exact hu)
    rw [curvePoint_eq p W P (a + 1) u (by omega), curvePoint_eq p U P n u hc.pn]
    generalize findSpanLinear p W (a + 1) u = κ' at *
    have e : findSpanLinear p U n u = κ' := by
      apply span_unique U hc.mono u _ _ k
      rw [← hW κ' (by omega), ← hW (κ' + 1) (by omega)]; exact l
    rw [e]
    have hb : ∀ i, bsp W κ' u p i = bsp U κ' u p i := by
      intro i
      exact bsp_congr W U κ' u p (fun j h1 h2 => hW j (by omega)) i
    simp only [hb]
    apply sum_subset
    · intro i hi; simp only [mem_range] at *; omega
    · intro i _ hi
      simp only [mem_range] at hi
      rw [bsp_zero_of_lt _ _ _ _ _ (by omega), zero_smul]
  · -- at the knot
    subst hu
    have hl := (C21_end_points p (a + 1) W hcW P).2
    rw [hW2 _ (by omega)] at hl
    rw [hl]
    have hspan : findSpanLinear p U n u = a + p := by
      obtain ⟨-, -, k3, -⟩ := C19_linear p n U u hc.pn
      have hun : u < U n := h2.trans_le (hc.mono (by omega))
      exact span_unique U hc.mono u _ _ (k3 hu1 hun) ⟨hxa.le, h2⟩
    rw [curvePoint_eq p U P n u hc.pn, hspan, sum_eq_single a]
    · rw [bsp_left U (a + p) u h2 p (fun i h3 h4 => hx i (by omega) h4), if_pos rfl, one_smul]; rfl
    · intro i _ hi
      rw [bsp_left U (a + p) u h2 p (fun i h3 h4 => hx i (by omega) h4), if_neg (by omega), zero_smul]
    · intro h; exact absurd (mem_range.2 (by omega)) h

/-- Cutting a curve at a knot of multiplicity `p`: the part after it. -/
theorem curve_cut_right (p n a : ℕ) (U W : ℕ → K) (P : ℕ → V) (x : K) (hc : Clamped p n U) (hp : 0 < p)
    (hap : a + p < n) (hx : ∀ i, a < i → i ≤ a + p → U i = x) (h2 : x < U (a + p + 1))
    (hW : ∀ j, j ≤ p → W j = x) (hW2 : ∀ j, p < j → W j = U (j + a)) (u : K) (hu1 : x ≤ u) (hu2 : u ≤ U n) :
    Clamped p (n - a) W ∧ curvePoint p W (fun i => P (i + a)) (n - a) u = curvePoint p U P n u := by
  have hW3 : ∀ j, 0 < j → W j = U (j + a) := by
    intro j hj
    rcases Nat.lt_or_ge p j with h | h
    · exact hW2 j h
    · rw [hW j h, hx _ (by omega) (by omega)]
  have hxa : U (a + p) = x := hx _ (by omega) (le_refl _)
  have hWm : Monotone W := by
    apply monotone_nat_of_le_succ
    intro j
    rw [hW3 (j + 1) (by omega)]
    rcases Nat.eq_zero_or_pos j with h | h
    · subst h; rw [hW 0 (by omega), hx _ (by omega) (by omega)]
    · rw [hW3 j h]; exact hc.mono (by omega)
  have hcW : Clamped p (n - a) W := by
    refine ⟨by omega, hWm, ?_, ?_, ?_, ?_⟩
    · rw [hW 0 (by omega), hW p (by omega)]
    · rw [hW3 _ (by omega), hW3 _ (by omega), show n - a + p + a = n + p by omega, show n - a + a = n by omega,
        hc.right]
    · rw [hW p (by omega), hW2 _ (by omega), show p + 1 + a = a + p + 1 by omega]; exact h2
    · rw [hW3 _ (by omega), hW3 _ (by omega), show n - a - 1 + a = n - 1 by omega, show n - a + a = n by omega]
      exact hc.last
  refine ⟨hcW, ?_⟩
  have hup : U p ≤ u := by
    refine le_trans ?_ hu1
    rw [← hxa]; exact hc.mono (by omega)
  have hsp : findSpanLinear p U n u = findSpanLinear p W (n - a) u + a := by
    obtain ⟨-, -, k3, k4, -⟩ := C19_linear p n U u hc.pn
    obtain ⟨l1, -, l3, l4, -⟩ := C19_linear p (n - a) W u (by omega)
    have en : W (n - a) = U n := by rw [hW3 _ (by omega), show n - a + a = n by omega]
    rcases hu2.lt_or_eq with h | h
    · have k := k3 hup h
      have l := l3 (by rw [hW p (le_refl _)]; exact hu1) (by rw [en]; exact h)
      apply span_unique U hc.mono u _ _ k
      rw [hW3 _ (by omega), hW3 _ (by omega)] at l
      rwa [show findSpanLinear p W (n - a) u + a + 1 = findSpanLinear p W (n - a) u + 1 + a by omega]
    · rw [k4 hc.mono h.ge, l4 hWm (by rw [en]; exact h.ge)]; omega
  obtain ⟨l1, l2, -⟩ := C19_linear p (n - a) W u (by omega)
  rw [curvePoint_eq p W _ (n - a) u (by omega), curvePoint_eq p U P n u hc.pn, hsp]
  generalize findSpanLinear p W (n - a) u = κ at *
  have hb : ∀ i, bsp W κ u p i = bsp U (κ + a) u p (i + a) := by
    intro i
    rw [← bsp_shift]
    apply bsp_congr
    intro j h1 _
    exact hW3 j (by omega)
  simp only [hb]
  have := sum_range_add_sum_Ico (fun i => bsp U (κ + a) u p i • P i) (show a ≤ n by omega)
  have h0 : ∑ i ∈ range a, bsp U (κ + a) u p i • P i = 0 := by
    apply sum_eq_zero
    intro i hi
    have := mem_range.1 hi
    rw [bsp_zero_of_gt _ _ _ _ _ (by omega), zero_smul]
  rw [← this, h0, zero_add, sum_Ico_eq_sum_range]
  apply sum_congr rfl
  intro i _
  rw [add_comm a i]

end
end Volmdlr
