import Verif.Fit.InterpProps
import Verif.Nurbs.Helpers
import Mathlib.LinearAlgebra.Matrix.Block

/-!
# Least-squares approximation of points by a curve (C110)
-/

namespace Volmdlr.Fit
open Finset

/-- **C25** `lu_decomposition` (without pivoting) meets no null pivot on a matrix whose leading blocks are all nonsingular. -/
theorem C25_pivots (A : ℕ → ℕ → ℝ) (n : ℕ) (L U : ℕ → ℕ → ℝ) (h : doolittle A n n = (L, U))
    (hA : ∀ k ≤ n, ∀ z : ℕ → ℝ, (∀ r < k, ∑ c ∈ range k, A r c * z c = 0) → ∀ c < k, z c = 0) (i : ℕ) (hi : i < n) : U i i ≠ 0 := by
  classical
  have inv := doolittle_inv A n n (le_refl _)
  rw [h] at inv
  dsimp only at inv
  induction i using Nat.strong_induction_on with
  | _ i ih =>
    intro h0
    have hLU : ∀ r c, r < i + 1 → c < i + 1 → ∑ j ∈ range (i + 1), L r j * U j c = A r c := by
      intro r c hr hc
      rcases Nat.lt_or_ge c r with hcr | hrc
      · have h1 := inv.cols r c (by omega) hcr (by omega) (ih c (by omega) (by omega))
        rw [← h1]
        have : ∑ j ∈ range (i + 1), L r j * U j c = ∑ j ∈ range (c + 1), L r j * U j c := by
          symm
          apply sum_subset
          · intro j hj; simp only [mem_range] at *; omega
          · intro j _ hj
            simp only [mem_range] at hj
            rw [inv.upper j c (by omega), mul_zero]
        rw [this, sum_range_succ]; ring
      · have h1 := inv.rows r c (by omega) hrc (by omega)
        rw [← h1]
        have : ∑ j ∈ range (i + 1), L r j * U j c = ∑ j ∈ range (r + 1), L r j * U j c := by
          symm
          apply sum_subset
          · intro j hj; simp only [mem_range] at *; omega
          · intro j _ hj
            simp only [mem_range] at hj
            rw [inv.lower r j (by omega), zero_mul]
        rw [this, sum_range_succ, inv.diag r (by omega) (by omega)]; ring
    have hU0 : (Matrix.of fun r c : Fin (i + 1) => U r c).det = 0 := by
      rw [Matrix.det_of_isUpperTriangular]
      · exact prod_eq_zero (mem_univ (Fin.last i)) (by simpa using h0)
      · intro r c hrc
        exact inv.upper r c hrc
    have hdet : (Matrix.of fun r c : Fin (i + 1) => A r c).det = 0 := by
      have : (Matrix.of fun r c : Fin (i + 1) => A r c) = (Matrix.of fun r c : Fin (i + 1) => L r c) * (Matrix.of fun r c : Fin (i + 1) => U r c) := by
        ext r c
        rw [Matrix.mul_apply]
        simp only [Matrix.of_apply]
        rw [Fin.sum_univ_eq_sum_range (fun j => L r j * U j c) (i + 1), hLU r c r.2 c.2]
      rw [this, Matrix.det_mul, hU0, mul_zero]
    obtain ⟨v, hv, hM⟩ := Matrix.exists_mulVec_eq_zero_iff.2 hdet
    apply hv
    funext j
    have := hA (i + 1) hi (fun j => if h : j < i + 1 then v ⟨j, h⟩ else 0) (fun r hr => by
      have := congrFun hM ⟨r, hr⟩
      rw [Matrix.mulVec, dotProduct] at this
      rw [← Fin.sum_univ_eq_sum_range (fun j => A r j * (if h : j < i + 1 then v ⟨j, h⟩ else 0))]
      simp only [Fin.is_lt, dif_pos, Fin.eta]
      exact this) j j.2
    simp only [Fin.is_lt, dif_pos, Fin.eta] at this
    exact this

example : ∃ L U : ℕ → ℕ → ℝ, doolittle (fun i j => if i = j then 2 else 0) 3 3 = (L, U) ∧ U 2 2 ≠ 0 := by
  refine ⟨_, _, rfl, C25_pivots _ 3 _ _ rfl ?_ 2 (by norm_num)⟩
  intro k _ z hz c hc
  have := hz c hc
  simp only [ite_mul, zero_mul] at this
  rw [sum_ite_eq, if_pos (mem_range.2 hc)] at this
  linarith

/-! ### The least-squares problem -/

section
variable {p m n : ℕ} {u : ℕ → ℝ} {U : ℕ → ℝ}

/-- What the proofs use about the knots and parameters. -/
structure Setting (p m n : ℕ) (u U : ℕ → ℝ) : Prop where
  simple : SimpleKnots p n U
  par : Params m u
  zero : ∀ k ≤ p, U k = 0
  one : ∀ k, n ≤ k → U k = 1
  whitney : ∃ g : ℕ → ℕ, (∀ i, 1 ≤ i → i + 1 < n → 1 ≤ g i ∧ g i + 1 < m ∧ U i < u (g i) ∧ u (g i) < U (i + p + 1)) ∧
      ∀ i, 1 ≤ i → i + 2 < n → g i < g (i + 1)

lemma setting_of (hp : 1 ≤ p) (hpn : p < n) (hnm : n ≤ m) (hu : Params m u) : Setting p m n u (kvFun (knotVector2 p m n u)) := by
  obtain ⟨hl, -, -, -, -, -, g, hg, hg'⟩ := C108_approximation_knots hp hpn hnm hu
  have hk : ∀ k, k < n + p + 1 → (knotVector2 p m n u).getD k 0 = kvFun (knotVector2 p m n u) k := by
    intro k hk
    rw [kvFun_lt _ _ (by omega), List.getD_eq_getElem _ _ (by omega)]
  refine ⟨knotVector2_simple hp hpn hnm hu, hu, fun k h => ?_, fun k h => ?_, g, fun i h1 h2 => ?_, hg'⟩
  · rw [knot2_of, if_neg (by omega), if_neg (by omega)]
  · rw [knot2_of, if_pos h]
  · rw [← hk i (by omega), ← hk _ (by omega)]; exact hg i h1 h2

variable (S : Setting p m n u U)
include S

lemma Setting.basis {k : ℕ} (h1 : 1 ≤ k) (h2 : k + 1 < m) (i : ℕ) : basisFunctionOne p U (n + p + 1) i (u k) = coxDeBoor U (u k) p i := by
  refine C20_one p U S.simple.mono (n + p + 1) i (u k) ?_
  have a := S.par.pos h1 (by omega)
  have b := S.par.lt_one h2
  rintro (⟨-, h⟩ | ⟨-, h⟩)
  · rw [S.zero 0 (by omega)] at h; linarith
  · rw [S.one _ (by omega)] at h; linarith

lemma Setting.curve {V : Type*} [AddCommGroup V] [Module ℝ V] {k : ℕ} (h1 : 1 ≤ k) (h2 : k + 1 < m) (a : ℕ → V) :
    curvePoint p U a n (u k) = ∑ i ∈ range n, coxDeBoor U (u k) p i • a i := by
  refine C21_eval_spec p U S.simple.mono a n (u k) S.simple.pn ?_ ?_
  · rw [S.zero p le_rfl]; exact (S.par.pos h1 (by omega)).le
  · rw [S.one n le_rfl]; exact S.par.lt_one h2

/-- A spline with null ends that vanishes at the inner data parameters is null. -/
lemma Setting.null (a : ℕ → ℝ) (ha : a 0 = 0) (hb : a (n - 1) = 0) (h : ∀ k, 1 ≤ k → k + 1 < m → ∑ i ∈ range n, coxDeBoor U (u k) p i * a i = 0) :
    ∀ j < n, a j = 0 := by
  obtain ⟨g, hg, hg'⟩ := S.whitney
  refine S.simple.whitney a (fun i => u (g i)) (fun i h1 h2 => (hg i h1 h2).2.2) (fun i h1 h2 => ?_) ha hb (fun i h1 h2 => ?_)
  · obtain ⟨-, b, -⟩ := hg (i + 1) (by omega) (by omega)
    exact S.par.strict (hg' i h1 h2) (by omega)
  · obtain ⟨b, c, -⟩ := hg i h1 h2
    rw [S.curve b c]
    exact h (g i) b c

/-- The sum of a spline: its ends and its inner control points. -/
lemma Setting.split {V : Type*} [AddCommGroup V] (hn : 3 ≤ n) (f : ℕ → V) : ∑ i ∈ range n, f i = f 0 + f (n - 1) + ∑ c ∈ range (n - 2), f (c + 1) := by
  obtain ⟨q, rfl⟩ : ∃ q, n = q + 2 := ⟨n - 2, by omega⟩
  rw [sum_range_succ, sum_range_succ']
  rw [show q + 2 - 1 = q + 1 by omega, show q + 2 - 2 = q by omega]
  abel

lemma Setting.pivots (hn : 3 ≤ n) (i : ℕ) (hi : i < n - 2) : (doolittle (normalMatrix p m n U u) (n - 2) (n - 2)).2 i i ≠ 0 := by
  refine C25_pivots _ (n - 2) _ _ rfl (fun k hk z hz => ?_) i hi
  -- the quadratic form is a sum of squares
  have hq : ∑ d ∈ range (m - 2), (∑ c ∈ range k, matrixN p n U u d c * z c) ^ 2 = 0 := by
    calc ∑ d ∈ range (m - 2), (∑ c ∈ range k, matrixN p n U u d c * z c) ^ 2
        = ∑ d ∈ range (m - 2), ∑ r ∈ range k, ∑ c ∈ range k, z r * (matrixN p n U u d r * matrixN p n U u d c * z c) := by
          refine sum_congr rfl fun d _ => ?_
          rw [sq, sum_mul_sum]
          refine sum_congr rfl fun r _ => sum_congr rfl fun c _ => ?_
          ring
      _ = ∑ r ∈ range k, z r * ∑ c ∈ range k, normalMatrix p m n U u r c * z c := by
          rw [sum_comm]
          refine sum_congr rfl fun r _ => ?_
          rw [sum_comm, mul_sum]
          refine sum_congr rfl fun c _ => ?_
          rw [normalMatrix, sum_mul, mul_sum]
      _ = 0 := by
          refine sum_eq_zero fun r hr => ?_
          rw [hz r (mem_range.1 hr), mul_zero]
  have hzero : ∀ d < m - 2, ∑ c ∈ range k, matrixN p n U u d c * z c = 0 := by
    intro d hd
    have := (sum_eq_zero_iff_of_nonneg fun d _ => sq_nonneg _).1 hq d (mem_range.2 hd)
    exact pow_eq_zero_iff two_ne_zero |>.1 this
  have hnull := S.null (fun j => if 1 ≤ j ∧ j ≤ k then z (j - 1) else 0) (if_neg (by omega)) (if_neg (by omega)) (fun d h1 h2 => by
    rw [S.split hn]
    rw [if_neg (by omega), if_neg (by omega), mul_zero, mul_zero, zero_add, zero_add]
    have := hzero (d - 1) (by omega)
    refine Eq.trans ?_ this
    symm
    have hsub : range k ⊆ range (n - 2) := range_subset_range.2 hk
    rw [← sum_subset hsub (f := fun c => coxDeBoor U (u d) p (c + 1) * if 1 ≤ c + 1 ∧ c + 1 ≤ k then z (c + 1 - 1) else 0)]
    · refine sum_congr rfl fun c hc => ?_
      rw [if_pos ⟨by omega, by have := mem_range.1 hc; omega⟩, Nat.add_sub_cancel, matrixN, Nat.sub_add_cancel h1, S.basis h1 h2]
    · intro c _ hc
      rw [if_neg (by have := mem_range.not.1 hc; omega), mul_zero])
  intro c hc
  have := hnull (c + 1) (by omega)
  rwa [if_pos ⟨by omega, by omega⟩, Nat.add_sub_cancel] at this

/-- The normal equations. -/
lemma Setting.normal {d : ℕ} (hn : 3 ≤ n) (P : ℕ → Pt d) (j : ℕ) (h1 : 1 ≤ j) (h2 : j + 1 < n) (k : Fin d) :
    ∑ q ∈ range (m - 2), coxDeBoor U (u (q + 1)) p j * (curvePoint p U (approxPoints p m n U u P) n (u (q + 1)) k - P (q + 1) k) = 0 := by
  obtain ⟨x, hx⟩ : ∃ x, x = backwardSub (doolittle (normalMatrix p m n U u) (n - 2) (n - 2)).2
    (forwardSub (doolittle (normalMatrix p m n U u) (n - 2) (n - 2)).1 (fun i => vectorR p m n U u P i k) (n - 2)) (n - 2) (n - 2) := ⟨_, rfl⟩
  have hsolve := C25_solve (normalMatrix p m n U u) (n - 2) (fun i => vectorR p m n U u P i k) _ _ rfl (fun i hi => S.pivots hn i hi) (j - 1) (by omega)
  rw [← hx] at hsolve
  have hpt : ∀ c < n - 2, approxPoints p m n U u P (c + 1) k = x c := by
    intro c hc
    unfold approxPoints
    rw [if_neg (by omega), if_neg (by omega), hx, Nat.add_sub_cancel]
  have hend : approxPoints p m n U u P 0 = P 0 ∧ approxPoints p m n U u P (n - 1) = P (m - 1) := by
    unfold approxPoints
    dsimp only
    rw [if_pos rfl, if_neg (by omega), if_pos rfl]
    exact ⟨rfl, rfl⟩
  have hcurve : ∀ q < m - 2, curvePoint p U (approxPoints p m n U u P) n (u (q + 1)) k - P (q + 1) k =
      (∑ c ∈ range (n - 2), matrixN p n U u q c * x c) - restK p m n U u P q k := by
    intro q hq
    rw [curvePoint_coord S.simple.pn, S.curve (by omega) (by omega), S.split hn, hend.1, hend.2]
    unfold restK
    rw [S.basis (by omega) (by omega), S.basis (by omega) (by omega)]
    have : ∑ c ∈ range (n - 2), coxDeBoor U (u (q + 1)) p (c + 1) • approxPoints p m n U u P (c + 1) k = ∑ c ∈ range (n - 2), matrixN p n U u q c * x c := by
      refine sum_congr rfl fun c hc => ?_
      rw [hpt c (mem_range.1 hc), matrixN, S.basis (by omega) (by omega), smul_eq_mul]
    rw [this]
    simp only [Pi.sub_apply, Pi.smul_apply, smul_eq_mul]
    ring
  have hj : j - 1 + 1 = j := by omega
  have e1 : ∑ q ∈ range (m - 2), coxDeBoor U (u (q + 1)) p j * (∑ c ∈ range (n - 2), matrixN p n U u q c * x c) =
      ∑ c ∈ range (n - 2), normalMatrix p m n U u (j - 1) c * x c := by
    simp only [mul_sum]
    rw [sum_comm]
    refine sum_congr rfl fun c _ => ?_
    rw [normalMatrix, sum_mul]
    refine sum_congr rfl fun q hq => ?_
    have := mem_range.1 hq
    rw [matrixN, matrixN, hj, S.basis (i := j) (by omega) (by omega)]
    ring
  have e2 : ∑ q ∈ range (m - 2), coxDeBoor U (u (q + 1)) p j * restK p m n U u P q k = vectorR p m n U u P (j - 1) k := by
    unfold vectorR
    rw [Finset.sum_apply]
    refine sum_congr rfl fun q hq => ?_
    have := mem_range.1 hq
    rw [hj, S.basis (i := j) (by omega) (by omega)]
    rfl
  rw [sum_congr rfl fun q hq => by rw [hcurve q (mem_range.1 hq), mul_sub], sum_sub_distrib, e1, e2, hsolve, sub_self]

end

/-- **C110** Specification: the sum of the squares of the distances of the data points to the points of the B-spline at their parameters. -/
noncomputable def misfit {d : ℕ} (P : List (Pt d)) (u : ℕ → ℝ) (f : ℝ → Pt d) : ℝ := ∑ i ∈ range P.length, ∑ k, (f (u i) k - P.getD i 0 k) ^ 2

lemma Setting.least {d p n : ℕ} {u U : ℕ → ℝ} (P : List (Pt d)) (S : Setting p P.length n u U) (hn : 3 ≤ n) (Q : ℕ → Pt d)
    (h0 : Q 0 = P.getD 0 0) (h1 : Q (n - 1) = P.getD (P.length - 1) 0) :
    misfit P u (curvePoint p U (approxPoints p P.length n U u (cpFun P)) n) ≤ misfit P u (curvePoint p U Q n) ∧
    (misfit P u (curvePoint p U (approxPoints p P.length n U u (cpFun P)) n) = misfit P u (curvePoint p U Q n) →
      ∀ j < n, Q j = approxPoints p P.length n U u (cpFun P) j) := by
  have hm := S.par.two
  have hpn := S.simple.pn
  obtain ⟨A, hA⟩ : ∃ A, A = approxPoints p P.length n U u (cpFun P) := ⟨_, rfl⟩
  have hA0 : A 0 = P.getD 0 0 := by rw [hA]; unfold approxPoints; dsimp only; rw [if_pos rfl]; rfl
  have hA1 : A (n - 1) = P.getD (P.length - 1) 0 := by rw [hA]; unfold approxPoints; dsimp only; rw [if_neg (by omega), if_pos rfl]; rfl
  have hnorm := fun j h1 h2 k => S.normal hn (cpFun P) j h1 h2 k
  rw [← hA] at hnorm ⊢
  -- only the inner data points count
  have inner : ∀ B : ℕ → Pt d, B 0 = P.getD 0 0 → B (n - 1) = P.getD (P.length - 1) 0 →
      misfit P u (curvePoint p U B n) = ∑ q ∈ range (P.length - 2), ∑ k, (curvePoint p U B n (u (q + 1)) k - P.getD (q + 1) 0 k) ^ 2 := by
    intro B b0 b1
    obtain ⟨e0, e1⟩ := C21_end_points p n U S.simple.clamped B
    obtain ⟨q, hq⟩ : ∃ q, P.length = q + 2 := ⟨P.length - 2, by omega⟩
    unfold misfit
    rw [hq, sum_range_succ, sum_range_succ', show q + 2 - 2 = q by omega]
    have z0 : curvePoint p U B n (u 0) = P.getD 0 0 := by rw [S.par.zero, ← S.zero p le_rfl, e0, b0]
    have z1 : curvePoint p U B n (u (q + 1)) = P.getD (q + 1) 0 := by
      have t := S.par.one
      rw [show P.length - 1 = q + 1 by omega] at t b1
      rw [t, ← S.one n le_rfl, e1, b1]
    rw [z0, z1]
    simp
  rw [inner A hA0 hA1, inner Q h0 h1]
  obtain ⟨D, hD⟩ : ∃ D : ℕ → Pt d, D = fun j => Q j - A j := ⟨_, rfl⟩
  have D0 : D 0 = 0 := by rw [hD]; simp [h0, hA0]
  have D1 : D (n - 1) = 0 := by rw [hD]; simp [h1, hA1]
  have hQ : ∀ (t : ℝ) (k : Fin d), curvePoint p U Q n t k = curvePoint p U A n t k + curvePoint p U D n t k := by
    intro t k
    rw [curvePoint_eq p U Q n t hpn, curvePoint_eq p U A n t hpn, curvePoint_eq p U D n t hpn, ← Pi.add_apply, ← sum_add_distrib]
    have e : ∀ i ∈ range n, bsp U (findSpanLinear p U n t) t p i • Q i =
        bsp U (findSpanLinear p U n t) t p i • A i + bsp U (findSpanLinear p U n t) t p i • D i := by
      intro i _
      rw [hD, ← smul_add, add_sub_cancel]
    rw [sum_congr rfl e]
  -- the cross term
  have cross : ∀ k : Fin d, ∑ q ∈ range (P.length - 2), (curvePoint p U A n (u (q + 1)) k - P.getD (q + 1) 0 k) * curvePoint p U D n (u (q + 1)) k = 0 := by
    intro k
    have e : ∀ q ∈ range (P.length - 2), (curvePoint p U A n (u (q + 1)) k - P.getD (q + 1) 0 k) * curvePoint p U D n (u (q + 1)) k =
        ∑ j ∈ range n, D j k * (coxDeBoor U (u (q + 1)) p j * (curvePoint p U A n (u (q + 1)) k - P.getD (q + 1) 0 k)) := by
      intro q hq
      have := mem_range.1 hq
      rw [curvePoint_coord hpn U D, S.curve (a := fun i => D i k) (by omega) (by omega), mul_sum]
      refine sum_congr rfl fun j _ => ?_
      rw [smul_eq_mul]; ring
    rw [sum_congr rfl e, sum_comm]
    refine sum_eq_zero fun j hj => ?_
    rw [← mul_sum]
    by_cases j0 : j = 0
    · rw [j0, D0, Pi.zero_apply, zero_mul]
    by_cases j1 : j = n - 1
    · rw [j1, D1, Pi.zero_apply, zero_mul]
    have := mem_range.1 hj
    have t := hnorm j (by omega) (by omega) k
    unfold cpFun at t
    rw [t, mul_zero]
  have key : ∑ q ∈ range (P.length - 2), ∑ k, (curvePoint p U Q n (u (q + 1)) k - P.getD (q + 1) 0 k) ^ 2 =
      ∑ q ∈ range (P.length - 2), ∑ k, (curvePoint p U A n (u (q + 1)) k - P.getD (q + 1) 0 k) ^ 2 +
      ∑ q ∈ range (P.length - 2), ∑ k, curvePoint p U D n (u (q + 1)) k ^ 2 := by
    have e : ∀ q ∈ range (P.length - 2), ∑ k, (curvePoint p U Q n (u (q + 1)) k - P.getD (q + 1) 0 k) ^ 2 =
        (∑ k, (curvePoint p U A n (u (q + 1)) k - P.getD (q + 1) 0 k) ^ 2 + ∑ k, curvePoint p U D n (u (q + 1)) k ^ 2) +
        ∑ k, 2 * ((curvePoint p U A n (u (q + 1)) k - P.getD (q + 1) 0 k) * curvePoint p U D n (u (q + 1)) k) := by
      intro q _
      rw [← sum_add_distrib, ← sum_add_distrib]
      refine sum_congr rfl fun k _ => ?_
      rw [hQ]; ring
    rw [sum_congr rfl e, sum_add_distrib, sum_add_distrib]
    have : ∑ q ∈ range (P.length - 2), ∑ k, 2 * ((curvePoint p U A n (u (q + 1)) k - P.getD (q + 1) 0 k) * curvePoint p U D n (u (q + 1)) k) = 0 := by
      rw [sum_comm]
      refine sum_eq_zero fun k _ => ?_
      rw [← mul_sum, cross k, mul_zero]
    rw [this, add_zero]
  have hpos : 0 ≤ ∑ q ∈ range (P.length - 2), ∑ k, curvePoint p U D n (u (q + 1)) k ^ 2 := sum_nonneg fun _ _ => sum_nonneg fun _ _ => sq_nonneg _
  rw [key]
  refine ⟨by linarith, fun heq j hj => ?_⟩
  have hz : ∑ q ∈ range (P.length - 2), ∑ k, curvePoint p U D n (u (q + 1)) k ^ 2 = 0 := by linarith
  funext k
  have := S.null (fun j => D j k) (by rw [D0]; rfl) (by rw [D1]; rfl) (fun q h1 h2 => by
    have t := (sum_eq_zero_iff_of_nonneg fun _ _ => sum_nonneg fun _ _ => sq_nonneg _).1 hz (q - 1) (mem_range.2 (by omega))
    have t2 := (sum_eq_zero_iff_of_nonneg fun _ _ => sq_nonneg _).1 t k (mem_univ k)
    have t3 := pow_eq_zero_iff two_ne_zero |>.1 t2
    rw [Nat.sub_add_cancel h1, curvePoint_coord hpn U D, S.curve h1 h2] at t3
    exact t3) j hj
  rw [hD] at this
  have t : Q j k - A j k = 0 := this
  linarith

/-- **C110** (full statement) for distinct successive points, a degree less than their number, and a number of control points that is given (more than the
degree, at most the number of points) or left to its default, a curve is made, with more control points than the degree, from the first point to the last. -/
def C110_approximation_full_statement : Prop :=
  ∀ (d : ℕ) (P : List (Pt d)) (p : ℕ) (cen : Bool) (size : Option ℕ), 1 ≤ p → p < P.length → P.Nodup → (∀ n, size = some n → p < n ∧ n ≤ P.length) →
    ∃ c, fromPointsApproximation P p cen size = .ok c ∧ c.degree < c.ctrlpts.length ∧ c.eval 0 = P.getD 0 0 ∧ c.eval 1 = P.getD (P.length - 1) 0

/-- **C110** what holds: with at least three control points, more than the degree (given, or by default one less than the points), successive points being
distinct, each gap more than 1e-15 of the total times the number of knot spans: the curve made has the degree and the number of control points asked for,
the knot vector of C108, starts at the first point and ends at the last one, and among all B-splines with this knot vector and these ends it is the only one with the least sum of
squared distances to the data points.  Missing: see the counterexamples. -/
theorem C110_approximation_partial {d : ℕ} (P : List (Pt d)) (p n : ℕ) (cen : Bool) (size : Option ℕ) (hsize : size.getD (P.length - 1) = n) (hp : 1 ≤ p)
    (hpn : p < n) (hnm : n ≤ P.length) (hn : 3 ≤ n)
    (htol : ∀ i, i + 1 < P.length → (n - p : ℕ) * (1 / 10 ^ 15) * ∑ k ∈ range (P.length - 1), gap cen (P.getD k 0) (P.getD (k + 1) 0) <
      gap cen (P.getD i 0) (P.getD (i + 1) 0)) :
    ∃ c u, fromPointsApproximation P p cen size = .ok c ∧ paramsCurve cen P = some u ∧ Params P.length u ∧
      c.degree = p ∧ c.ctrlpts.length = n ∧ c.weights = none ∧ c.knotvector = knotVector2 p P.length n u ∧ c.knotvector.length = n + p + 1 ∧ c.knotvector.Pairwise (· ≤ ·) ∧
      c.eval 0 = P.getD 0 0 ∧ c.eval 1 = P.getD (P.length - 1) 0 ∧
      ∀ Q : ℕ → Pt d, Q 0 = P.getD 0 0 → Q (n - 1) = P.getD (P.length - 1) 0 →
        misfit P u c.eval ≤ misfit P u (curvePoint p (kvFun c.knotvector) Q n) ∧
        (misfit P u c.eval = misfit P u (curvePoint p (kvFun c.knotvector) Q n) → ∀ j < n, Q j = c.ctrlpts.getD j 0) := by
  obtain ⟨hnone, hsome⟩ := C108_params cen P
  have hne : ∀ i, i + 1 < P.length → P.getD i 0 ≠ P.getD (i + 1) 0 := by
    intro i hi e
    have h1 := htol i hi
    rw [(gap_eq_zero cen _ _).2 e] at h1
    have h2 : 0 ≤ ∑ k ∈ range (P.length - 1), gap cen (P.getD k 0) (P.getD (k + 1) 0) := sum_nonneg fun k _ => gap_nonneg _ _ _
    have : 0 ≤ (n - p : ℕ) * (1 / 10 ^ 15) * ∑ k ∈ range (P.length - 1), gap cen (P.getD k 0) (P.getD (k + 1) 0) := mul_nonneg (by positivity) h2
    linarith
  obtain ⟨u, hu⟩ : ∃ u, paramsCurve cen P = some u := by
    cases h : paramsCurve cen P with
    | none => exact absurd (hnone.1 h 0 (by omega)) (hne 0 (by omega))
    | some u => exact ⟨u, rfl⟩
  obtain ⟨hu0, hu1, ⟨T, hT, hTe, hprop⟩, -, -, hpar⟩ := hsome u hu
  have hP := hpar hne
  have S := setting_of hp hpn hnm hP
  obtain ⟨hl, -, -, -, hsort, -⟩ := C108_approximation_knots hp hpn hnm hP
  have hstep : ∀ i, i + 1 < P.length → u i + (n - p : ℕ) * (1 / 10 ^ 15) < u (i + 1) := by
    intro i hi
    have h1 := htol i hi
    rw [← hTe, ← hprop i] at h1
    have := lt_of_mul_lt_mul_right h1 hT.le
    linarith
  have hsep : Separated (1 / 10 ^ 15) (knotVector2 p P.length n u) :=
    separated_of_step hpn hsort S.zero S.one fun i h1 h2 => knot2_step hp hpn hnm hP (by positivity) hstep i h1 h2
  have hnil : knotVector2 p P.length n u ≠ [] := by intro e; rw [e] at hl; simp at hl
  obtain ⟨c1, c2, c3, c4, c5⟩ := toCurve_spec (d := d) hpn hsort hsep hnil (S.zero 0 (by omega)) (S.one _ (by omega))
    (approxPoints p P.length n (kvFun (knotVector2 p P.length n u)) u (cpFun P))
  obtain ⟨e0, e1⟩ := C21_end_points p n _ S.simple.clamped (approxPoints p P.length n (kvFun (knotVector2 p P.length n u)) u (cpFun P))
  rw [S.zero p le_rfl] at e0
  rw [S.one n le_rfl] at e1
  refine ⟨_, u, ?_, hu, hP, c1, by rw [c2]; simp, c3, c4, by rw [c4, hl], by rw [c4]; exact hsort, ?_, ?_, fun Q hQ0 hQ1 => ?_⟩
  · unfold fromPointsApproximation
    dsimp only
    rw [hsize, if_neg (by omega), if_neg (by omega), hu]
    dsimp only
    exact if_neg (by rintro ⟨i, hi, h0⟩; exact S.pivots hn i hi h0)
  · rw [c5, e0]; unfold approxPoints; dsimp only; rw [if_pos rfl]; rfl
  · rw [c5, e1]; unfold approxPoints; dsimp only; rw [if_neg (by omega), if_pos rfl]; rfl
  · have hev : misfit P u (toCurve p n (knotVector2 p P.length n u) (approxPoints p P.length n (kvFun (knotVector2 p P.length n u)) u (cpFun P))).eval =
        misfit P u (curvePoint p (kvFun (knotVector2 p P.length n u)) (approxPoints p P.length n (kvFun (knotVector2 p P.length n u)) u (cpFun P)) n) := by
      unfold misfit
      refine sum_congr rfl fun i _ => ?_
      rw [c5]
    rw [hev, c4]
    obtain ⟨l1, l2⟩ := S.least P hn Q hQ0 hQ1
    refine ⟨l1, fun e j hj => ?_⟩
    rw [l2 e j hj, c2, List.getD_eq_getElem _ _ (by simpa using hj), List.getElem_map, List.getElem_range]

/-- The closed triangle is approximated with three control points, which is the default. -/
example : ∃ c, fromPointsApproximation triangle 2 false none = .ok c ∧ c.ctrlpts.length = 3 := by
  obtain ⟨c, u, h, -, -, -, h2, -⟩ := C110_approximation_partial triangle 2 3 false none rfl (by norm_num) (by norm_num) (by decide) (by norm_num) (by
    intro i hi
    have := triangle_tol i hi
    simpa using this)
  exact ⟨c, h, h2⟩

/-- **C110** the full statement is false: two control points (a line segment, of degree 1) are refused with an `IndexError`. -/
theorem C110_two_control_points_counterexample : ¬ C110_approximation_full_statement := by
  intro h
  obtain ⟨c, hc, -⟩ := h 1 [![0], ![1], ![2]] 1 false (some 2) le_rfl (by decide) (by
    have e : ∀ a b : ℝ, (![a] : Pt 1) = ![b] → a = b := fun a b h => congrFun h 0
    have : ([![0], ![1], ![2]] : List (Pt 1)) = [0, 1, 2].map fun a : ℝ => (![a] : Pt 1) := rfl
    rw [this]
    exact List.Nodup.map e (by norm_num)) (by intro n hn; obtain rfl := Option.some.inj hn; decide)
  unfold fromPointsApproximation at hc
  simp at hc

/-- **C110** the full statement is also false with the default number of control points: for one point more than the degree this number is the degree, and
what is made is no B-spline of this degree. -/
theorem C110_default_size_counterexample : ¬ C110_approximation_full_statement := by
  intro h
  obtain ⟨c, hc, hlt, -⟩ := h 1 [![0], ![1], ![2], ![3]] 3 false none (by norm_num) (by decide) (by
    have e : ∀ a b : ℝ, (![a] : Pt 1) = ![b] → a = b := fun a b h => congrFun h 0
    have : ([![0], ![1], ![2], ![3]] : List (Pt 1)) = [0, 1, 2, 3].map fun a : ℝ => (![a] : Pt 1) := rfl
    rw [this]
    exact List.Nodup.map e (by norm_num)) (by intro n hn; cases hn)
  unfold fromPointsApproximation at hc
  dsimp only [Option.getD_none] at hc
  rw [if_neg (by simp), if_neg (by simp)] at hc
  split at hc
  · cases hc
  · split_ifs at hc
    have hc' := (Outcome.ok.injEq _ _).mp hc
    rw [← hc'] at hlt
    simp [toCurve, BCurve.new] at hlt

end Volmdlr.Fit
