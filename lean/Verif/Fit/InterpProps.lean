import Verif.Fit.ParamProps
import Mathlib.LinearAlgebra.Matrix.ToLinearEquiv

/-!
# Interpolation of points by a curve (C109)
-/

namespace Volmdlr.Fit
open Finset

/-! ### The linear system -/

lemma coeffMatrix_eq {p n : ℕ} (hpn : p < n) (U u : ℕ → ℝ) (i j : ℕ) :
    coeffMatrix p U u n i j = bsp U (findSpanLinear p U n (u i)) (u i) p j := by
  obtain ⟨h1, h2, -⟩ := C19_linear p n U (u i) hpn
  unfold coeffMatrix
  dsimp only
  split_ifs with h
  · rw [basisOuter_eq_bsp U _ (u i) p h1 _ (by omega), show findSpanLinear p U n (u i) - p + (j - (findSpanLinear p U n (u i) - p)) = j by omega]
  · rcases Nat.lt_or_ge j (findSpanLinear p U n (u i) - p) with h' | h'
    · rw [bsp_zero_of_gt _ _ _ _ _ (by omega)]
    · rw [bsp_zero_of_lt _ _ _ _ _ (by omega)]

/-- A row of the system: the point of the curve at the parameter. -/
lemma coeffMatrix_sum {p n : ℕ} (hpn : p < n) {V : Type*} [AddCommGroup V] [Module ℝ V] (U u : ℕ → ℝ) (x : ℕ → V) (i : ℕ) :
    ∑ j ∈ range n, coeffMatrix p U u n i j • x j = curvePoint p U x n (u i) := by
  rw [curvePoint_eq p U x n (u i) hpn]
  exact sum_congr rfl fun j _ => by rw [coeffMatrix_eq hpn]

lemma curvePoint_coord {d p n : ℕ} (hpn : p < n) (U : ℕ → ℝ) (x : ℕ → Pt d) (t : ℝ) (k : Fin d) :
    curvePoint p U x n t k = curvePoint p U (fun i => x i k) n t := by
  rw [curvePoint_eq p U x n t hpn, curvePoint_eq p U (fun i => x i k) n t hpn, Finset.sum_apply]
  rfl

lemma luSolve_spec {d : ℕ} (A : ℕ → ℕ → ℝ) (n : ℕ) (b : ℕ → Pt d)
    (hA : ∀ x : ℕ → ℝ, (∀ i < n, ∑ j ∈ range n, A i j * x j = 0) → ∀ j < n, x j = 0) :
    ∃ x, luSolve A n b = some x ∧ ∀ i < n, ∑ j ∈ range n, A i j • x j = b i := by
  classical
  have hdet : (Matrix.of fun i j : Fin n => A i j).det ≠ 0 := by
    intro h0
    obtain ⟨v, hv, hM⟩ := Matrix.exists_mulVec_eq_zero_iff.2 h0
    apply hv
    funext j
    have := hA (fun i => if h : i < n then v ⟨i, h⟩ else 0) (fun i hi => by
      have := congrFun hM ⟨i, hi⟩
      rw [Matrix.mulVec, dotProduct] at this
      rw [← Fin.sum_univ_eq_sum_range (fun j => A i j * (if h : j < n then v ⟨j, h⟩ else 0))]
      simpa using this) j j.2
    simpa using this
  refine ⟨_, if_neg hdet, fun i hi => ?_⟩
  rw [← Fin.sum_univ_eq_sum_range (fun j => A i j • (if h : j < n then
    ∑ k : Fin n, (Matrix.of fun i j : Fin n => A i j)⁻¹ ⟨j, h⟩ k • b k else 0))]
  simp only [Fin.is_lt, dif_pos, Fin.eta]
  simp only [smul_sum, smul_smul]
  rw [sum_comm]
  have hinv : (Matrix.of fun i j : Fin n => A i j) * (Matrix.of fun i j : Fin n => A i j)⁻¹ = 1 :=
    Matrix.mul_nonsing_inv _ (isUnit_iff_ne_zero.2 hdet)
  have hk : ∀ k : Fin n, ∑ j : Fin n, (A i j * (Matrix.of fun i j : Fin n => A i j)⁻¹ j k) • b k = if (⟨i, hi⟩ : Fin n) = k then b k else 0 := by
    intro k
    rw [← sum_smul]
    have := congrFun (congrFun hinv ⟨i, hi⟩) k
    rw [Matrix.mul_apply, Matrix.one_apply] at this
    simp only [Matrix.of_apply] at this
    rw [this]
    split_ifs <;> simp
  rw [sum_congr rfl fun k _ => hk k]
  simp

/-- A spline with these knots that vanishes at the parameters is null. -/
lemma interp_unique {p n : ℕ} {U : ℕ → ℝ} (hs : SimpleKnots p n U) {u : ℕ → ℝ} (hu : Params n u) (h0 : U p = 0) (h1 : U n = 1)
    (hw : ∀ i, 1 ≤ i → i + 1 < n → U i < u i ∧ u i < U (i + p + 1)) (a : ℕ → ℝ) (hz : ∀ i < n, curvePoint p U a n (u i) = 0) : ∀ j < n, a j = 0 := by
  have hpn := hs.pn
  have hp := hs.hp
  obtain ⟨e0, e1⟩ := C21_end_points p n U hs.clamped a
  refine hs.whitney a u hw (fun i _ h => hu.lt i (by omega)) ?_ ?_ (fun i _ h => hz i (by omega))
  · have := hz 0 (by omega)
    rw [hu.zero, ← h0, e0] at this
    rw [this, h0]
  · have := hz (n - 1) (by omega)
    rwa [hu.one, ← h1, e1] at this

/-! ### The curve that is made -/

/-- A curve made from a knot vector from 0 to 1 whose distinct knots are more than the tolerance apart has this knot vector. -/
lemma toCurve_spec {d p n : ℕ} (hpn : p < n) {kv : List ℝ} (hs : kv.Pairwise (· ≤ ·)) (hsep : Separated (1 / 10 ^ 15) kv) (hne : kv ≠ [])
    (h0 : kvFun kv 0 = 0) (h1 : kvFun kv (kv.length - 1) = 1) (x : ℕ → Pt d) :
    (toCurve p n kv x).degree = p ∧ (toCurve p n kv x).ctrlpts = (List.range n).map x ∧ (toCurve p n kv x).weights = none ∧
    (toCurve p n kv x).knotvector = kv ∧ ∀ t, (toCurve p n kv x).eval t = curvePoint p (kvFun kv) x n t := by
  have hkv : (toCurve p n kv x).knotvector = kv := by
    unfold toCurve
    dsimp only
    rw [new_knotvector (1 / 10 ^ 15) (by positivity) kv hs hsep hne, h0, h1]
    simp
  refine ⟨rfl, rfl, rfl, hkv, fun t => ?_⟩
  have : (toCurve p n kv x).eval t =
      curvePoint p (kvFun (toCurve p n kv x).knotvector) (cpFun ((List.range n).map x)) ((List.range n).map x).length t := rfl
  rw [this, hkv, List.length_map, List.length_range]
  refine curvePoint_congr p _ _ _ n hpn (fun i hi => ?_) t
  unfold cpFun
  rw [List.getD_eq_getElem _ _ (by simpa using hi)]
  simp

lemma separated_of_step {p n : ℕ} {kv : List ℝ} (hpn : p < n) {e : ℝ} (hs : kv.Pairwise (· ≤ ·))
    (hz : ∀ k ≤ p, kvFun kv k = 0) (ho : ∀ k, n ≤ k → kvFun kv k = 1) (h : ∀ i, p ≤ i → i < n → kvFun kv i + e < kvFun kv (i + 1)) : Separated e kv := by
  have mono := kvFun_mono kv hs
  have key : ∀ i j, i < j → kvFun kv i ≠ kvFun kv j → kvFun kv i + e < kvFun kv j := by
    intro i j hij hne
    by_cases hj : j ≤ p
    · exact absurd (by rw [hz i (by omega), hz j hj]) hne
    · by_cases hi : n ≤ i
      · exact absurd (by rw [ho i hi, ho j (by omega)]) hne
      · by_cases hip : p ≤ i
        · exact (h i hip (by omega)).trans_le (mono (by omega))
        · rw [hz i (by omega), ← hz p le_rfl]
          exact (h p le_rfl hpn).trans_le (mono (by omega))
  intro a ha b hb hab
  obtain ⟨i, hi, rfl⟩ := List.getElem_of_mem ha
  obtain ⟨j, hj, rfl⟩ := List.getElem_of_mem hb
  rw [← kvFun_lt kv i hi, ← kvFun_lt kv j hj] at *
  rcases Nat.lt_trichotomy i j with h' | h' | h'
  · have := key i j h' hab
    rw [abs_sub_comm, lt_abs]; left; linarith
  · exact absurd (by rw [h']) hab
  · have := key j i h' (Ne.symm hab)
    rw [lt_abs]; left; linarith

/-! ### The property -/

/-- **C109** Specification: the curve passes through the points in order, at parameters that increase from 0 to 1 in proportion to the distances (or their
square roots). -/
def PassesThrough {d : ℕ} (cen : Bool) (P : List (Pt d)) (p : ℕ) (c : BCurve ℝ (Pt d)) : Prop :=
  c.degree = p ∧ c.ctrlpts.length = P.length ∧ c.weights = none ∧ c.knotvector.length = P.length + p + 1 ∧
  ∃ u : ℕ → ℝ, u 0 = 0 ∧ u (P.length - 1) = 1 ∧ (∀ i, i + 1 < P.length → u i < u (i + 1)) ∧
    (∃ T > 0, ∀ i, i + 1 < P.length → (u (i + 1) - u i) * T = gap cen (P.getD i 0) (P.getD (i + 1) 0)) ∧
    ∀ i < P.length, c.eval (u i) = P.getD i 0

open Classical in
/-- **C109** (full statement) a curve is made through all the points whenever there are more points than the degree and at most one point is repeated. -/
def C109_interpolation_full_statement : Prop :=
  ∀ (d : ℕ) (P : List (Pt d)) (p : ℕ) (cen : Bool), 1 ≤ p → p < P.length → P.length - 1 ≤ P.toFinset.card →
    ∃ c, fromPointsInterpolation P p cen = .ok c ∧ PassesThrough cen P p c

open Classical in
/-- **C109** what holds: when moreover successive points are distinct, each distance (or square root of distance) being more than 1e-15 of the sum of all.
The control points are then the only ones with which this knot vector interpolates the points.  Missing: see the counterexamples. -/
theorem C109_interpolation_partial {d : ℕ} (P : List (Pt d)) (p : ℕ) (cen : Bool) (hp : 1 ≤ p) (hpn : p < P.length)
    (hset : P.length - 1 ≤ P.toFinset.card)
    (htol : ∀ i, i + 1 < P.length → 1 / 10 ^ 15 * ∑ k ∈ range (P.length - 1), gap cen (P.getD k 0) (P.getD (k + 1) 0) < gap cen (P.getD i 0) (P.getD (i + 1) 0)) :
    ∃ c, fromPointsInterpolation P p cen = .ok c ∧ PassesThrough cen P p c ∧
      ∀ Q : ℕ → Pt d, (∀ u, paramsCurve cen P = some u → ∀ i < P.length, curvePoint p (kvFun c.knotvector) Q P.length (u i) = P.getD i 0) →
        ∀ j < P.length, Q j = c.ctrlpts.getD j 0 := by
  obtain ⟨hnone, hsome⟩ := C108_params cen P
  have hne : ∀ i, i + 1 < P.length → P.getD i 0 ≠ P.getD (i + 1) 0 := by
    intro i hi e
    have h1 := htol i hi
    rw [(gap_eq_zero cen _ _).2 e] at h1
    have : 0 ≤ ∑ k ∈ range (P.length - 1), gap cen (P.getD k 0) (P.getD (k + 1) 0) := sum_nonneg fun k _ => gap_nonneg _ _ _
    have : 0 ≤ 1 / 10 ^ 15 * ∑ k ∈ range (P.length - 1), gap cen (P.getD k 0) (P.getD (k + 1) 0) := mul_nonneg (by positivity) this
    linarith
  obtain ⟨u, hu⟩ : ∃ u, paramsCurve cen P = some u := by
    cases h : paramsCurve cen P with
    | none => exact absurd (hnone.1 h 0 (by omega)) (hne 0 (by omega))
    | some u => exact ⟨u, rfl⟩
  obtain ⟨hu0, hu1, ⟨T, hT, hTe, hprop⟩, -, -, hpar⟩ := hsome u hu
  have hP := hpar hne
  have hsimple := knotVector_simple hp hpn hP
  obtain ⟨hl, hz, ho, -, hsort, -⟩ := C108_knots hp hpn hP
  have hkz : ∀ k ≤ p, kvFun (knotVector p P.length u) k = 0 := by
    intro k hk; rw [knot_of _ _ _ _ hpn, if_neg (by omega), if_neg (by omega)]
  have hko : ∀ k, P.length ≤ k → kvFun (knotVector p P.length u) k = 1 := by
    intro k hk; rw [knot_of _ _ _ _ hpn, if_pos hk]
  have huni := interp_unique hsimple hP (hkz p le_rfl) (hko _ le_rfl) (knotVector_whitney hp hpn hP)
  obtain ⟨x, hx, hsol⟩ := luSolve_spec (coeffMatrix p (kvFun (knotVector p P.length u)) u P.length) P.length (cpFun P) (fun y hy => huni y fun i hi => by
    rw [← coeffMatrix_sum hpn]; exact hy i hi)
  have hstep : ∀ i, i + 1 < P.length → u i + 1 / 10 ^ 15 < u (i + 1) := by
    intro i hi
    have h1 := htol i hi
    rw [← hTe, ← hprop i] at h1
    have := lt_of_mul_lt_mul_right h1 hT.le
    linarith
  have hsep : Separated (1 / 10 ^ 15) (knotVector p P.length u) :=
    separated_of_step hpn hsort hkz hko fun i h1 h2 => knot_step hp hpn hP hstep i h1 h2
  have hnil : knotVector p P.length u ≠ [] := by intro e; rw [e] at hl; simp at hl
  obtain ⟨c1, c2, c3, c4, c5⟩ := toCurve_spec (d := d) hpn hsort hsep hnil (hkz 0 (by omega)) (hko _ (by omega)) x
  have hpass : ∀ i < P.length, curvePoint p (kvFun (knotVector p P.length u)) x P.length (u i) = P.getD i 0 := by
    intro i hi
    rw [← coeffMatrix_sum hpn]
    exact hsol i hi
  refine ⟨toCurve p P.length (knotVector p P.length u) x, ?_, ⟨c1, by rw [c2]; simp, c3, by rw [c4, hl], u, hu0, hu1, hP.lt,
    ⟨T, hT, fun i _ => hprop i⟩, fun i hi => ?_⟩, ?_⟩
  · unfold fromPointsInterpolation
    rw [if_neg (by omega), if_neg (by omega), hu]
    dsimp only
    rw [hx]
  · rw [c5]; exact hpass i hi
  · intro Q hQ j hj
    rw [c2, List.getD_eq_getElem _ _ (by simpa using hj), List.getElem_map, List.getElem_range]
    funext k
    have := huni (fun i => Q i k - x i k) (fun i hi => by
      have e1 := congrFun (hQ u hu i hi) k
      have e2 := congrFun (hpass i hi) k
      rw [c4, curvePoint_coord hpn] at e1
      rw [curvePoint_coord hpn] at e2
      rw [curvePoint_eq _ _ _ _ _ hpn] at e1 e2 ⊢
      simp only [smul_sub, sum_sub_distrib]
      rw [e1, e2, sub_self]) j hj
    linarith

/-- The corners of a right triangle, closed. -/
def triangle : List (Pt 2) := [![0, 0], ![3, 0], ![3, 4], ![0, 0]]

lemma triangle_gaps : gap false (triangle.getD 0 0) (triangle.getD 1 0) = 3 ∧ gap false (triangle.getD 1 0) (triangle.getD 2 0) = 4 ∧
    gap false (triangle.getD 2 0) (triangle.getD 3 0) = 5 := by
  have e3 : √(9 : ℝ) = 3 := by rw [show (9 : ℝ) = 3 ^ 2 by norm_num]; exact Real.sqrt_sq (by norm_num)
  have e4 : √(16 : ℝ) = 4 := by rw [show (16 : ℝ) = 4 ^ 2 by norm_num]; exact Real.sqrt_sq (by norm_num)
  have e5 : √(25 : ℝ) = 5 := by rw [show (25 : ℝ) = 5 ^ 2 by norm_num]; exact Real.sqrt_sq (by norm_num)
  refine ⟨?_, ?_, ?_⟩ <;> simp only [gap, triangle, List.getD_cons_zero, List.getD_cons_succ, Fin.sum_univ_two] <;> norm_num [e3, e4, e5]

open Classical in
lemma triangle_card : triangle.length - 1 ≤ triangle.toFinset.card := by
  have h1 : (![0, 0] : Pt 2) ≠ ![3, 0] := by intro e; have := congrFun e 0; norm_num at this
  have h2 : (![0, 0] : Pt 2) ≠ ![3, 4] := by intro e; have := congrFun e 0; norm_num at this
  have h3 : (![3, 0] : Pt 2) ≠ ![3, 4] := by intro e; have := congrFun e 1; norm_num at this
  have hsub : ({![0, 0], ![3, 0], ![3, 4]} : Finset (Pt 2)) ⊆ triangle.toFinset := by
    intro x hx
    simp only [mem_insert, mem_singleton] at hx
    rcases hx with rfl | rfl | rfl <;> simp [triangle]
  calc triangle.length - 1 = 3 := rfl
    _ = ({![0, 0], ![3, 0], ![3, 4]} : Finset (Pt 2)).card := by
      rw [card_insert_of_notMem (by simp [h1, h2]), card_insert_of_notMem (by simp [h3]), card_singleton]
    _ ≤ _ := card_le_card hsub

lemma triangle_tol (i : ℕ) (hi : i + 1 < triangle.length) :
    1 / 10 ^ 15 * ∑ k ∈ range (triangle.length - 1), gap false (triangle.getD k 0) (triangle.getD (k + 1) 0) <
      gap false (triangle.getD i 0) (triangle.getD (i + 1) 0) := by
  obtain ⟨g0, g1, g2⟩ := triangle_gaps
  have hl : triangle.length = 4 := rfl
  have hi' : i < 3 := by omega
  clear hi
  rw [hl, show 4 - 1 = 3 from rfl, sum_range_succ, sum_range_succ, sum_range_one, zero_add, g0, g1, g2]
  interval_cases i
  · rw [zero_add, g0]; norm_num
  · rw [g1]; norm_num
  · rw [g2]; norm_num

/-- The closed triangle is interpolated by a curve of degree 2. -/
example : ∃ c, fromPointsInterpolation triangle 2 false = .ok c ∧ PassesThrough false triangle 2 c := by
  obtain ⟨c, h1, h2, -⟩ := C109_interpolation_partial triangle 2 false (by norm_num) (by decide) triangle_card triangle_tol
  exact ⟨c, h1, h2⟩

/-- **C109** two equal successive points are never interpolated: the system is singular. -/
theorem C109_repeated {d : ℕ} (P : List (Pt d)) (p : ℕ) (cen : Bool) (i : ℕ) (hi : i + 1 < P.length) (h : P.getD i 0 = P.getD (i + 1) 0) (c : BCurve ℝ (Pt d)) :
    fromPointsInterpolation P p cen ≠ .ok c := by
  intro hok
  unfold fromPointsInterpolation at hok
  split_ifs at hok
  cases hpar : paramsCurve cen P with
  | none => rw [hpar] at hok; cases hok
  | some u =>
    rw [hpar] at hok
    dsimp only at hok
    obtain ⟨-, -, -, hle, hlt, -⟩ := (C108_params cen P).2 u hpar
    have hu : u i = u (i + 1) := le_antisymm (hle i) (not_lt.1 fun h' => (hlt i).1 h' h)
    have : luSolve (coeffMatrix p (kvFun (knotVector p P.length u)) u P.length) P.length (cpFun P) = none := by
      unfold luSolve
      refine if_pos (Matrix.det_zero_of_row_eq (i := ⟨i, by omega⟩) (j := ⟨i + 1, hi⟩) (by intro e; have := Fin.mk.inj e; omega) ?_)
      funext j
      simp only [Matrix.of_apply, coeffMatrix, hu]
    rw [this] at hok
    cases hok

/-- **C109** the full statement is false: the check of repeated points lets two equal successive points through. -/
theorem C109_interpolation_counterexample : ¬ C109_interpolation_full_statement := by
  intro h
  obtain ⟨c, hc, -⟩ := h 1 [![0], ![0], ![1]] 1 true le_rfl (by decide) (by
    have : (![0] : Pt 1) ≠ ![1] := by intro e; have := congrFun e 0; simp at this
    simp [this])
  exact C109_repeated [![0], ![0], ![1]] 1 true 0 (by decide) rfl c hc

/-- **C109** whatever the points: a curve that is returned has more control points than its degree, one for each of the points, so that no curve comes out of
too few points, and none has a degree other than the one asked for. -/
theorem C109_enough {d : ℕ} (P : List (Pt d)) (p : ℕ) (cen : Bool) (c : BCurve ℝ (Pt d)) (h : fromPointsInterpolation P p cen = .ok c) :
    c.degree = p ∧ c.ctrlpts.length = P.length ∧ c.degree < c.ctrlpts.length := by
  unfold fromPointsInterpolation at h
  split_ifs at h with h1
  cases hpar : paramsCurve cen P with
  | none => rw [hpar] at h; cases h
  | some u =>
    rw [hpar] at h
    dsimp only at h
    cases hl : luSolve (coeffMatrix p (kvFun (knotVector p P.length u)) u P.length) P.length (cpFun P) with
    | none => rw [hl] at h; cases h
    | some x =>
      rw [hl] at h
      obtain rfl := Outcome.ok.inj h
      have e1 : (toCurve p P.length (knotVector p P.length u) x).degree = p := rfl
      have e2 : (toCurve p P.length (knotVector p P.length u) x).ctrlpts.length = P.length := by
        change ((List.range P.length).map x).length = _
        simp
      rw [e1, e2]
      exact ⟨rfl, rfl, not_le.1 h1⟩

example : ∃ c, fromPointsInterpolation triangle 2 false = .ok c ∧ c.degree < c.ctrlpts.length := by
  obtain ⟨c, h, -⟩ := C109_interpolation_partial triangle 2 false (by norm_num) (by decide) triangle_card triangle_tol
  exact ⟨c, h, (C109_enough _ _ _ _ h).2.2⟩

/-! ### The tolerance of the multiplicities -/

/-- Four points on a line, two of them very near. -/
noncomputable def near : List (Pt 1) := [![0], ![1], ![1 + 1 / 10 ^ 15], ![2]]

lemma near_gaps : gap false (near.getD 0 0) (near.getD 1 0) = 1 ∧ gap false (near.getD 1 0) (near.getD 2 0) = 1 / 10 ^ 15 ∧
    gap false (near.getD 2 0) (near.getD 3 0) = 1 - 1 / 10 ^ 15 := by
  have one : ∀ a b : ℝ, a ≤ b → gap false (![a] : Pt 1) ![b] = b - a := by
    intro a b h
    simp only [gap, Fin.sum_univ_one, Bool.false_eq_true, if_false]
    exact Real.sqrt_sq (by simpa using h)
  refine ⟨(one _ _ (by norm_num)).trans (by norm_num), (one _ _ (by norm_num)).trans (by norm_num), (one _ _ (by norm_num)).trans (by norm_num)⟩

open Classical in
/-- **C109** (full statement for distinct points) -/
def C109_distinct_full_statement : Prop :=
  ∀ (d : ℕ) (P : List (Pt d)) (p : ℕ) (cen : Bool), 1 ≤ p → p < P.length → P.Nodup →
    ∃ c, fromPointsInterpolation P p cen = .ok c ∧ c.eval 0 = P.getD 0 0 ∧ c.eval 1 = P.getD (P.length - 1) 0

/-- **C109** it is false too: knots less than 1e-15 apart are each counted twice, so the curve has too many knots, and its last point is not the last data
point (here it is about 1e15 away). -/
theorem C109_distinct_counterexample : ¬ C109_distinct_full_statement := by
  classical
  intro h
  have hnd : near.Nodup := by
    have e : ∀ a b : ℝ, (![a] : Pt 1) = ![b] → a = b := fun a b h => congrFun h 0
    have : near = [0, 1, 1 + 1 / 10 ^ 15, 2].map fun a : ℝ => (![a] : Pt 1) := rfl
    rw [this]
    refine List.Nodup.map e ?_
    norm_num
  obtain ⟨c, hc, -, hlast⟩ := h 1 near 1 false le_rfl (by decide) hnd
  obtain ⟨g0, g1, g2⟩ := near_gaps
  have hl : near.length = 4 := rfl
  have hne : ∀ i, i + 1 < near.length → near.getD i 0 ≠ near.getD (i + 1) 0 := by
    intro i hi e
    have hi' : i < 3 := by omega
    clear hi
    have := (gap_eq_zero false _ _).2 e
    interval_cases i
    · rw [zero_add, g0] at this; norm_num at this
    · rw [g1] at this; norm_num at this
    · rw [g2] at this; norm_num at this
  obtain ⟨hnone, hsome⟩ := C108_params false near
  obtain ⟨u, hu⟩ : ∃ u, paramsCurve false near = some u := by
    cases h : paramsCurve false near with
    | none => exact absurd (hnone.1 h 0 (by omega)) (hne 0 (by omega))
    | some u => exact ⟨u, rfl⟩
  obtain ⟨hu0, hu1, ⟨T, hT, hTe, hprop⟩, -, -, hpar⟩ := hsome u hu
  have hP := hpar hne
  rw [hl, show 4 - 1 = 3 from rfl, sum_range_succ, sum_range_succ, sum_range_one, zero_add, g0, g1, g2] at hTe
  have e1 : u 1 = 1 / 2 := by have := hprop 0; rw [zero_add, g0, hu0, hTe] at this; norm_num at this; linarith
  have e2 : u 2 = 1 / 2 + 1 / 10 ^ 15 / 2 := by have := hprop 1; rw [g1, e1, hTe] at this; norm_num at this; linarith
  have hsimple := knotVector_simple (p := 1) le_rfl (by omega) hP
  have hU : ∀ k, kvFun (knotVector 1 near.length u) k = if 4 ≤ k then 1 else if 2 ≤ k then u (k - 1) else 0 := by
    intro k
    rw [knot_of _ _ _ _ (by omega), hl]
    split_ifs with a b
    · rfl
    · unfold average; rw [sum_range_one]; push_cast; rw [div_one]; congr 1; omega
    · rfl
  have huni := interp_unique hsimple hP (by rw [hU]; simp) (by rw [hU]; simp [hl]) (knotVector_whitney le_rfl (by omega) hP)
  obtain ⟨x, hx, hsol⟩ := luSolve_spec (coeffMatrix 1 (kvFun (knotVector 1 near.length u)) u near.length) near.length (cpFun near) (fun y hy => huni y fun i hi => by
    rw [← coeffMatrix_sum (by omega)]; exact hy i hi)
  have hkv : knotVector 1 near.length u = [0, 0, 1 / 2, 1 / 2 + 1 / 10 ^ 15 / 2, 1, 1] := by
    rw [← e2, ← e1]
    unfold knotVector
    simp [hl, List.range_succ]
  have hceq : c = toCurve 1 near.length (knotVector 1 near.length u) x := by
    unfold fromPointsInterpolation at hc
    rw [if_neg (by omega), if_neg (by rw [List.toFinset_card_of_nodup hnd]; omega), hu] at hc
    dsimp only at hc
    rw [hx] at hc
    exact ((Outcome.ok.injEq _ _).mp hc).symm
  have hknots : c.knotvector = [0, 0, 1 / 2, 1 / 2, 1 / 2 + 1 / 10 ^ 15 / 2, 1 / 2 + 1 / 10 ^ 15 / 2, 1, 1] := by
    rw [hceq, hkv]
    unfold toCurve BCurve.new BCurve.knotvector getKnotsAndMultiplicities
    dsimp only
    have hd : ([0, 0, 1 / 2, 1 / 2 + 1 / 10 ^ 15 / 2, 1, 1] : List ℝ).dedup = [0, 1 / 2, 1 / 2 + 1 / 10 ^ 15 / 2, 1] := by
      rw [List.dedup_cons_of_mem (by simp), List.dedup_cons_of_notMem (by norm_num), List.dedup_cons_of_notMem (by norm_num),
        List.dedup_cons_of_notMem (by norm_num), List.dedup_cons_of_mem (by simp), List.dedup_cons_of_notMem (by simp), List.dedup_nil]
    rw [hd]
    simp only [List.map_cons, List.map_nil, C28_multiplicity_countP]
    norm_num [List.countP_cons, abs_le, standardizeKnotVector, repeatKnots, List.replicate]
  have hxlast : x 3 = ![2] := by
    obtain ⟨-, t⟩ := C21_end_points 1 near.length _ hsimple.clamped x
    have := hsol 3 (by omega)
    rw [coeffMatrix_sum (by omega)] at this
    rw [hU, if_pos (by omega)] at t
    rw [show u 3 = 1 from hu1, t] at this
    exact this
  have hx2 : x 2 = ![1 + 1 / 10 ^ 15] := by
    have := hsol 2 (by omega)
    rw [coeffMatrix_sum (by omega), curvePoint_eq _ _ _ _ _ (by omega),
      hsimple.span_eq (κ := 3) (by omega) (by omega) (by rw [hU]; simp) (by rw [hU, if_pos (by omega), e2]; norm_num)] at this
    have hb : ∀ i, bsp (kvFun (knotVector 1 near.length u)) 3 (u 2) 1 i = if i = 2 then 1 else 0 := by
      intro i
      simp only [bsp]
      have h12 : (1 : ℝ) - u 2 ≠ 0 := by rw [e2]; norm_num
      rcases Nat.lt_trichotomy i 2 with h | h | h
      · rw [if_neg (by omega), if_neg (by omega), if_neg (by omega)]; ring
      · subst h
        have k3 : kvFun (knotVector 1 near.length u) (2 + 1) = u 2 := by rw [hU, if_neg (by omega), if_pos (by omega)]
        have k4 : kvFun (knotVector 1 near.length u) (2 + 0 + 2) = 1 := by rw [hU, if_pos (by omega)]
        rw [if_neg (by omega), if_pos rfl, if_pos rfl, k3, k4, mul_zero, mul_one, zero_add, div_self h12]
      · rw [if_neg (by omega : ¬ i + 1 = 3), if_neg (by omega : ¬ i = 2), mul_zero, add_zero]
        split_ifs with h3
        · subst h3
          rw [hU 3, if_neg (by omega), if_pos (by omega), sub_self, zero_div, zero_mul]
        · rw [mul_zero]
    have hs : ∑ i ∈ range near.length, bsp (kvFun (knotVector 1 near.length u)) 3 (u 2) 1 i • x i = x 2 := by
      rw [sum_eq_single 2]
      · rw [hb, if_pos rfl, one_smul]
      · intro i _ hi; rw [hb, if_neg hi, zero_smul]
      · intro h; exact absurd (mem_range.2 (by omega)) h
    rw [hs] at this
    exact this
  have hdeg : c.degree = 1 := by rw [hceq]; rfl
  have hcp : c.ctrlpts = (List.range near.length).map x := by rw [hceq]; rfl
  have hw : c.weights = none := by rw [hceq]; rfl
  have hev : c.eval 1 = ∑ i ∈ range 4, bsp (kvFun c.knotvector) 3 1 1 i • x i := by
    have e : c.eval 1 = curvePoint c.degree (kvFun c.knotvector) (cpFun c.ctrlpts) c.ctrlpts.length 1 := by unfold BCurve.eval; rw [hw]
    rw [e, hdeg, hcp, List.length_map, List.length_range, hl, curvePoint_congr 1 _ _ x 4 (by omega) (fun i hi => by
      unfold cpFun; rw [List.getD_eq_getElem _ _ (by simpa using hi)]; simp), curvePoint_eq _ _ _ _ _ (by omega)]
    rw [(C19_linear 1 4 _ 1 (by omega)).2.2.2.1]
    · refine kvFun_mono _ ?_
      rw [hknots]
      norm_num
    · rw [hknots]; simp only [kvFun, List.getD_cons_succ, List.getD_cons_zero]; norm_num
  rw [hev, hknots] at hlast
  have := congrFun hlast 0
  rw [sum_range_succ, sum_range_succ, sum_range_succ, sum_range_one] at this
  simp only [bsp, kvFun, List.getD_cons_succ, List.getD_cons_zero, hx2, hxlast, near] at this
  norm_num at this

end Volmdlr.Fit
