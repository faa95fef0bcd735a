import Verif.Fit.ApproxProps

/-!
# Interpolation and approximation of a grid of points by a surface (C111, C112)
-/

namespace Volmdlr.Fit
open Finset

/-! ### As many control points as data points -/

/-- With as many control points as data points the approximation interpolates. -/
lemma Setting.exact {d p n : ℕ} {u U : ℕ → ℝ} (P : ℕ → Pt d) (S : Setting p n n u U) (hn : 3 ≤ n) (i : ℕ) (hi : i < n) :
    curvePoint p U (approxPoints p n n U u P) n (u i) = P i := by
  classical
  have hpn := S.simple.pn
  obtain ⟨e0, e1⟩ := C21_end_points p n U S.simple.clamped (approxPoints p n n U u P)
  by_cases i0 : i = 0
  · rw [i0, S.par.zero, ← S.zero p le_rfl, e0]; unfold approxPoints; dsimp only; rw [if_pos rfl]
  by_cases i1 : i = n - 1
  · rw [i1, S.par.one, ← S.one n le_rfl, e1]; unfold approxPoints; dsimp only; rw [if_neg (by omega), if_pos rfl]
  funext k
  have hdet : (Matrix.of fun a b : Fin (n - 2) => matrixN p n U u a b).det ≠ 0 := by
    intro h0
    obtain ⟨v, hv, hM⟩ := Matrix.exists_mulVec_eq_zero_iff.2 h0
    apply hv
    funext j
    have hnull := S.null (fun j => if h : 1 ≤ j ∧ j - 1 < n - 2 then v ⟨j - 1, h.2⟩ else 0) (dif_neg (by omega)) (dif_neg (by omega)) (fun q h1 h2 => by
      rw [Setting.split S hn, dif_neg (by omega), dif_neg (by omega), mul_zero, mul_zero, zero_add, zero_add]
      have := congrFun hM ⟨q - 1, by omega⟩
      rw [Matrix.mulVec, dotProduct] at this
      refine Eq.trans ?_ this
      rw [← Fin.sum_univ_eq_sum_range (fun c => coxDeBoor U (u q) p (c + 1) * if h : 1 ≤ c + 1 ∧ c + 1 - 1 < n - 2 then v ⟨c + 1 - 1, h.2⟩ else 0)]
      refine sum_congr rfl fun c _ => ?_
      rw [dif_pos ⟨by omega, by have := c.2; omega⟩]
      simp only [Nat.add_sub_cancel, Fin.eta, Matrix.of_apply, matrixN, Nat.sub_add_cancel h1]
      rw [S.basis h1 h2]) (j + 1) (by have := j.2; omega)
    rw [dif_pos ⟨by omega, by have := j.2; omega⟩] at hnull
    simpa using hnull
  have hdetT : (Matrix.of fun a b : Fin (n - 2) => matrixN p n U u a b).transpose.det ≠ 0 := by rwa [Matrix.det_transpose]
  by_contra hne
  apply hdetT
  refine Matrix.exists_mulVec_eq_zero_iff.1 ⟨fun q => curvePoint p U (approxPoints p n n U u P) n (u (q + 1)) k - P (q + 1) k, ?_, ?_⟩
  · intro h0
    have := congrFun h0 ⟨i - 1, by omega⟩
    simp only [Pi.zero_apply] at this
    rw [show i - 1 + 1 = i by omega] at this
    exact hne (by linarith)
  · funext j
    have := S.normal hn P (j + 1) (by omega) (by have := j.2; omega) k
    rw [← Fin.sum_univ_eq_sum_range (fun q => coxDeBoor U (u (q + 1)) p (j + 1) * (curvePoint p U (approxPoints p n n U u P) n (u (q + 1)) k - P (q + 1) k))] at this
    rw [Matrix.mulVec, dotProduct, Pi.zero_apply]
    refine Eq.trans (sum_congr rfl fun q _ => ?_) this
    have := q.2
    simp only [Matrix.transpose_apply, Matrix.of_apply, matrixN]
    rw [S.basis (by omega) (by omega)]

/-- **C110** with as many control points as data points, the approximation passes through every data point at its parameter. -/
theorem C110_interpolates {d : ℕ} (P : List (Pt d)) (p : ℕ) (cen : Bool) (hp : 1 ≤ p) (hpn : p < P.length) (hn : 3 ≤ P.length)
    (htol : ∀ i, i + 1 < P.length → (P.length - p : ℕ) * (1 / 10 ^ 15) * ∑ k ∈ range (P.length - 1), gap cen (P.getD k 0) (P.getD (k + 1) 0) <
      gap cen (P.getD i 0) (P.getD (i + 1) 0)) :
    ∃ c u, fromPointsApproximation P p cen (some P.length) = .ok c ∧ paramsCurve cen P = some u ∧ ∀ i < P.length, c.eval (u i) = P.getD i 0 := by
  obtain ⟨c, u, h1, h2, h3, -, -, -, h7, -, -, -, -, h11⟩ :=
    C110_approximation_partial P p P.length cen (some P.length) rfl hp hpn le_rfl hn htol
  have S := setting_of hp hpn le_rfl h3
  rw [← h7] at S
  refine ⟨c, u, h1, h2, fun i hi => ?_⟩
  obtain ⟨hle, -⟩ := h11 (approxPoints p P.length P.length (kvFun c.knotvector) u (cpFun P))
    (by unfold approxPoints; dsimp only; rw [if_pos rfl]; rfl) (by unfold approxPoints; dsimp only; rw [if_neg (by omega), if_pos rfl]; rfl)
  have hz : misfit P u (curvePoint p (kvFun c.knotvector) (approxPoints p P.length P.length (kvFun c.knotvector) u (cpFun P)) P.length) = 0 := by
    unfold misfit
    refine sum_eq_zero fun i hi => sum_eq_zero fun k _ => ?_
    rw [S.exact (cpFun P) hn i (mem_range.1 hi)]
    simp [cpFun]
  rw [hz] at hle
  have h0 : misfit P u c.eval = 0 := le_antisymm hle (sum_nonneg fun _ _ => sum_nonneg fun _ _ => sq_nonneg _)
  have t := (sum_eq_zero_iff_of_nonneg fun _ _ => sum_nonneg fun _ _ => sq_nonneg _).1 h0 i (mem_range.2 hi)
  funext k
  have t2 := (sum_eq_zero_iff_of_nonneg fun _ _ => sq_nonneg _).1 t k (mem_univ k)
  have t3 := pow_eq_zero_iff two_ne_zero |>.1 t2
  linarith

example : ∃ c u, fromPointsApproximation triangle 2 false (some 4) = .ok c ∧ paramsCurve false triangle = some u ∧
    ∀ i < 4, c.eval (u i) = triangle.getD i 0 := by
  refine C110_interpolates triangle 2 false (by norm_num) (by decide) (by decide) ?_
  intro i hi
  obtain ⟨g0, g1, g2⟩ := triangle_gaps
  have hl : triangle.length = 4 := rfl
  have hi' : i < 3 := by omega
  clear hi
  rw [hl, show 4 - 1 = 3 from rfl, sum_range_succ, sum_range_succ, sum_range_one, zero_add, g0, g1, g2]
  interval_cases i
  · rw [zero_add, g0]; norm_num
  · rw [g1]; norm_num
  · rw [g2]; norm_num

/-! ### Parameters of a grid -/

lemma mapM_id_some {α β : Type*} (l : List α) (w : α → β) : (l.map fun a : α => some (w a)).mapM (fun o : Option β => o) = some (l.map w) := by
  induction l with
  | nil => rfl
  | cons a l ih => rw [List.map_cons, List.mapM_cons, ih]; rfl

/-- The mean of parameters that increase from 0 to 1 increases from 0 to 1, by as much at least. -/
lemma meanParams_spec {n q : ℕ} (hq : 1 ≤ q) {e : ℝ} (f : ℕ → Option (ℕ → ℝ))
    (h : ∀ v < q, ∃ w, f v = some w ∧ Params n w ∧ ∀ i, i + 1 < n → w i + e < w (i + 1)) :
    ∃ u, meanParams ((List.range q).map f) = some u ∧ Params n u ∧ ∀ i, i + 1 < n → u i + e < u (i + 1) := by
  choose! w hw using h
  have hf : (List.range q).map f = (List.range q).map fun v => some (w v) := List.map_congr_left fun v hv => (hw v (List.mem_range.1 hv)).1
  have hq0 : (0 : ℝ) < q := by exact_mod_cast hq
  have hsum : ∀ g : ℕ → ℝ, ((List.range q).map g).sum = ∑ v ∈ range q, g v := fun g => list_range_sum g q
  have he : meanParams ((List.range q).map f) = some fun i => (∑ v ∈ range q, w v i) / q := by
    unfold meanParams
    rw [hf, mapM_id_some]
    dsimp only
    congr 1
    funext i
    rw [List.map_map, List.length_map, List.length_range]
    rw [← hsum]
    rfl
  have step : ∀ i, i + 1 < n → (∑ v ∈ range q, w v i) / (q : ℝ) + e < (∑ v ∈ range q, w v (i + 1)) / q := by
    intro i hi
    rw [← sub_pos, show (∑ v ∈ range q, w v (i + 1)) / (q : ℝ) - ((∑ v ∈ range q, w v i) / q + e) =
      (∑ v ∈ range q, (w v (i + 1) - (w v i + e))) / q from ?_]
    · refine div_pos (sum_pos (fun v hv => sub_pos.2 ((hw v (mem_range.1 hv)).2.2 i hi)) (nonempty_range_iff.2 (by omega))) hq0
    · rw [sum_sub_distrib, sum_add_distrib, sum_const, card_range, nsmul_eq_mul]
      field_simp
  have lt : ∀ i, i + 1 < n → (∑ v ∈ range q, w v i) / (q : ℝ) < (∑ v ∈ range q, w v (i + 1)) / q := by
    intro i hi
    refine div_lt_div_of_pos_right ?_ hq0
    exact sum_lt_sum_of_nonempty (nonempty_range_iff.2 (by omega)) fun v hv => (hw v (mem_range.1 hv)).2.1.lt i hi
  refine ⟨_, he, ⟨(hw 0 (by omega)).2.1.two, ?_, ?_, lt⟩, step⟩
  · show (∑ v ∈ range q, w v 0) / (q : ℝ) = 0
    rw [sum_eq_zero fun v hv => (hw v (mem_range.1 hv)).2.1.zero, zero_div]
  · show (∑ v ∈ range q, w v (n - 1)) / (q : ℝ) = 1
    rw [sum_congr rfl fun v hv => (hw v (mem_range.1 hv)).2.1.one, sum_const, card_range, nsmul_eq_mul, mul_one, div_self hq0.ne']

/-- Specification: along a line of points, each gap is more than `e` times the sum of the gaps. -/
def Spaced {d : ℕ} (e : ℝ) (n : ℕ) (L : ℕ → Pt d) : Prop :=
  ∀ i, i + 1 < n → e * ∑ k ∈ range (n - 1), gap false (L k) (L (k + 1)) < gap false (L i) (L (i + 1))

lemma params_of_spaced {d : ℕ} {e : ℝ} (he : 0 ≤ e) {n : ℕ} (hn : 2 ≤ n) {L : ℕ → Pt d} (h : Spaced e n L) :
    ∃ u, paramsCurve false ((List.range n).map L) = some u ∧ Params n u ∧ ∀ i, i + 1 < n → u i + e < u (i + 1) := by
  have hl : ((List.range n).map L).length = n := by simp
  have hget : ∀ i < n, ((List.range n).map L).getD i 0 = L i := by
    intro i hi; rw [List.getD_eq_getElem _ _ (by simpa using hi)]; simp
  obtain ⟨hnone, hsome⟩ := C108_params false ((List.range n).map L)
  rw [hl] at hnone hsome
  have hne : ∀ i, i + 1 < n → ((List.range n).map L).getD i 0 ≠ ((List.range n).map L).getD (i + 1) 0 := by
    intro i hi e'
    rw [hget i (by omega), hget (i + 1) hi] at e'
    have h1 := h i hi
    rw [(gap_eq_zero false _ _).2 e'] at h1
    have : 0 ≤ e * ∑ k ∈ range (n - 1), gap false (L k) (L (k + 1)) := mul_nonneg he (sum_nonneg fun k _ => gap_nonneg _ _ _)
    linarith
  obtain ⟨u, hu⟩ : ∃ u, paramsCurve false ((List.range n).map L) = some u := by
    cases h : paramsCurve false ((List.range n).map L) with
    | none => exact absurd (hnone.1 h 0 (by omega)) (hne 0 (by omega))
    | some u => exact ⟨u, rfl⟩
  obtain ⟨hu0, hu1, ⟨T, hT, hTe, hprop⟩, -, -, hpar⟩ := hsome u hu
  refine ⟨u, hu, hpar hne, fun i hi => ?_⟩
  have h1 := h i hi
  have e1 : ∑ k ∈ range (n - 1), gap false (L k) (L (k + 1)) = T := by
    rw [hTe]
    refine sum_congr rfl fun k hk => ?_
    have := mem_range.1 hk
    rw [hget k (by omega), hget (k + 1) (by omega)]
  have e2 := hprop i
  rw [hget i (by omega), hget (i + 1) hi] at e2
  rw [e1, ← e2] at h1
  have := lt_of_mul_lt_mul_right h1 hT.le
  linarith

lemma paramsU_spec {d : ℕ} {e : ℝ} (he : 0 ≤ e) (P : List (Pt d)) {su sv : ℕ} (hu : 2 ≤ su) (hv : 1 ≤ sv)
    (h : ∀ v < sv, Spaced e su fun u => P.getD (v + sv * u) 0) :
    ∃ uk, paramsU false P su sv = some uk ∧ Params su uk ∧ ∀ i, i + 1 < su → uk i + e < uk (i + 1) :=
  meanParams_spec hv _ fun v hv => params_of_spaced he hu (h v hv)

lemma paramsV_spec {d : ℕ} {e : ℝ} (he : 0 ≤ e) (P : List (Pt d)) {su sv : ℕ} (hu : 1 ≤ su) (hv : 2 ≤ sv)
    (h : ∀ u < su, Spaced e sv fun v => P.getD (v + sv * u) 0) :
    ∃ vl, paramsV false P su sv = some vl ∧ Params sv vl ∧ ∀ i, i + 1 < sv → vl i + e < vl (i + 1) :=
  meanParams_spec hu _ fun u hu => params_of_spaced he hv (h u hu)

/-! ### The surface that is made -/

lemma repeat_standard {p n : ℕ} {kv : List ℝ} (hs : kv.Pairwise (· ≤ ·)) (hsep : Separated (1 / 10 ^ 15) kv) (hl : kv.length = n + p + 1)
    (h0 : kvFun kv 0 = 0) (h1 : kvFun kv (n + p) = 1) :
    repeatKnots (standardizeKnotVector (getKnotsAndMultiplicities (1 / 10 ^ 15) kv).1) (getKnotsAndMultiplicities (1 / 10 ^ 15) kv).2 = kv := by
  have hne : kv ≠ [] := by intro e; rw [e] at hl; simp at hl
  have := new_knotvector (V := Pt 0) (1 / 10 ^ 15) (by positivity) kv hs hsep hne 0 [] none
  rw [h0, show kv.length - 1 = n + p by omega, h1] at this
  unfold BCurve.knotvector BCurve.new at this
  dsimp only at this
  rw [this]
  simp

/-- The control points of a net in one list. -/
lemma net_get {d nu nv : ℕ} (f : ℕ → ℕ → Pt d) (i j : ℕ) (hi : i < nu) (hj : j < nv) :
    cpFun ((List.range (nu * nv)).map fun k => f (k / nv) (k % nv)) (j + nv * i) = f i j := by
  have hlt : j + nv * i < nu * nv := by
    calc j + nv * i < nv + nv * i := by omega
      _ = nv * (i + 1) := by ring
      _ ≤ nv * nu := Nat.mul_le_mul_left _ (by omega)
      _ = nu * nv := Nat.mul_comm _ _
  unfold cpFun
  rw [List.getD_eq_getElem _ _ (by simpa using hlt), List.getElem_map, List.getElem_range, Nat.add_mul_div_left _ _ (by omega), Nat.add_mul_mod_self_left,
    Nat.div_eq_of_lt hj, Nat.mod_eq_of_lt hj, zero_add]

lemma toSurface_eval {d pu pv nu nv : ℕ} (hu : pu < nu) (hv : pv < nv) {kvU kvV : List ℝ}
    (hkU : repeatKnots (standardizeKnotVector (getKnotsAndMultiplicities (1 / 10 ^ 15) kvU).1) (getKnotsAndMultiplicities (1 / 10 ^ 15) kvU).2 = kvU)
    (hkV : repeatKnots (standardizeKnotVector (getKnotsAndMultiplicities (1 / 10 ^ 15) kvV).1) (getKnotsAndMultiplicities (1 / 10 ^ 15) kvV).2 = kvV)
    (f : ℕ → ℕ → Pt d) (s t : ℝ) :
    (toSurface pu pv ((List.range (nu * nv)).map fun k => f (k / nv) (k % nv)) nu nv kvU kvV).eval s t =
      curvePoint pu (kvFun kvU) (fun i => curvePoint pv (kvFun kvV) (f i) nv t) nu s := by
  have e : (toSurface pu pv ((List.range (nu * nv)).map fun k => f (k / nv) (k % nv)) nu nv kvU kvV).eval s t =
      surfacePoint pu pv (kvFun (repeatKnots (standardizeKnotVector (getKnotsAndMultiplicities (1 / 10 ^ 15) kvU).1) (getKnotsAndMultiplicities (1 / 10 ^ 15) kvU).2))
        (kvFun (repeatKnots (standardizeKnotVector (getKnotsAndMultiplicities (1 / 10 ^ 15) kvV).1) (getKnotsAndMultiplicities (1 / 10 ^ 15) kvV).2))
        (cpFun ((List.range (nu * nv)).map fun k => f (k / nv) (k % nv))) nu nv s t := rfl
  rw [e, hkU, hkV, surfacePoint_eq]
  refine curvePoint_congr pu _ _ _ nu hu (fun i hi => ?_) s
  exact curvePoint_congr pv _ _ _ nv hv (fun j hj => net_get f i j hi hj) t

/-- **C111** Specification: the surface has the degrees and sizes asked for and passes through the points of the grid, at parameters that increase from 0 to 1
in both directions. -/
def SurfacePassesThrough {d : ℕ} (P : List (Pt d)) (su sv pu pv : ℕ) (s : BSurface d) : Prop :=
  s.degreeU = pu ∧ s.degreeV = pv ∧ s.nbU = su ∧ s.nbV = sv ∧ s.ctrlpts.length = su * sv ∧
  s.knotvectorU.length = su + pu + 1 ∧ s.knotvectorV.length = sv + pv + 1 ∧
  ∃ uk vl : ℕ → ℝ, Params su uk ∧ Params sv vl ∧ ∀ i < su, ∀ j < sv, s.eval (uk i) (vl j) = P.getD (j + sv * i) 0

/-- **C111** (full statement) a surface passes through the points of every grid with more points than the degree in both directions, in which two successive
lines are never equal. -/
def C111_interpolation_full_statement : Prop :=
  ∀ (d : ℕ) (P : List (Pt d)) (su sv pu pv : ℕ), P.length = su * sv → 1 ≤ pu → pu < su → 1 ≤ pv → pv < sv →
    (∀ i, i + 1 < su → ∃ j < sv, P.getD (j + sv * i) 0 ≠ P.getD (j + sv * (i + 1)) 0) →
    (∀ j, j + 1 < sv → ∃ i < su, P.getD (j + sv * i) 0 ≠ P.getD (j + 1 + sv * i) 0) →
    ∃ s, surfaceInterpolation P su sv pu pv = .ok s ∧ SurfacePassesThrough P su sv pu pv s

/-- **C111** what holds: when, along every line of the grid, each distance between neighbours is more than 1e-15 of the length of the line.  Missing: see the
counterexample. -/
theorem C111_interpolation_partial {d : ℕ} (P : List (Pt d)) (su sv pu pv : ℕ) (hpu : 1 ≤ pu) (hu : pu < su) (hpv : 1 ≤ pv) (hv : pv < sv)
    (hU : ∀ v < sv, Spaced (1 / 10 ^ 15) su fun u => P.getD (v + sv * u) 0) (hV : ∀ u < su, Spaced (1 / 10 ^ 15) sv fun v => P.getD (v + sv * u) 0) :
    ∃ s, surfaceInterpolation P su sv pu pv = .ok s ∧ SurfacePassesThrough P su sv pu pv s := by
  obtain ⟨uk, huk, hPu, hsu⟩ := paramsU_spec (by positivity) P (by omega) (by omega) hU
  obtain ⟨vl, hvl, hPv, hsv⟩ := paramsV_spec (by positivity) P (by omega) (by omega) hV
  -- what is needed of each direction
  have dir : ∀ (p n : ℕ) (u : ℕ → ℝ), 1 ≤ p → p < n → Params n u → (∀ i, i + 1 < n → u i + 1 / 10 ^ 15 < u (i + 1)) →
      (∀ b : ℕ → Pt d, ∃ x, luSolve (coeffMatrix p (kvFun (knotVector p n u)) u n) n b = some x ∧
        ∀ i < n, curvePoint p (kvFun (knotVector p n u)) x n (u i) = b i) ∧
      repeatKnots (standardizeKnotVector (getKnotsAndMultiplicities (1 / 10 ^ 15) (knotVector p n u)).1) (getKnotsAndMultiplicities (1 / 10 ^ 15) (knotVector p n u)).2 =
        knotVector p n u ∧ (knotVector p n u).length = n + p + 1 := by
    intro p n u hp hpn hP hstep
    have hsimple := knotVector_simple hp hpn hP
    obtain ⟨hl, -, -, -, hsort, -⟩ := C108_knots hp hpn hP
    have hkz : ∀ k ≤ p, kvFun (knotVector p n u) k = 0 := by
      intro k hk; rw [knot_of _ _ _ _ hpn, if_neg (by omega), if_neg (by omega)]
    have hko : ∀ k, n ≤ k → kvFun (knotVector p n u) k = 1 := by
      intro k hk; rw [knot_of _ _ _ _ hpn, if_pos hk]
    have huni := interp_unique hsimple hP (hkz p le_rfl) (hko _ le_rfl) (knotVector_whitney hp hpn hP)
    refine ⟨fun b => ?_, ?_, hl⟩
    · obtain ⟨x, hx, hsol⟩ := luSolve_spec (coeffMatrix p (kvFun (knotVector p n u)) u n) n b (fun y hy => huni y fun i hi => by
        rw [← coeffMatrix_sum hpn]; exact hy i hi)
      exact ⟨x, hx, fun i hi => by rw [← coeffMatrix_sum hpn]; exact hsol i hi⟩
    · exact repeat_standard hsort (separated_of_step hpn hsort hkz hko fun i h1 h2 => knot_step hp hpn hP hstep i h1 h2) hl (hkz 0 (by omega)) (hko _ (by omega))
  obtain ⟨solU, kU, lU⟩ := dir pu su uk hpu hu hPu hsu
  obtain ⟨solV, kV, lV⟩ := dir pv sv vl hpv hv hPv hsv
  choose r hr hr' using fun v : ℕ => solU (fun u => cpFun P (v + sv * u))
  choose q hq hq' using fun u : ℕ => solV (fun v => r v u)
  have hok : surfaceInterpolation P su sv pu pv =
      .ok (toSurface pu pv ((List.range (su * sv)).map fun k : ℕ => q (k / sv) (k % sv)) su sv (knotVector pu su uk) (knotVector pv sv vl)) := by
    unfold surfaceInterpolation
    rw [huk, hvl]
    dsimp only
    rw [if_neg (by rintro ⟨v, -, h⟩; rw [hr v] at h; cases h)]
    have hQ : ∀ u, luSolve (coeffMatrix pv (kvFun (knotVector pv sv vl)) vl sv) sv
        (fun v => (luSolve (coeffMatrix pu (kvFun (knotVector pu su uk)) uk su) su (fun u => cpFun P (v + sv * u))).getD 0 u) = some (q u) := by
      intro u
      rw [← hq u]
      congr 1
      funext v
      rw [hr v]
      rfl
    rw [if_neg (by rintro ⟨u, -, h⟩; rw [hQ u] at h; cases h)]
    congr 2
    refine List.map_congr_left fun k _ => ?_
    rw [hQ]
    rfl
  refine ⟨_, hok, rfl, rfl, rfl, rfl, by simp [toSurface, BSurface.new], ?_, ?_, uk, vl, hPu, hPv, fun i hi j hj => ?_⟩
  · show (repeatKnots _ _).length = _
    exact (congrArg List.length kU).trans lU
  · show (repeatKnots _ _).length = _
    exact (congrArg List.length kV).trans lV
  · rw [toSurface_eval hu hv kU kV q]
    rw [curvePoint_congr pu _ _ (r j) su hu (fun k hk => hq' k j hj)]
    exact hr' j i hi

lemma spaced_two {d : ℕ} {L : ℕ → Pt d} (h : L 0 ≠ L 1) : Spaced (1 / 10 ^ 15) 2 L := by
  intro i hi
  obtain rfl : i = 0 := by omega
  rw [show 2 - 1 = 1 from rfl, sum_range_one, zero_add]
  have : 0 < gap false (L 0) (L 1) := lt_of_le_of_ne (gap_nonneg _ _ _) fun e => h ((gap_eq_zero _ _ _).1 e.symm)
  linarith

/-- Four points that are not in a plane. -/
def saddle : List (Pt 3) := [![0, 0, 0], ![0, 1, 0], ![1, 0, 0], ![1, 1, 1]]

example : ∃ s, surfaceInterpolation saddle 2 2 1 1 = .ok s ∧ SurfacePassesThrough saddle 2 2 1 1 s := by
  refine C111_interpolation_partial saddle 2 2 1 1 le_rfl (by norm_num) le_rfl (by norm_num) (fun v hv => spaced_two ?_) (fun u hu => spaced_two ?_)
  · intro e
    have := congrFun e 0
    interval_cases v <;> simp [saddle] at this
  · intro e
    have := congrFun e 1
    interval_cases u <;> simp [saddle] at this

/-- A triangular patch: the points of one side coincide. -/
def patch : List (Pt 2) := [![0, 0], ![0, 0], ![1, 0], ![1, 1]]

/-- **C111** the full statement is false: a line of the grid reduced to one point (a pole) makes the mean of the parameters undefined, and the interpolation
fails with a `ValueError`. -/
theorem C111_interpolation_counterexample : ¬ C111_interpolation_full_statement := by
  intro h
  obtain ⟨s, hs, -⟩ := h 2 patch 2 2 1 1 rfl le_rfl (by norm_num) le_rfl (by norm_num)
    (fun i hi => ⟨0, by norm_num, by
      obtain rfl : i = 0 := by omega
      intro e
      have := congrFun e 0
      simp [patch] at this⟩)
    (fun j hj => ⟨1, by norm_num, by
      obtain rfl : j = 0 := by omega
      intro e
      have := congrFun e 1
      simp [patch] at this⟩)
  have hnone : paramsV false patch 2 2 = none := by
    have h0 : paramsCurve false (lineV patch 2 0) = none := by
      refine (C108_params false _).1.2 fun i hi => ?_
      have hl : (lineV patch 2 0).length = 2 := by simp [lineV]
      obtain rfl : i = 0 := by omega
      simp [lineV, patch, cpFun, List.range_succ]
    unfold paramsV meanParams
    have : ((List.range 2).map fun u : ℕ => paramsCurve false (lineV patch 2 u)) = [none, paramsCurve false (lineV patch 2 1)] := by
      rw [← h0]; rfl
    rw [this]
    rfl
  unfold surfaceInterpolation at hs
  rw [hnone] at hs
  split at hs
  · rename_i e; cases e
  · cases hs

/-! ### Approximation of a grid -/

/-- **C112** (full statement) for a grid with well spaced lines and numbers of control points between the degree and the number of data points (given, or by
default one less than the data points), at least three, the surface has as many control points as its sizes say, and its corners are the corners of the grid. -/
def C112_approximation_full_statement : Prop :=
  ∀ (d : ℕ) (P : List (Pt d)) (su sv pu pv : ℕ) (sizeU sizeV : Option ℕ), 1 ≤ pu → 1 ≤ pv →
    (pu < sizeU.getD (su - 1) ∧ 3 ≤ sizeU.getD (su - 1) ∧ sizeU.getD (su - 1) ≤ su) →
    (pv < sizeV.getD (sv - 1) ∧ 3 ≤ sizeV.getD (sv - 1) ∧ sizeV.getD (sv - 1) ≤ sv) →
    (∀ v < sv, Spaced (1 / 10) su fun u => P.getD (v + sv * u) 0) → (∀ u < su, Spaced (1 / 10) sv fun v => P.getD (v + sv * u) 0) →
    ∃ s, surfaceApproximation P su sv pu pv sizeU sizeV = .ok s ∧ s.ctrlpts.length = s.nbU * s.nbV ∧
      s.eval 0 0 = P.getD 0 0 ∧ s.eval 0 1 = P.getD (sv - 1) 0 ∧ s.eval 1 0 = P.getD (sv * (su - 1)) 0 ∧ s.eval 1 1 = P.getD (sv - 1 + sv * (su - 1)) 0

/-- **C112** what holds: when as many control points as data points are asked for in both directions, the surface passes through every point of the grid.
Missing: fewer control points, see the counterexample. -/
theorem C112_approximation_partial {d : ℕ} (P : List (Pt d)) (su sv pu pv : ℕ) (hpu : 1 ≤ pu) (hu : pu < su) (hu3 : 3 ≤ su) (hpv : 1 ≤ pv) (hv : pv < sv)
    (hv3 : 3 ≤ sv) (hU : ∀ v < sv, Spaced ((su - pu : ℕ) * (1 / 10 ^ 15)) su fun u => P.getD (v + sv * u) 0)
    (hV : ∀ u < su, Spaced ((sv - pv : ℕ) * (1 / 10 ^ 15)) sv fun v => P.getD (v + sv * u) 0) :
    ∃ s, surfaceApproximation P su sv pu pv (some su) (some sv) = .ok s ∧ SurfacePassesThrough P su sv pu pv s := by
  obtain ⟨uk, huk, hPu, hsu⟩ := paramsU_spec (by positivity) P (by omega) (by omega) hU
  obtain ⟨vl, hvl, hPv, hsv⟩ := paramsV_spec (by positivity) P (by omega) (by omega) hV
  have dir : ∀ (p n : ℕ) (u : ℕ → ℝ), 1 ≤ p → p < n → Params n u → (∀ i, i + 1 < n → u i + (n - p : ℕ) * (1 / 10 ^ 15) < u (i + 1)) →
      Setting p n n u (kvFun (knotVector2 p n n u)) ∧
      repeatKnots (standardizeKnotVector (getKnotsAndMultiplicities (1 / 10 ^ 15) (knotVector2 p n n u)).1) (getKnotsAndMultiplicities (1 / 10 ^ 15) (knotVector2 p n n u)).2 =
        knotVector2 p n n u ∧ (knotVector2 p n n u).length = n + p + 1 := by
    intro p n u hp hpn hP hstep
    have S := setting_of hp hpn le_rfl hP
    obtain ⟨hl, -, -, -, hsort, -⟩ := C108_approximation_knots hp hpn le_rfl hP
    exact ⟨S, repeat_standard hsort (separated_of_step hpn hsort S.zero S.one fun i h1 h2 => knot2_step hp hpn le_rfl hP (by positivity) hstep i h1 h2) hl
      (S.zero 0 (by omega)) (S.one _ (by omega)), hl⟩
  obtain ⟨SU, kU, lU⟩ := dir pu su uk hpu hu hPu hsu
  obtain ⟨SV, kV, lV⟩ := dir pv sv vl hpv hv hPv hsv
  refine ⟨toSurface pu pv ((List.range (su * sv)).map fun k : ℕ => approxPoints pv sv sv (kvFun (knotVector2 pv sv sv vl)) vl
    (fun j => approxPoints pu su su (kvFun (knotVector2 pu su su uk)) uk (fun i => cpFun P (j + sv * i)) (k / sv)) (k % sv)) su sv
    (knotVector2 pu su su uk) (knotVector2 pv sv sv vl), ?_, rfl, rfl, rfl, rfl, by simp [toSurface, BSurface.new], ?_, ?_, uk, vl, hPu, hPv, fun i hi j hj => ?_⟩
  · unfold surfaceApproximation
    dsimp only [Option.getD_some]
    rw [if_neg (by omega), if_neg (by omega), huk, hvl]
    dsimp only
    rw [if_neg]
    rintro (⟨i, hi, h0⟩ | ⟨i, hi, h0⟩)
    · exact SU.pivots hu3 i hi h0
    · exact SV.pivots hv3 i hi h0
  · show (repeatKnots _ _).length = _
    exact (congrArg List.length kU).trans lU
  · show (repeatKnots _ _).length = _
    exact (congrArg List.length kV).trans lV
  · rw [toSurface_eval hu hv kU kV (fun i => approxPoints pv sv sv (kvFun (knotVector2 pv sv sv vl)) vl
      (fun j => approxPoints pu su su (kvFun (knotVector2 pu su su uk)) uk (fun i => cpFun P (j + sv * i)) i))]
    rw [curvePoint_congr pu _ _ (approxPoints pu su su (kvFun (knotVector2 pu su su uk)) uk (fun i => cpFun P (j + sv * i))) su hu
      (fun k _ => SV.exact _ hv3 j hj)]
    exact SU.exact (fun i => cpFun P (j + sv * i)) hu3 i hi

/-- A square grid of sixteen points. -/
noncomputable def sixteen : List (Pt 2) := (List.range 16).map fun k => ![((k / 4 : ℕ) : ℝ), ((k % 4 : ℕ) : ℝ)]

lemma sixteen_get (i j : ℕ) (hi : i < 4) (hj : j < 4) : sixteen.getD (j + 4 * i) 0 = ![(i : ℝ), (j : ℝ)] := by
  unfold sixteen
  rw [List.getD_eq_getElem _ _ (by simp; omega), List.getElem_map, List.getElem_range, show (j + 4 * i) / 4 = i by omega, show (j + 4 * i) % 4 = j by omega]

lemma unit_gap (a b : Pt 2) (h : (b 0 - a 0) ^ 2 + (b 1 - a 1) ^ 2 = 1) : gap false a b = 1 := by
  simp only [gap, Fin.sum_univ_two, Bool.false_eq_true, if_false, h, Real.sqrt_one]

lemma spaced_unit {e : ℝ} (he : e * 3 < 1) {L : ℕ → Pt 2} (h : ∀ i < 3, gap false (L i) (L (i + 1)) = 1) : Spaced e 4 L := by
  intro i hi
  rw [show 4 - 1 = 3 from rfl, sum_congr rfl fun k hk => h k (mem_range.1 hk), h i (by omega)]
  simp
  linarith

lemma sixteen_spaced {e : ℝ} (he : e * 3 < 1) : (∀ v < 4, Spaced e 4 fun u => sixteen.getD (v + 4 * u) 0) ∧
    (∀ u < 4, Spaced e 4 fun v => sixteen.getD (v + 4 * u) 0) := by
  refine ⟨fun v hv => spaced_unit he fun i hi => unit_gap _ _ ?_, fun u hu => spaced_unit he fun i hi => unit_gap _ _ ?_⟩
  · rw [sixteen_get i v (by omega) hv, sixteen_get (i + 1) v (by omega) hv]; simp
  · rw [sixteen_get u i hu (by omega), sixteen_get u (i + 1) hu (by omega)]; simp

example : ∃ s, surfaceApproximation sixteen 4 4 2 2 (some 4) (some 4) = .ok s ∧ SurfacePassesThrough sixteen 4 4 2 2 s := by
  obtain ⟨h1, h2⟩ := sixteen_spaced (e := (4 - 2 : ℕ) * (1 / 10 ^ 15)) (by norm_num)
  exact C112_approximation_partial sixteen 4 4 2 2 (by norm_num) (by norm_num) (by norm_num) (by norm_num) (by norm_num) (by norm_num) h1 h2

/-- **C112** the full statement is false: the constructor is given the numbers of data points, not of control points, so that with the default sizes the
surface says it has 4 × 4 control points when it has 9. -/
theorem C112_approximation_counterexample : ¬ C112_approximation_full_statement := by
  intro h
  obtain ⟨h1, h2⟩ := sixteen_spaced (e := 1 / 10) (by norm_num)
  obtain ⟨s, hs, hlen, -⟩ := h 2 sixteen 4 4 2 2 none none (by norm_num) (by norm_num) (by simp) (by simp) h1 h2
  unfold surfaceApproximation at hs
  dsimp only [Option.getD_none] at hs
  rw [if_neg (by norm_num), if_neg (by norm_num)] at hs
  split at hs
  · split_ifs at hs
    have hs' := (Outcome.ok.injEq _ _).mp hs
    rw [← hs'] at hlen
    simp [toSurface, BSurface.new] at hlen
  · cases hs

end Volmdlr.Fit
