import Verif.Conic.ParabolaLineProps
import Mathlib.Analysis.SpecialFunctions.Sqrt

/-!
# Theorems about `Hyperbola2D` (C93)
-/

namespace Volmdlr.Conic

open Volmdlr.Angle Volmdlr.Arc Volmdlr.Intersect

/-- A point of the branch of the hyperbola on the positive side: its distances to the two foci `origin ∓ √(a² + b²) u` differ by `2a`. -/
def OnBranch (h : Hyperbola2) (p : V2 ℝ) : Prop :=
  V2.pointDistance p (h.frame.origin - V2.smul (Real.sqrt (h.major ^ 2 + h.minor ^ 2)) h.frame.basis.u) -
    V2.pointDistance p (h.frame.origin + V2.smul (Real.sqrt (h.major ^ 2 + h.minor ^ 2)) h.frame.basis.u) = 2 * h.major

lemma along_focus {f : Frame2 ℝ} (h : Ortho2 f) (c : ℝ) :
    alongU f (f.origin + V2.smul c f.basis.u) = c ∧ alongV f (f.origin + V2.smul c f.basis.u) = 0 ∧
    alongU f (f.origin - V2.smul c f.basis.u) = -c ∧ alongV f (f.origin - V2.smul c f.basis.u) = 0 := by
  obtain ⟨h1, h2, h3⟩ := h
  unfold V2.dot at h1 h2 h3
  simp only [alongU, alongV, V2.dot, V2.sub_x, V2.sub_y, V2.add_x, V2.add_y, V2.smul_x, V2.smul_y]
  refine ⟨?_, ?_, ?_, ?_⟩
  · linear_combination c * h1
  · linear_combination c * h3
  · linear_combination -c * h1
  · linear_combination -c * h3

/-- The equation of the branch. -/
lemma onBranch_iff {h : Hyperbola2} (ho : Ortho2 h.frame) (ha : 0 < h.major) (hb : 0 < h.minor) (p : V2 ℝ) :
    OnBranch h p ↔ 0 < alongU h.frame p ∧ alongU h.frame p ^ 2 / h.major ^ 2 - alongV h.frame p ^ 2 / h.minor ^ 2 = 1 := by
  unfold OnBranch
  have hc0 : 0 < h.major ^ 2 + h.minor ^ 2 := by positivity
  have hc2 := Real.sq_sqrt hc0.le
  have hc := Real.sqrt_pos.2 hc0
  generalize Real.sqrt (h.major ^ 2 + h.minor ^ 2) = c at hc hc2 ⊢
  obtain ⟨f1, f2, f3, f4⟩ := along_focus ho c
  have d1 := ho.dist_sq p (h.frame.origin - V2.smul c h.frame.basis.u)
  have d2 := ho.dist_sq p (h.frame.origin + V2.smul c h.frame.basis.u)
  rw [f3, f4] at d1
  rw [f1, f2] at d2
  have n1 : 0 ≤ V2.pointDistance p (h.frame.origin - V2.smul c h.frame.basis.u) := Real.sqrt_nonneg _
  have n2 : 0 ≤ V2.pointDistance p (h.frame.origin + V2.smul c h.frame.basis.u) := Real.sqrt_nonneg _
  generalize V2.pointDistance p (h.frame.origin - V2.smul c h.frame.basis.u) = D1 at *
  generalize V2.pointDistance p (h.frame.origin + V2.smul c h.frame.basis.u) = D2 at *
  generalize alongU h.frame p = x at *
  generalize alongV h.frame p = y at *
  generalize h.major = a at *
  generalize h.minor = b at *
  have hca : a < c := by nlinarith
  constructor
  · intro e
    have e1 : a * (D1 + D2) = 2 * c * x := by
      have : (D1 - D2) * (D1 + D2) = 4 * c * x := by linear_combination d1 - d2
      rw [e] at this; linarith
    have e2 : a * D1 = c * x + a ^ 2 := by
      have : D1 + D2 = 2 * D1 - 2 * a := by linarith
      rw [this] at e1; nlinarith
    have e3 : (c * x + a ^ 2) ^ 2 = a ^ 2 * ((x + c) ^ 2 + y ^ 2) := by
      rw [← e2]; linear_combination a ^ 2 * d1
    have heq : b ^ 2 * x ^ 2 - a ^ 2 * y ^ 2 = a ^ 2 * b ^ 2 := by
      have : b ^ 2 = c ^ 2 - a ^ 2 := by linarith
      rw [this]; linear_combination e3
    have hx : x ≠ 0 := by
      rintro rfl
      have : 0 < a ^ 2 * b ^ 2 := by positivity
      nlinarith [mul_nonneg (sq_nonneg a) (sq_nonneg y)]
    refine ⟨?_, by field_simp; linarith⟩
    have : 0 ≤ 2 * c * x := by rw [← e1]; positivity
    have hx0 : 0 ≤ x := by
      by_contra hneg
      have : c * x < 0 := mul_neg_of_pos_of_neg hc (not_le.1 hneg)
      linarith
    exact lt_of_le_of_ne hx0 (Ne.symm hx)
  · rintro ⟨hx, e⟩
    have heq : b ^ 2 * x ^ 2 - a ^ 2 * y ^ 2 = a ^ 2 * b ^ 2 := by field_simp at e; linarith
    have hb2 : b ^ 2 = c ^ 2 - a ^ 2 := by linarith
    rw [hb2] at heq
    have hxa : a ≤ x := by
      have : a ^ 2 ≤ x ^ 2 := by
        have h1 : 0 < c ^ 2 - a ^ 2 := by rw [← hb2]; positivity
        have h2 : (c ^ 2 - a ^ 2) * a ^ 2 ≤ (c ^ 2 - a ^ 2) * x ^ 2 := by nlinarith [mul_nonneg (sq_nonneg a) (sq_nonneg y)]
        exact le_of_mul_le_mul_left h2 h1
      exact (sq_le_sq₀ ha.le hx.le).1 this
    have e1 : a * D1 = c * x + a ^ 2 := by
      apply (sq_eq_sq₀ (by positivity) (by positivity)).mp
      rw [mul_pow, d1]; linear_combination -heq
    have hpos : 0 ≤ c * x - a ^ 2 := by nlinarith
    have e2 : a * D2 = c * x - a ^ 2 := by
      apply (sq_eq_sq₀ (by positivity) hpos).mp
      rw [mul_pow, d2]; linear_combination -heq
    have : a * (D1 - D2) = a * (2 * a) := by linear_combination e1 - e2
    exact mul_left_cancel₀ ha.ne' this

/-! ## Equality -/

/-- C93: no hyperbola is equal to itself. -/
theorem C93_eq_counterexample (h : Hyperbola2) : h.eq h = false := by
  unfold Hyperbola2.eq
  rw [if_neg (by simp), if_pos (Or.inr (by simp))]

/-! ## Points -/

lemma getX_pos {h : Hyperbola2} (ha : 0 < h.major) (y : ℝ) : 0 < h.getX y := by
  unfold Hyperbola2.getX
  apply Real.sqrt_pos.2
  have : 0 ≤ y ^ 2 / h.minor ^ 2 := by positivity
  positivity

lemma getX_sq {h : Hyperbola2} (y : ℝ) : h.getX y ^ 2 = (y ^ 2 / h.minor ^ 2 + 1) * h.major ^ 2 := by
  unfold Hyperbola2.getX
  apply Real.sq_sqrt
  have : 0 ≤ y ^ 2 / h.minor ^ 2 := by positivity
  positivity

lemma on_getX {h : Hyperbola2} (ho : Ortho2 h.frame) (ha : 0 < h.major) (hb : 0 < h.minor) (y : ℝ) :
    OnBranch h (h.frame.localToGlobal ⟨h.getX y, y⟩) := by
  rw [onBranch_iff ho ha hb, ho.alongU_l2g, ho.alongV_l2g]
  refine ⟨getX_pos ha y, ?_⟩
  dsimp only
  rw [getX_sq]
  field_simp
  ring

/-- C93: `get_points` of two bounds (not both zero) gives the asked number of points of the branch, at equally spaced ordinates between the
bounds. -/
theorem C93_points {h : Hyperbola2} (ho : Ortho2 h.frame) (ha : 0 < h.major) (hb : 0 < h.minor) (lo hi : ℝ) (hne : lo ≠ 0 ∨ hi ≠ 0) (n : ℕ) :
    ∃ ps, h.getPoints (some lo) (some hi) n = .ok ps ∧ ps.length = n ∧
      ∀ i (hi' : i < ps.length), OnBranch h ps[i] ∧ alongV h.frame ps[i] = lo + i * ((hi - lo) / (n - 1)) := by
  unfold Hyperbola2.getPoints bounds
  rw [if_neg (by simp only [reduceCtorEq, Option.some.injEq, false_or]; tauto)]
  refine ⟨_, rfl, by simp [npLinspace], fun i hi' => ?_⟩
  simp only [npLinspace, List.getElem_map, List.getElem_range]
  exact ⟨on_getX ho ha hb _, ho.alongV_l2g _⟩

/-! ## Membership -/

/-- The full statement: `point_belongs` accepts the points of the branch. -/
def C93_point_belongs_full_statement : Prop :=
  ∀ (h : Hyperbola2) (p : V2 ℝ), Ortho2 h.frame → 0 < h.major → 0 < h.minor → OnBranch h p → h.pointBelongs p = .ok true

/-- C93: for a minor half axis of one, `point_belongs` accepts the points of the branch, and the points it accepts satisfy the equation of the
hyperbola within the tolerance. -/
theorem C93_point_belongs_partial {h : Hyperbola2} (ho : Ortho2 h.frame) (ha : 0 < h.major) (hb : h.minor = 1) (p : V2 ℝ) (tol : ℝ) :
    ∃ r, h.pointBelongs p tol = .ok r ∧ (OnBranch h p → r = true) ∧
      (r = true ↔ mathIsClose (alongU h.frame p ^ 2 / h.major ^ 2 - alongV h.frame p ^ 2 / h.minor ^ 2) 1 tol) := by
  unfold Hyperbola2.pointBelongs
  rw [ho.g2l]
  refine ⟨_, rfl, fun hp => ?_, ?_⟩
  · rw [onBranch_iff ho ha (by rw [hb]; norm_num)] at hp
    simp only [decide_eq_true_eq]
    have e := hp.2
    rw [hb] at e
    rw [hb, pow_one, show alongV h.frame p ^ 2 / 1 = alongV h.frame p ^ 2 / 1 ^ 2 by norm_num, e]
    unfold mathIsClose
    rw [sub_self, abs_zero]
    exact le_max_of_le_left (by positivity)
  · simp only [decide_eq_true_eq]
    rw [hb]
    norm_num

/-- The hyperbola with half axes `1` and `2` in the standard frame. -/
noncomputable def exHyperbola : Hyperbola2 := ⟨⟨⟨0, 0⟩, ⟨⟨1, 0⟩, ⟨0, 1⟩⟩⟩, 1, 2⟩

lemma std_ortho : Ortho2 ⟨⟨0, 0⟩, ⟨⟨1, 0⟩, ⟨0, 1⟩⟩⟩ := ⟨by norm_num [V2.dot], by norm_num [V2.dot], by norm_num [V2.dot]⟩

lemma std_u (p : V2 ℝ) : alongU ⟨⟨0, 0⟩, ⟨⟨1, 0⟩, ⟨0, 1⟩⟩⟩ p = p.x := by
  change (p.x - 0) * 1 + (p.y - 0) * 0 = _; ring
lemma std_v (p : V2 ℝ) : alongV ⟨⟨0, 0⟩, ⟨⟨1, 0⟩, ⟨0, 1⟩⟩⟩ p = p.y := by
  change (p.x - 0) * 0 + (p.y - 0) * 1 = _; ring

/-- C93: false.  The point `(√2, 2)` of the hyperbola `x² - y²/4 = 1` is refused: the minor half axis is not squared. -/
theorem C93_point_belongs_counterexample : ¬C93_point_belongs_full_statement := by
  intro hfull
  have h1 := hfull exHyperbola ⟨Real.sqrt 2, 2⟩ std_ortho (by norm_num [exHyperbola]) (by norm_num [exHyperbola]) (by
    rw [onBranch_iff std_ortho (by norm_num [exHyperbola]) (by norm_num [exHyperbola])]
    change 0 < alongU ⟨⟨0, 0⟩, ⟨⟨1, 0⟩, ⟨0, 1⟩⟩⟩ _ ∧ (alongU ⟨⟨0, 0⟩, ⟨⟨1, 0⟩, ⟨0, 1⟩⟩⟩ _) ^ 2 / 1 ^ 2 - (alongV ⟨⟨0, 0⟩, ⟨⟨1, 0⟩, ⟨0, 1⟩⟩⟩ _) ^ 2 / 2 ^ 2 = 1
    rw [std_u, std_v]
    refine ⟨Real.sqrt_pos.2 (by norm_num), ?_⟩
    dsimp only
    rw [Real.sq_sqrt (by norm_num)]
    norm_num)
  unfold Hyperbola2.pointBelongs at h1
  rw [show exHyperbola.frame = ⟨⟨0, 0⟩, ⟨⟨1, 0⟩, ⟨0, 1⟩⟩⟩ from rfl, std_ortho.g2l, std_u, std_v] at h1
  injection h1 with h1
  classical
  replace h1 := of_decide_eq_true h1
  dsimp only at h1
  rw [Real.sq_sqrt (by norm_num)] at h1
  unfold mathIsClose exHyperbola at h1
  norm_num at h1

/-! ## Tangent -/

/-- The full statement: the tangent is along the velocity of the differentiable motions on the branch. -/
def C93_tangent_full_statement : Prop :=
  ∀ (h : Hyperbola2) (p : V2 ℝ), Ortho2 h.frame → 0 < h.major → 0 < h.minor → OnBranch h p →
    ∃ t, h.tangent p = .ok t ∧ t ≠ ⟨0, 0⟩ ∧
      ∀ (X Y : ℝ → ℝ) (s X' Y' : ℝ), (∀ r, OnBranch h ⟨X r, Y r⟩) → HasDerivAt X X' s → HasDerivAt Y Y' s → X s = p.x → Y s = p.y →
        ∃ k : ℝ, X' = k * t.x ∧ Y' = k * t.y

lemma tangent_std {h : Hyperbola2} (hf : h.frame = ⟨⟨0, 0⟩, ⟨⟨1, 0⟩, ⟨0, 1⟩⟩⟩) (p : V2 ℝ) : h.tangent p = .ok ⟨h.getDxDy p, 1⟩ := by
  unfold Hyperbola2.tangent
  rw [hf, std_ortho.g2l, std_u, std_v]
  change Except.ok (Frame2.localToGlobal _ (⟨p.x, p.y⟩ + ⟨h.getDxDy p, 1⟩ : V2 ℝ) - p) = _
  congr 1
  ext
  · simp only [V2.sub_x, l2g_x, V2.add_x, V2.add_y]; ring
  · simp only [V2.sub_y, l2g_y, V2.add_x, V2.add_y]; ring

/-- On the branch, the slope is `a² y / (b² x)`. -/
lemma dxdy_eq {h : Hyperbola2} (ha : 0 < h.major) (hb : 0 < h.minor) (p : V2 ℝ) (hx : 0 < p.x)
    (he : p.x ^ 2 / h.major ^ 2 - p.y ^ 2 / h.minor ^ 2 = 1) : h.getDxDy p = h.major ^ 2 * p.y / (h.minor ^ 2 * p.x) := by
  unfold Hyperbola2.getDxDy
  have : h.major ^ 2 * p.y ^ 2 / h.minor ^ 2 + h.major ^ 2 = p.x ^ 2 := by field_simp at he ⊢; linarith
  rw [this, Real.sqrt_sq hx.le]

/-- C93: in the standard frame the tangent is along the velocity of the differentiable motions on the branch. -/
theorem C93_tangent_partial (h : Hyperbola2) (hf : h.frame = ⟨⟨0, 0⟩, ⟨⟨1, 0⟩, ⟨0, 1⟩⟩⟩) (ha : 0 < h.major) (hb : 0 < h.minor) (p : V2 ℝ) (hp : OnBranch h p) :
    ∃ t, h.tangent p = .ok t ∧ t ≠ ⟨0, 0⟩ ∧
      ∀ (X Y : ℝ → ℝ) (s X' Y' : ℝ), (∀ r, OnBranch h ⟨X r, Y r⟩) → HasDerivAt X X' s → HasDerivAt Y Y' s → X s = p.x → Y s = p.y →
        ∃ k : ℝ, X' = k * t.x ∧ Y' = k * t.y := by
  have ho : Ortho2 h.frame := by rw [hf]; exact std_ortho
  have heq : ∀ q, OnBranch h q ↔ 0 < q.x ∧ q.x ^ 2 / h.major ^ 2 - q.y ^ 2 / h.minor ^ 2 = 1 := by
    intro q
    rw [onBranch_iff ho ha hb, hf, std_u, std_v]
  obtain ⟨px, pe⟩ := (heq p).1 hp
  refine ⟨_, tangent_std hf p, fun e => by have := congrArg V2.y e; norm_num at this, ?_⟩
  intro X Y s X' Y' hon hX hY hXs hYs
  have hD : HasDerivAt (fun r => X r ^ 2 / h.major ^ 2 - Y r ^ 2 / h.minor ^ 2)
      ((2 : ℕ) * X s ^ (2 - 1) * X' / h.major ^ 2 - (2 : ℕ) * Y s ^ (2 - 1) * Y' / h.minor ^ 2) s :=
    ((hX.pow 2).div_const _).sub ((hY.pow 2).div_const _)
  have hfun : (fun r => X r ^ 2 / h.major ^ 2 - Y r ^ 2 / h.minor ^ 2) = fun _ => (1 : ℝ) := funext fun r => ((heq _).1 (hon r)).2
  rw [hfun] at hD
  have e := hD.unique (hasDerivAt_const s 1)
  rw [hXs, hYs] at e
  norm_num at e
  refine ⟨Y', ?_, by dsimp only; ring⟩
  dsimp only
  rw [dxdy_eq ha hb p px pe]
  field_simp
  field_simp at e
  linarith

/-- C93: false.  At the vertex `(1, 10)` of the hyperbola `x² - (y - 10)² = 1` the tangent is along `(0, 1)`; the vector returned has the first
coordinate `10/√101`, since the slope is taken at the ordinate 10. -/
theorem C93_tangent_counterexample : ¬C93_tangent_full_statement := by
  intro hfull
  set f : Frame2 ℝ := ⟨⟨0, 10⟩, ⟨⟨1, 0⟩, ⟨0, 1⟩⟩⟩ with hf
  have ho : Ortho2 f := ⟨by norm_num [hf, V2.dot], by norm_num [hf, V2.dot], by norm_num [hf, V2.dot]⟩
  have hu : ∀ p, alongU f p = p.x := fun p => by change (p.x - 0) * 1 + (p.y - 10) * 0 = _; ring
  have hv : ∀ p, alongV f p = p.y - 10 := fun p => by change (p.x - 0) * 0 + (p.y - 10) * 1 = _; ring
  set h : Hyperbola2 := ⟨f, 1, 1⟩ with hh
  have heq : ∀ q, OnBranch h q ↔ 0 < q.x ∧ q.x ^ 2 / 1 ^ 2 - (q.y - 10) ^ 2 / 1 ^ 2 = 1 := by
    intro q
    rw [onBranch_iff (h := h) ho (by norm_num [hh]) (by norm_num [hh]), hu, hv]
  obtain ⟨t, ht, -, hm⟩ := hfull h ⟨1, 10⟩ ho (by norm_num [hh]) (by norm_num [hh]) ((heq _).2 (by norm_num))
  have ht' : t.x = h.getDxDy ⟨1, 10⟩ := by
    unfold Hyperbola2.tangent at ht
    rw [show h.frame = f from rfl, ho.g2l, hu, hv] at ht
    injection ht with ht
    rw [← ht]
    simp only [V2.sub_x, l2g_x, V2.add_x, V2.add_y, hf]
    norm_num
  have hpos : 0 < h.getDxDy ⟨1, 10⟩ := by
    unfold Hyperbola2.getDxDy
    have : (0 : ℝ) < h.minor := by norm_num [hh]
    have : (0 : ℝ) < h.major := by norm_num [hh]
    dsimp only
    positivity
  -- the motion `(√(1 + r²), 10 + r)`
  have hX : HasDerivAt (fun r : ℝ => Real.sqrt (1 + r ^ 2)) (((2 : ℕ) * (0 : ℝ) ^ (2 - 1) * 1) / (2 * Real.sqrt (1 + 0 ^ 2))) 0 :=
    HasDerivAt.sqrt (((hasDerivAt_id' (0 : ℝ)).pow 2).const_add 1) (by norm_num)
  have hY : HasDerivAt (fun r : ℝ => 10 + r) 1 0 := (hasDerivAt_id' (0 : ℝ)).const_add 10
  obtain ⟨k, k1, k2⟩ := hm _ _ 0 _ _ (fun r => (heq _).2 ⟨Real.sqrt_pos.2 (by positivity), by
    dsimp only; rw [Real.sq_sqrt (by positivity)]; ring⟩) hX hY (by norm_num) (by norm_num)
  norm_num at k1
  rw [ht'] at k1
  rcases k1 with k1 | k1
  · rw [k1] at k2; norm_num at k2
  · linarith

/-! ## Lines -/

/-- The full statement: the points returned are the common points of the line and of the branch. -/
def C93_line_full_statement : Prop :=
  ∀ (h : Hyperbola2) (l : Line2), Ortho2 h.frame → 0 < h.major → 0 < h.minor → l.point1 ≠ l.point2 →
    ∃ ps, h.lineIntersections l = .ok ps ∧ ∀ p, p ∈ ps ↔ OnLine2 l.point1 l.point2 p ∧ OnBranch h p

/-- C93: for a line that is parallel neither to the second axis nor to an asymptote, the points returned are exactly the common points of the line
and of the branch. -/
theorem C93_line_partial {h : Hyperbola2} (ho : Ortho2 h.frame) (ha : 0 < h.major) (hb : 0 < h.minor) (l : Line2)
    (hn : alongU h.frame l.point1 ≠ alongU h.frame l.point2)
    (has : h.major * |alongV h.frame l.point2 - alongV h.frame l.point1| ≠ h.minor * |alongU h.frame l.point2 - alongU h.frame l.point1|) :
    ∃ ps, h.lineIntersections l = .ok ps ∧ ∀ p, p ∈ ps ↔ OnLine2 l.point1 l.point2 p ∧ OnBranch h p := by
  obtain ⟨m, c, hs, hm', hl⟩ := onLine_slope ho l hn
  have hd : alongU h.frame l.point2 - alongU h.frame l.point1 ≠ 0 := fun e => hn (by linarith)
  have hqa : h.major ^ 2 * m ^ 2 - h.minor ^ 2 ≠ 0 := by
    intro e
    apply has
    apply (sq_eq_sq₀ (by positivity) (by positivity)).mp
    rw [mul_pow, mul_pow, sq_abs, sq_abs]
    rw [hm'] at e
    field_simp at e
    linarith
  have hbr : ∀ p, (OnLine2 l.point1 l.point2 p ∧ OnBranch h p) ↔ alongV h.frame p = m * alongU h.frame p + c ∧ 0 < alongU h.frame p ∧
      (h.major ^ 2 * m ^ 2 - h.minor ^ 2) * alongU h.frame p ^ 2 + 2 * h.major ^ 2 * m * c * alongU h.frame p + h.major ^ 2 * (h.minor ^ 2 + c ^ 2) = 0 := by
    intro p
    rw [hl, onBranch_iff ho ha hb]
    constructor
    · rintro ⟨e1, e2, e3⟩
      refine ⟨e1, e2, ?_⟩
      rw [e1] at e3
      field_simp at e3
      linear_combination -e3
    · rintro ⟨e1, e2, e3⟩
      refine ⟨e1, e2, ?_⟩
      rw [e1]
      field_simp
      linear_combination -e3
  unfold Hyperbola2.lineIntersections
  rw [toLocal_eq ho]
  change ∃ ps, h.lineLocal _ = .ok ps ∧ _
  unfold Hyperbola2.lineLocal
  rw [hs]
  dsimp only
  have hdisc : (2 * h.major ^ 2 * m * c) ^ 2 - 4 * (h.major ^ 2 * m ^ 2 - h.minor ^ 2) * (h.major ^ 2 * (h.minor ^ 2 + c ^ 2)) =
      4 * h.major ^ 2 * h.minor ^ 2 * (c ^ 2 - (h.major ^ 2 * m ^ 2 - h.minor ^ 2)) := by ring
  by_cases hlt : c ^ 2 < h.major ^ 2 * m ^ 2 - h.minor ^ 2
  · rw [if_pos hlt]
    refine ⟨_, rfl, fun p => ?_⟩
    rw [hbr]
    constructor
    · intro hp; simp at hp
    · rintro ⟨-, -, e⟩
      exfalso
      have h1 : (2 * (h.major ^ 2 * m ^ 2 - h.minor ^ 2) * alongU h.frame p + 2 * h.major ^ 2 * m * c) ^ 2 =
          4 * h.major ^ 2 * h.minor ^ 2 * (c ^ 2 - (h.major ^ 2 * m ^ 2 - h.minor ^ 2)) := by
        rw [← hdisc]; linear_combination 4 * (h.major ^ 2 * m ^ 2 - h.minor ^ 2) * e
      have h2 : 4 * h.major ^ 2 * h.minor ^ 2 * (c ^ 2 - (h.major ^ 2 * m ^ 2 - h.minor ^ 2)) < 0 :=
        mul_neg_of_pos_of_neg (by positivity) (by linarith)
      rw [← h1] at h2
      exact absurd (sq_nonneg _) (not_le.2 h2)
  · rw [if_neg hlt, if_neg hqa]
    refine ⟨_, rfl, fun p => ?_⟩
    rw [hbr]
    have hD0 : 0 ≤ (2 * h.major ^ 2 * m * c) ^ 2 - 4 * (h.major ^ 2 * m ^ 2 - h.minor ^ 2) * (h.major ^ 2 * (h.minor ^ 2 + c ^ 2)) := by
      rw [hdisc]; exact mul_nonneg (by positivity) (by linarith)
    have hsq := Real.sq_sqrt hD0
    generalize Real.sqrt ((2 * h.major ^ 2 * m * c) ^ 2 - 4 * (h.major ^ 2 * m ^ 2 - h.minor ^ 2) * (h.major ^ 2 * (h.minor ^ 2 + c ^ 2))) = s at hsq ⊢
    generalize h.major ^ 2 * m ^ 2 - h.minor ^ 2 = A at *
    generalize 2 * h.major ^ 2 * m * c = B at *
    generalize h.major ^ 2 * (h.minor ^ 2 + c ^ 2) = C at *
    have hroot : ∀ x : ℝ, A * x ^ 2 + B * x + C = 0 ↔ x = (-B + s) / (2 * A) ∨ x = (-B - s) / (2 * A) := by
      intro x
      have h1 : 4 * A * (A * x ^ 2 + B * x + C) = (2 * A * x + B - s) * (2 * A * x + B + s) := by linear_combination hsq
      constructor
      · intro e
        rw [e, mul_zero] at h1
        rcases mul_eq_zero.1 h1.symm with e | e
        · left; field_simp; linarith
        · right; field_simp; linarith
      · rintro (rfl | rfl)
        · field_simp; linear_combination hsq
        · field_simp; linear_combination hsq
    rw [hroot]
    generalize (-B + s) / (2 * A) = x1
    generalize (-B - s) / (2 * A) = x2
    have hpt : ∀ x : ℝ, p = h.frame.localToGlobal ⟨x, m * x + c⟩ ↔ alongV h.frame p = m * alongU h.frame p + c ∧ alongU h.frame p = x := by
      intro x
      constructor
      · rintro rfl; rw [ho.alongU_l2g, ho.alongV_l2g]; exact ⟨rfl, rfl⟩
      · rintro ⟨e1, e2⟩
        exact ho.ext (by rw [ho.alongU_l2g, e2]) (by rw [ho.alongV_l2g, e1, e2])
    by_cases h1 : x1 > 0 <;> by_cases h2 : x2 > 0 <;> simp only [h1, h2, if_true, if_false, List.cons_append, List.nil_append, List.append_nil,
      List.map_cons, List.map_nil, List.mem_cons, List.not_mem_nil, or_false, hpt] <;> grind

/-- The hypotheses of `C93_line_partial` hold for the line `y = 1` and the example, which meet at `(√5/2, 1)`. -/
example : alongU exHyperbola.frame ⟨0, 1⟩ ≠ alongU exHyperbola.frame ⟨1, 1⟩ ∧
    exHyperbola.major * |alongV exHyperbola.frame ⟨1, 1⟩ - alongV exHyperbola.frame ⟨0, 1⟩| ≠
      exHyperbola.minor * |alongU exHyperbola.frame ⟨1, 1⟩ - alongU exHyperbola.frame ⟨0, 1⟩| := by
  rw [show exHyperbola.frame = ⟨⟨0, 0⟩, ⟨⟨1, 0⟩, ⟨0, 1⟩⟩⟩ from rfl, std_u, std_u, std_v, std_v]
  norm_num [exHyperbola]

example : OnBranch exHyperbola ⟨1, 0⟩ := by
  rw [onBranch_iff std_ortho (by norm_num [exHyperbola]) (by norm_num [exHyperbola])]
  change 0 < alongU ⟨⟨0, 0⟩, ⟨⟨1, 0⟩, ⟨0, 1⟩⟩⟩ _ ∧ (alongU ⟨⟨0, 0⟩, ⟨⟨1, 0⟩, ⟨0, 1⟩⟩⟩ _) ^ 2 / 1 ^ 2 - (alongV ⟨⟨0, 0⟩, ⟨⟨1, 0⟩, ⟨0, 1⟩⟩⟩ _) ^ 2 / 2 ^ 2 = 1
  rw [std_u, std_v]
  norm_num

/-- C93: false.  The line `y = x - 1` meets the hyperbola `x² - y² = 1` at `(1, 0)`; nothing is returned, as for every line parallel to an
asymptote. -/
theorem C93_line_counterexample : ¬C93_line_full_statement := by
  intro hfull
  set h : Hyperbola2 := ⟨⟨⟨0, 0⟩, ⟨⟨1, 0⟩, ⟨0, 1⟩⟩⟩, 1, 1⟩ with hh
  obtain ⟨ps, h1, h2⟩ := hfull h ⟨⟨0, -1⟩, ⟨1, 0⟩⟩ std_ortho (by norm_num [hh]) (by norm_num [hh]) (fun e => by have := congrArg V2.x e; norm_num at this)
  have h3 := (h2 ⟨1, 0⟩).2 ⟨⟨1, by norm_num, by norm_num⟩, by
    rw [onBranch_iff (h := h) std_ortho (by norm_num [hh]) (by norm_num [hh])]
    change 0 < alongU ⟨⟨0, 0⟩, ⟨⟨1, 0⟩, ⟨0, 1⟩⟩⟩ _ ∧ (alongU ⟨⟨0, 0⟩, ⟨⟨1, 0⟩, ⟨0, 1⟩⟩⟩ _) ^ 2 / 1 ^ 2 - (alongV ⟨⟨0, 0⟩, ⟨⟨1, 0⟩, ⟨0, 1⟩⟩⟩ _) ^ 2 / 1 ^ 2 = 1
    rw [std_u, std_v]
    norm_num⟩
  unfold Hyperbola2.lineIntersections at h1
  rw [show h.frame = ⟨⟨0, 0⟩, ⟨⟨1, 0⟩, ⟨0, 1⟩⟩⟩ from rfl, toLocal_eq std_ortho] at h1
  simp only [std_u, std_v] at h1
  change h.lineLocal _ = _ at h1
  unfold Hyperbola2.lineLocal slopeIntercept at h1
  rw [if_neg (by norm_num)] at h1
  dsimp only at h1
  rw [if_neg (by norm_num [hh]), if_pos (by norm_num [hh])] at h1
  injection h1 with h1
  rw [← h1] at h3
  simp at h3

/-- C93: a line parallel to the second axis makes the call fail (`TypeError`), although it may meet the branch. -/
theorem C93_vertical_counterexample {h : Hyperbola2} (ho : Ortho2 h.frame) (l : Line2) (hn : alongU h.frame l.point1 = alongU h.frame l.point2) :
    h.lineIntersections l = .error .typeError := by
  unfold Hyperbola2.lineIntersections
  rw [toLocal_eq ho]
  change h.lineLocal _ = _
  unfold Hyperbola2.lineLocal slopeIntercept
  rw [if_pos hn]

end Volmdlr.Conic
