import Verif.Conic.ParabolaProps
import Verif.Nurbs.CurveProps

/-!
# `Parabola2D.line_intersections` and `trim` (C91, C92)
-/

namespace Volmdlr.Conic

open Volmdlr.Angle Volmdlr.Arc Volmdlr.Intersect

/-! ## Lines -/

/-- The full statement: the points returned are the common points of the line and of the parabola. -/
def C92_full_statement : Prop :=
  ∀ (P : Parabola2) (l : Line2), Ortho2 P.frame → 0 < P.focal → l.point1 ≠ l.point2 →
    ∃ ps, P.lineIntersections l = .ok ps ∧ ∀ p, p ∈ ps ↔ OnLine2 l.point1 l.point2 p ∧ OnParabola P p

lemma lineIntersections_eq {P : Parabola2} (h : Ortho2 P.frame) (l : Line2) (tol : ℝ) (m c : ℝ)
    (hs : slopeIntercept ⟨⟨alongU P.frame l.point1, alongV P.frame l.point1⟩, ⟨alongU P.frame l.point2, alongV P.frame l.point2⟩⟩ = some (m, c)) :
    (m ^ 2 > -4 * P.a * c → P.lineIntersections l tol =
      .ok [P.frame.localToGlobal ⟨(m + Real.sqrt (m ^ 2 - 4 * P.a * (-c))) / (2 * P.a), m * ((m + Real.sqrt (m ^ 2 - 4 * P.a * (-c))) / (2 * P.a)) + c⟩,
        P.frame.localToGlobal ⟨(m - Real.sqrt (m ^ 2 - 4 * P.a * (-c))) / (2 * P.a), m * ((m - Real.sqrt (m ^ 2 - 4 * P.a * (-c))) / (2 * P.a)) + c⟩]) ∧
    (¬m ^ 2 > -4 * P.a * c → mathIsClose (m ^ 2) (-4 * P.a * c) tol → P.lineIntersections l tol = .ok [⟨m / (2 * P.a), m * (m / (2 * P.a)) + c⟩]) ∧
    (¬m ^ 2 > -4 * P.a * c → ¬mathIsClose (m ^ 2) (-4 * P.a * c) tol → P.lineIntersections l tol = .ok []) := by
  unfold Parabola2.lineIntersections
  rw [toLocal_eq h]
  change (_ → P.lineLocal _ tol = _) ∧ (_ → _ → P.lineLocal _ tol = _) ∧ (_ → _ → P.lineLocal _ tol = _)
  unfold Parabola2.lineLocal
  simp only [hs]
  refine ⟨fun h1 => if_pos h1, fun h1 h2 => ?_, fun h1 h2 => ?_⟩
  · rw [if_neg h1, if_pos h2]
  · rw [if_neg h1, if_neg h2]

/-- C92: a line that is not parallel to the axis and that meets the parabola at two points: the points returned are exactly the common points. -/
theorem C92_secant_partial {P : Parabola2} (h : Ortho2 P.frame) (hF : 0 < P.focal) (l : Line2) (hn : alongU P.frame l.point1 ≠ alongU P.frame l.point2)
    (tol : ℝ) (hm : ∃ p q, p ≠ q ∧ (OnLine2 l.point1 l.point2 p ∧ OnParabola P p) ∧ OnLine2 l.point1 l.point2 q ∧ OnParabola P q) :
    ∃ p q, P.lineIntersections l tol = .ok [p, q] ∧ p ≠ q ∧ ∀ x, (x = p ∨ x = q) ↔ OnLine2 l.point1 l.point2 x ∧ OnParabola P x := by
  obtain ⟨m, c, hs, hm', hl⟩ := onLine_slope h l hn
  have ha := a_pos hF
  obtain ⟨p, q, hpq, ⟨p1, p2⟩, q1, q2⟩ := hm
  rw [hl] at p1 q1
  rw [onParabola_iff h hF] at p2 q2
  have hne : alongU P.frame p ≠ alongU P.frame q := fun e => hpq (h.ext e (by rw [p1, q1, e]))
  have hsum : P.a * (alongU P.frame p + alongU P.frame q) = m := by
    have : (alongU P.frame p - alongU P.frame q) * (P.a * (alongU P.frame p + alongU P.frame q) - m) = 0 := by
      linear_combination p1 - p2 - q1 + q2
    rcases mul_eq_zero.1 this with e | e
    · exact absurd (by linarith) hne
    · linarith
  have hdisc : m ^ 2 - 4 * P.a * (-c) = (P.a * (alongU P.frame p - alongU P.frame q)) ^ 2 := by
    rw [← hsum]
    have : c = P.a * alongU P.frame p ^ 2 - m * alongU P.frame p := by linarith
    rw [this, ← hsum]
    ring
  have hpos : m ^ 2 > -4 * P.a * c := by
    have : 0 < (P.a * (alongU P.frame p - alongU P.frame q)) ^ 2 := by
      have := mul_ne_zero ha.ne' (sub_ne_zero.2 hne)
      positivity
    linarith
  have hD : 0 < m ^ 2 - 4 * P.a * (-c) := by linarith
  have hsq : Real.sqrt (m ^ 2 - 4 * P.a * (-c)) ^ 2 = m ^ 2 - 4 * P.a * (-c) := Real.sq_sqrt hD.le
  have hsp := Real.sqrt_pos.2 hD
  refine ⟨_, _, (lineIntersections_eq h l tol m c hs).1 hpos, ?_, ?_⟩
  · intro e
    have e1 := congrArg (alongU P.frame) e
    rw [h.alongU_l2g, h.alongU_l2g] at e1
    dsimp only at e1
    rw [div_left_inj' (by positivity)] at e1
    linarith
  · intro x
    generalize Real.sqrt (m ^ 2 - 4 * P.a * (-c)) = s at hsq hsp ⊢
    rw [hl, onParabola_iff h hF]
    constructor
    · rintro (rfl | rfl)
      · rw [h.alongU_l2g, h.alongV_l2g]
        dsimp only
        refine ⟨rfl, ?_⟩
        field_simp
        linear_combination -hsq
      · rw [h.alongU_l2g, h.alongV_l2g]
        dsimp only
        refine ⟨rfl, ?_⟩
        field_simp
        linear_combination -hsq
    · rintro ⟨x1, x2⟩
      have hx : (2 * P.a * alongU P.frame x - m - s) * (2 * P.a * alongU P.frame x - m + s) = 0 := by
        linear_combination 4 * P.a * x1 - 4 * P.a * x2 - hsq
      rcases mul_eq_zero.1 hx with e | e
      · left
        have e1 : alongU P.frame x = (m + s) / (2 * P.a) := by field_simp; linarith
        exact h.ext (by rw [h.alongU_l2g, e1]) (by rw [h.alongV_l2g, x1, e1])
      · right
        have e1 : alongU P.frame x = (m - s) / (2 * P.a) := by field_simp; linarith
        exact h.ext (by rw [h.alongU_l2g, e1]) (by rw [h.alongV_l2g, x1, e1])

/-- C92: a line that stays under the parabola, clearly: no point is returned.  -/
theorem C92_missing_partial {P : Parabola2} (h : Ortho2 P.frame) (hF : 0 < P.focal) (l : Line2) (hn : alongU P.frame l.point1 ≠ alongU P.frame l.point2)
    (hm : ∀ p, OnLine2 l.point1 l.point2 p → alongV P.frame p +
      P.focal * (1 / 10 ^ 6 + 2 / 10 ^ 9 * ((alongV P.frame l.point2 - alongV P.frame l.point1) / (alongU P.frame l.point2 - alongU P.frame l.point1)) ^ 2)
        < P.a * alongU P.frame p ^ 2) :
    P.lineIntersections l = .ok [] := by
  obtain ⟨m, c, hs, hm', hl⟩ := onLine_slope h l hn
  rw [← hm'] at hm
  have ha := a_pos hF
  have haF : P.a * P.focal = 1 / 4 := by unfold Parabola2.a; field_simp
  have h1 := hm (P.frame.localToGlobal ⟨m / (2 * P.a), m * (m / (2 * P.a)) + c⟩) (by rw [hl, h.alongU_l2g, h.alongV_l2g])
  rw [h.alongU_l2g, h.alongV_l2g] at h1
  dsimp only at h1
  have h2 : 4 * P.a * (m * (m / (2 * P.a)) + c + P.focal * (1 / 10 ^ 6 + 2 / 10 ^ 9 * m ^ 2)) < 4 * P.a * (P.a * (m / (2 * P.a)) ^ 2) :=
    mul_lt_mul_of_pos_left h1 (by positivity)
  have e1 : 4 * P.a * (m * (m / (2 * P.a)) + c + P.focal * (1 / 10 ^ 6 + 2 / 10 ^ 9 * m ^ 2)) = 2 * m ^ 2 + 4 * P.a * c + 4 * (P.a * P.focal) * (1 / 10 ^ 6 + 2 / 10 ^ 9 * m ^ 2) := by
    field_simp; ring
  have e2 : 4 * P.a * (P.a * (m / (2 * P.a)) ^ 2) = m ^ 2 := by field_simp; ring
  rw [e1, e2, haF] at h2
  apply (lineIntersections_eq h l _ m c hs).2.2
  · nlinarith [sq_nonneg m]
  · unfold mathIsClose
    generalize hw : -4 * P.a * c = w
    have hw' : 4 * P.a * c = -w := by linarith
    rw [hw'] at h2
    have hwm : m ^ 2 + 1 / 10 ^ 6 + 2 / 10 ^ 9 * m ^ 2 < w := by linarith
    have hm2 := sq_nonneg m
    have hw0 : 0 < w := by nlinarith
    rw [abs_of_nonneg hm2, abs_of_pos hw0, max_eq_right (by nlinarith : m ^ 2 ≤ w), abs_of_nonpos (by nlinarith : m ^ 2 - w ≤ 0), not_le, max_lt_iff]
    constructor <;> nlinarith

/-- C92: in the standard frame, a tangent that is not parallel to the axis gives the point of contact alone. -/
theorem C92_tangent_partial (F : ℝ) (hF : 0 < F) (l : Line2) (hn : l.point1.x ≠ l.point2.x) (p : V2 ℝ)
    (hp : ∀ x, OnLine2 l.point1 l.point2 x ∧ OnParabola ⟨⟨⟨0, 0⟩, ⟨⟨1, 0⟩, ⟨0, 1⟩⟩⟩, F⟩ x ↔ x = p) :
    Parabola2.lineIntersections ⟨⟨⟨0, 0⟩, ⟨⟨1, 0⟩, ⟨0, 1⟩⟩⟩, F⟩ l = .ok [p] := by
  set P : Parabola2 := ⟨⟨⟨0, 0⟩, ⟨⟨1, 0⟩, ⟨0, 1⟩⟩⟩, F⟩ with hP
  have h : Ortho2 P.frame := ⟨by norm_num [hP, V2.dot], by norm_num [hP, V2.dot], by norm_num [hP, V2.dot]⟩
  have hu : ∀ q, alongU P.frame q = q.x := by
    intro q
    change (q.x - 0) * 1 + (q.y - 0) * 0 = q.x
    ring
  have hv : ∀ q, alongV P.frame q = q.y := by
    intro q
    change (q.x - 0) * 0 + (q.y - 0) * 1 = q.y
    ring
  obtain ⟨m, c, hs, hm', hl⟩ := onLine_slope h l (by rw [hu, hu]; exact hn)
  have ha := a_pos (P := P) hF
  have hx : ∀ x : ℝ, m * x + c = P.a * x ^ 2 ↔ x = p.x := by
    intro x
    have := hp ⟨x, m * x + c⟩
    rw [hl, onParabola_iff h hF, hu, hv] at this
    constructor
    · intro e; exact congrArg V2.x (this.1 ⟨rfl, e⟩)
    · rintro rfl
      have hpp := (hp p).2 rfl
      rw [hl, onParabola_iff h hF, hu, hv] at hpp
      rw [← hpp.1, hpp.2]
  have hp0 := (hx p.x).2 rfl
  have hpx : p.x = m / (2 * P.a) := by
    have := (hx (m / P.a - p.x)).1 (by
      have e : P.a * (m / P.a) = m := by field_simp
      generalize m / P.a = w at e ⊢
      rw [← e]; rw [← e] at hp0; linear_combination hp0)
    field_simp
    field_simp at this
    linarith
  have hd : m ^ 2 = -4 * P.a * c := by
    rw [hpx] at hp0; field_simp at hp0; linarith
  have hpy : p.y = m * p.x + c := by
    have hpp := (hp p).2 rfl
    rw [hl, hu, hv] at hpp
    exact hpp.1
  rw [(lineIntersections_eq h l _ m c hs).2.1 (by rw [← hd]; exact lt_irrefl _) (by
    unfold mathIsClose; rw [← hd, sub_self, abs_zero]; exact le_max_of_le_left (by positivity)), ← hpx, ← hpy]

/-- C92: false.  The tangent `y = 1` at the vertex of the parabola `4(y - 1) = x²` gives the point `(0, 0)`, which is not on the line: the point
of contact is returned in the coordinates of the frame of the parabola. -/
theorem C92_tangent_counterexample : ¬C92_full_statement := by
  intro hfull
  set P : Parabola2 := ⟨⟨⟨0, 1⟩, ⟨⟨1, 0⟩, ⟨0, 1⟩⟩⟩, 1⟩ with hP
  have h : Ortho2 P.frame := ⟨by norm_num [hP, V2.dot], by norm_num [hP, V2.dot], by norm_num [hP, V2.dot]⟩
  obtain ⟨ps, h1, h2⟩ := hfull P ⟨⟨0, 1⟩, ⟨1, 1⟩⟩ h (by norm_num) (fun e => by have := congrArg V2.x e; norm_num at this)
  have hs : slopeIntercept ⟨⟨alongU P.frame ⟨0, 1⟩, alongV P.frame ⟨0, 1⟩⟩, ⟨alongU P.frame ⟨1, 1⟩, alongV P.frame ⟨1, 1⟩⟩⟩ = some (0, 0) := by
    unfold slopeIntercept
    have e1 : alongU P.frame ⟨0, 1⟩ = 0 := by change ((0 : ℝ) - 0) * 1 + (1 - 1) * 0 = 0; norm_num
    have e2 : alongU P.frame ⟨1, 1⟩ = 1 := by change ((1 : ℝ) - 0) * 1 + (1 - 1) * 0 = 1; norm_num
    have e3 : alongV P.frame ⟨0, 1⟩ = 0 := by change ((0 : ℝ) - 0) * 0 + (1 - 1) * 1 = 0; norm_num
    have e4 : alongV P.frame ⟨1, 1⟩ = 0 := by change ((1 : ℝ) - 0) * 0 + (1 - 1) * 1 = 0; norm_num
    rw [e1, e2, e3, e4]
    norm_num
  have h3 := (lineIntersections_eq h ⟨⟨0, 1⟩, ⟨1, 1⟩⟩ (1 / 10 ^ 6) 0 0 hs).2.1 (by norm_num) (by
    unfold mathIsClose; norm_num)
  rw [h3] at h1
  injection h1 with h1
  rw [← h1] at h2
  have h4 := ((h2 ⟨0 / (2 * P.a), 0 * (0 / (2 * P.a)) + 0⟩).1 (List.mem_singleton.2 rfl)).1
  obtain ⟨t, -, e⟩ := h4
  norm_num at e

/-- C92: a line parallel to the axis meets the parabola, and the call fails (`TypeError`). -/
theorem C92_axis_counterexample {P : Parabola2} (h : Ortho2 P.frame) (l : Line2) (hn : alongU P.frame l.point1 = alongU P.frame l.point2) :
    P.lineIntersections l = .error .typeError := by
  unfold Parabola2.lineIntersections
  rw [toLocal_eq h]
  change P.lineLocal _ _ = _
  unfold Parabola2.lineLocal slopeIntercept
  rw [if_pos hn]

/-- The parabola `y = x²/4` used in the examples. -/
noncomputable def exParabola : Parabola2 := ⟨⟨⟨0, 0⟩, ⟨⟨1, 0⟩, ⟨0, 1⟩⟩⟩, 1⟩

lemma exParabola_ortho : Ortho2 exParabola.frame := ⟨by norm_num [exParabola, V2.dot], by norm_num [exParabola, V2.dot], by norm_num [exParabola, V2.dot]⟩

lemma exParabola_on (x y : ℝ) : OnParabola exParabola ⟨x, y⟩ ↔ y = x ^ 2 / 4 := by
  rw [onParabola_iff exParabola_ortho (by norm_num [exParabola])]
  change (x - 0) * 0 + (y - 0) * 1 = 1 / (4 * 1) * ((x - 0) * 1 + (y - 0) * 0) ^ 2 ↔ _
  constructor <;> intro e <;> linarith

/-- The hypotheses of `C92_secant_partial` hold for the line `y = 1`. -/
example : alongU exParabola.frame ⟨0, 1⟩ ≠ alongU exParabola.frame ⟨1, 1⟩ ∧ ∃ p q : V2 ℝ, p ≠ q ∧
    (OnLine2 (⟨0, 1⟩ : V2 ℝ) ⟨1, 1⟩ p ∧ OnParabola exParabola p) ∧ OnLine2 (⟨0, 1⟩ : V2 ℝ) ⟨1, 1⟩ q ∧ OnParabola exParabola q := by
  refine ⟨by simp [alongU, exParabola, V2.dot], ⟨2, 1⟩, ⟨-2, 1⟩, fun e => by have := congrArg V2.x e; norm_num at this,
    ⟨⟨2, by norm_num, by norm_num⟩, by rw [exParabola_on]; norm_num⟩, ⟨-2, by norm_num, by norm_num⟩, by rw [exParabola_on]; norm_num⟩

/-- Those of `C92_tangent_partial` for the line `y = 0`. -/
example : ∀ x, OnLine2 (⟨0, 0⟩ : V2 ℝ) ⟨1, 0⟩ x ∧ OnParabola exParabola x ↔ x = ⟨0, 0⟩ := by
  intro x
  have := exParabola_on x.x x.y
  constructor
  · rintro ⟨⟨t, h1, h2⟩, h3⟩
    have h4 := this.1 h3
    norm_num at h2
    rw [h2] at h4
    ext
    · exact pow_eq_zero_iff two_ne_zero |>.1 (by linarith)
    · exact h2
  · rintro rfl
    exact ⟨⟨0, by norm_num, by norm_num⟩, this.2 (by norm_num)⟩

/-! ## Trim -/

/-- The curve of degree two with the knots `0, 0, 0, 1, 1, 1`. -/
lemma eval_deg2 {V : Type*} [AddCommGroup V] [Module ℝ V] (P : ℕ → V) (U : ℕ → ℝ) (hU : U 0 = 0 ∧ U 1 = 0 ∧ U 2 = 0 ∧ U 3 = 1 ∧ U 4 = 1 ∧ U 5 = 1) (t : ℝ) :
    curvePoint 2 U P 3 t = (1 - t) ^ 2 • P 0 + (2 * t * (1 - t)) • P 1 + t ^ 2 • P 2 := by
  obtain ⟨u0, u1, u2, u3, u4, u5⟩ := hU
  have hspan : findSpanLinear 2 U 3 t = 2 := by
    unfold findSpanLinear spanLoop
    rw [if_neg (by omega)]
  have b0 : basisOuter U 2 t 2 0 = (1 - t) ^ 2 := by
    simp [basisOuter, basisInner, Function.update, u1, u2, u3, u4]; ring
  have b1 : basisOuter U 2 t 2 1 = 2 * t * (1 - t) := by
    simp [basisOuter, basisInner, Function.update, u1, u2, u3, u4]; ring
  have b2 : basisOuter U 2 t 2 2 = t ^ 2 := by
    simp [basisOuter, basisInner, Function.update, u1, u2, u3, u4]; ring
  unfold curvePoint
  simp only [hspan, List.range_succ, List.range_zero, List.nil_append, List.cons_append, List.foldl_cons, List.foldl_nil, b0, b1, b2]
  simp

lemma bezier_eq (p q r : V2 ℝ) : ∃ c, bezier 2 [p, q, r] = some c ∧ c.degree = 2 ∧ c.ctrlpts = [coords p, coords q, coords r] ∧
    ∀ t, c.eval t = ((1 - t) ^ 2 * p.x + 2 * t * (1 - t) * q.x + t ^ 2 * r.x, (1 - t) ^ 2 * p.y + 2 * t * (1 - t) * q.y + t ^ 2 * r.y) := by
  have hk : (generateKnotVector 2 3 true : Option (List ℝ)) = some [0, 0, 0, 1, 1, 1] := by
    have hl : linspace (0 : ℝ) 1 2 = [0, 1] := by
      unfold linspace
      rw [if_neg (by norm_num)]
      simp [List.range_succ]
    unfold generateKnotVector
    rw [if_neg (by norm_num)]
    simp [hl]
  unfold bezier
  simp only [List.length_cons, List.length_nil, Nat.zero_add, hk, Option.map_some]
  refine ⟨_, rfl, rfl, rfl, fun t => ?_⟩
  unfold BCurve.eval BCurve.new
  dsimp only
  have := eval_deg2 (cpFun ([coords p, coords q, coords r])) (kvFun (BCurve.knotvector (BCurve.new 2 (List.map coords [p, q, r]) (List.replicate (0 + 1 + 1 + 1 + 1 + 1 + 1) 1) [0, 0, 0, 1, 1, 1] none : BCurve ℝ (ℝ × ℝ)))) ?_ t
  · refine Eq.trans this ?_
    ext <;> simp [cpFun, coords]
  · simp [BCurve.knotvector, BCurve.new, standardizeKnotVector, repeatKnots, kvFun, List.replicate]

/-- C73, `Line2D.line_intersections`: two lines whose directions have a cross product of more than `1e-15` in absolute value give their common
point alone, other lines give nothing. -/
theorem C73_line_intersections_2d (l m : Line2) :
    (1 / 10 ^ 15 < |V2.cross l.dir m.dir| →
      ∃ q, l.lineIntersections m = [q] ∧ ∀ x, OnLine2 l.point1 l.point2 x ∧ OnLine2 m.point1 m.point2 x ↔ x = q) ∧
    (|V2.cross l.dir m.dir| ≤ 1 / 10 ^ 15 → l.lineIntersections m = []) := by
  have key := C09_lineIntersection l.point1 l.point2 m.point1 m.point2
  constructor
  · intro h
    rcases key with ⟨h1, -⟩ | ⟨-, p, t, u, hp, e1, e2, huniq⟩
    · exact absurd h (not_lt.2 h1)
    · have hl : l.point1 ≠ l.point2 := by
        intro e
        rw [show V2.cross l.dir m.dir = 0 by simp [V2.cross, Line2.dir, e]] at h
        norm_num at h
      have hm : m.point1 ≠ m.point2 := by
        intro e
        rw [show V2.cross l.dir m.dir = 0 by simp [V2.cross, Line2.dir, e]] at h
        norm_num at h
      have p1 : OnLine2 l.point1 l.point2 p := ⟨t, by rw [e1]; simp [mul_comm], by rw [e1]; simp [mul_comm]⟩
      have p2 : OnLine2 m.point1 m.point2 p := ⟨u, by rw [e2]; simp [mul_comm], by rw [e2]; simp [mul_comm]⟩
      have hproj : ∀ a b : V2 ℝ, a ≠ b → OnLine2 a b p → ∃ s, pointProjection2 p a b = some (p, s) := by
        rintro a b hab ⟨k, k1, k2⟩
        unfold pointProjection2
        have hn : V2.norm (b - a) ^ 2 ≠ 0 := fun e => hab ((V2.norm_sq_zero a b).1 e)
        dsimp only
        rw [if_neg hn]
        refine ⟨V2.dot (p - a) (b - a) / V2.norm (b - a) ^ 2 * V2.norm (b - a), ?_⟩
        congr 1
        refine Prod.ext ?_ rfl
        have hk : V2.dot (p - a) (b - a) / V2.norm (b - a) ^ 2 = k := by
          rw [div_eq_iff hn, V2.norm_pow_two]
          simp only [V2.dot, V2.sub_x, V2.sub_y, k1, k2]
          ring
        dsimp only
        rw [hk]
        ext
        · simp [k1, mul_comm]
        · simp [k2, mul_comm]
      obtain ⟨s1, hs1⟩ := hproj _ _ hl p1
      obtain ⟨s2, hs2⟩ := hproj _ _ hm p2
      refine ⟨p, ?_, fun x => ⟨fun hx => huniq x hx.1 hx.2, ?_⟩⟩
      · unfold Line2.lineIntersections Line2.pointProjection
        rw [hp]
        simp only [hs1, hs2]
      · rintro rfl
        exact ⟨p1, p2⟩
  · intro h
    rcases key with ⟨-, h1⟩ | ⟨h1, -⟩
    · unfold Line2.lineIntersections
      rw [h1]
    · exact absurd h (not_le.2 h1)

example : (1 : ℝ) / 10 ^ 15 < |V2.cross (Line2.dir ⟨⟨0, 0⟩, ⟨1, 0⟩⟩) (Line2.dir ⟨⟨0, 0⟩, ⟨0, 1⟩⟩)| := by norm_num [V2.cross, Line2.dir]

lemma Ortho2.abs_cross {f : Frame2 ℝ} (h : Ortho2 f) : |V2.cross f.basis.u f.basis.v| = 1 := by
  have h2 : V2.cross f.basis.u f.basis.v ^ 2 = 1 := by
    obtain ⟨h1, h2, h3⟩ := h
    unfold V2.dot at h1 h2 h3
    unfold V2.cross
    linear_combination (f.basis.v.x * f.basis.v.x + f.basis.v.y * f.basis.v.y) * h1 + h2 - (f.basis.u.x * f.basis.v.x + f.basis.u.y * f.basis.v.y) * h3
  rw [← sq_abs] at h2
  nlinarith [abs_nonneg (V2.cross f.basis.u f.basis.v)]

/-- C91, `trim` between two points of the parabola whose abscissas differ: the Bézier curve returned goes from the first point to the second one,
stays on the parabola, and passes through every point of the parabola whose abscissa is between those of the ends. -/
theorem C91_trim {P : Parabola2} (h : Ortho2 P.frame) (hF : 0 < P.focal) (p1 p2 : V2 ℝ) (h1 : OnParabola P p1) (h2 : OnParabola P p2)
    (hx : 2 * P.focal / 10 ^ 15 < |alongU P.frame p2 - alongU P.frame p1|) :
    ∃ c, P.trim p1 p2 = .ok c ∧ c.eval 0 = (p1.x, p1.y) ∧ c.eval 1 = (p2.x, p2.y) ∧
      (∀ t, OnParabola P ⟨(c.eval t).1, (c.eval t).2⟩) ∧
      ∀ q, OnParabola P q → alongU P.frame q ∈ Set.uIcc (alongU P.frame p1) (alongU P.frame p2) → ∃ t, 0 ≤ t ∧ t ≤ 1 ∧ c.eval t = (q.x, q.y) := by
  have ha := a_pos hF
  have haF : P.a * P.focal = 1 / 4 := by unfold Parabola2.a; field_simp
  obtain ⟨t1, ht1, e1⟩ := tangent_eq h p1
  obtain ⟨t2, ht2, e2⟩ := tangent_eq h p2
  rw [onParabola_iff h hF] at h1 h2
  set x1 := alongU P.frame p1 with hx1
  set x2 := alongU P.frame p2 with hx2
  have hp1 := h.l2g_along p1
  have hp2 := h.l2g_along p2
  rw [← hx1, h1] at hp1
  rw [← hx2, h2] at hp2
  have p1x := congrArg V2.x hp1
  have p1y := congrArg V2.y hp1
  have p2x := congrArg V2.x hp2
  have p2y := congrArg V2.y hp2
  rw [l2g_x] at p1x p2x
  rw [l2g_y] at p1y p2y
  dsimp only at p1x p1y p2x p2y
  set q0 : V2 ℝ := P.frame.localToGlobal ⟨(x1 + x2) / 2, P.a * x1 * x2⟩ with hq0
  have q0x : q0.x = P.frame.origin.x + (x1 + x2) / 2 * P.frame.basis.u.x + P.a * x1 * x2 * P.frame.basis.v.x := l2g_x _ _
  have q0y : q0.y = P.frame.origin.y + (x1 + x2) / 2 * P.frame.basis.u.y + P.a * x1 * x2 * P.frame.basis.v.y := l2g_y _ _
  have hcross : V2.cross (Line2.dir ⟨p1, p1 + t1⟩) (Line2.dir ⟨p2, p2 + t2⟩) = 2 * P.a * (x2 - x1) * V2.cross P.frame.basis.u P.frame.basis.v := by
    rw [e1, e2]
    simp only [V2.cross, Line2.dir, V2.sub_x, V2.sub_y, V2.add_x, V2.add_y]
    ring
  have hc : 1 / 10 ^ 15 < |V2.cross (Line2.dir ⟨p1, p1 + t1⟩) (Line2.dir ⟨p2, p2 + t2⟩)| := by
    rw [hcross, abs_mul, h.abs_cross, abs_mul, abs_of_pos (by positivity : 0 < 2 * P.a)]
    have := mul_lt_mul_of_pos_left hx (by positivity : 0 < 2 * P.a)
    have e : 2 * P.a * (2 * P.focal / 10 ^ 15) = 1 / 10 ^ 15 := by linear_combination 4 / 10 ^ 15 * haF
    rw [e] at this
    linarith
  obtain ⟨q, hq, huniq⟩ := (C73_line_intersections_2d ⟨p1, p1 + t1⟩ ⟨p2, p2 + t2⟩).1 hc
  have hqq : q0 = q := by
    rw [← huniq]
    refine ⟨⟨(x2 - x1) / 2, ?_, ?_⟩, ⟨(x1 - x2) / 2, ?_, ?_⟩⟩
    · simp only [V2.add_x, e1]; rw [q0x]; linear_combination p1x
    · simp only [V2.add_y, e1]; rw [q0y]; linear_combination p1y
    · simp only [V2.add_x, e2]; rw [q0x]; linear_combination p2x
    · simp only [V2.add_y, e2]; rw [q0y]; linear_combination p2y
  obtain ⟨c, hc1, -, -, hev⟩ := bezier_eq p1 q p2
  have hevl : ∀ t, (⟨(c.eval t).1, (c.eval t).2⟩ : V2 ℝ) = P.frame.localToGlobal ⟨x1 + t * (x2 - x1), P.a * (x1 + t * (x2 - x1)) ^ 2⟩ := by
    intro t
    rw [hev]
    ext
    · rw [l2g_x, ← hqq, q0x, ← p1x, ← p2x]; dsimp only; ring
    · rw [l2g_y, ← hqq, q0y, ← p1y, ← p2y]; dsimp only; ring
  refine ⟨c, ?_, ?_, ?_, ?_, ?_⟩
  · unfold Parabola2.trim
    rw [ht1, ht2]
    change (match Line2.lineIntersections ⟨p1, p1 + t1⟩ ⟨p2, p2 + t2⟩ with | [] => _ | q :: _ => _) = _
    rw [hq]
    dsimp only
    rw [hc1]
    rfl
  · rw [hev]; norm_num
  · rw [hev]; norm_num
  · intro t
    rw [hevl, onParabola_iff h hF, h.alongU_l2g, h.alongV_l2g]
  · intro r hr hmem
    rw [onParabola_iff h hF] at hr
    have hd : x2 - x1 ≠ 0 := by
      intro e
      rw [e, abs_zero] at hx
      have : 0 < 2 * P.focal / 10 ^ 15 := by positivity
      linarith
    refine ⟨(alongU P.frame r - x1) / (x2 - x1), ?_, ?_, ?_⟩
    · rcases Set.mem_uIcc.1 hmem with ⟨a, b⟩ | ⟨a, b⟩
      · exact div_nonneg (by linarith) (by linarith)
      · exact div_nonneg_of_nonpos (by linarith) (by linarith)
    · rcases Set.mem_uIcc.1 hmem with ⟨a, b⟩ | ⟨a, b⟩
      · exact div_le_one_of_le₀ (by linarith) (by linarith)
      · have : x2 - x1 < 0 := lt_of_le_of_ne (by linarith) hd
        rw [div_le_one_of_neg this]; linarith
    · have e := hevl ((alongU P.frame r - x1) / (x2 - x1))
      rw [div_mul_cancel₀ _ hd, show x1 + (alongU P.frame r - x1) = alongU P.frame r by ring, ← hr, h.l2g_along] at e
      have ex := congrArg V2.x e
      have ey := congrArg V2.y e
      exact Prod.ext ex ey

example : OnParabola exParabola ⟨-2, 1⟩ ∧ OnParabola exParabola ⟨4, 4⟩ ∧
    2 * exParabola.focal / 10 ^ 15 < |alongU exParabola.frame ⟨4, 4⟩ - alongU exParabola.frame ⟨-2, 1⟩| := by
  refine ⟨by rw [exParabola_on]; norm_num, by rw [exParabola_on]; norm_num, by norm_num [exParabola, alongU, V2.dot]⟩

end Volmdlr.Conic
