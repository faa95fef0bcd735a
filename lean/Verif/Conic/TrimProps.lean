import Verif.Conic.ConicArcProps
import Mathlib.Topology.Order.IntermediateValue
import Mathlib.Topology.Algebra.Order.Field

/-!
# `Hyperbola2D.trim` (C94)
-/

namespace Volmdlr.Conic

open Volmdlr.Angle Volmdlr.Arc Volmdlr.Intersect

lemma Except.bind_ok' {ε α β : Type} (a : α) (f : α → Except ε β) : (Except.ok a >>= f) = f a := rfl

/-- The hyperbola as a conic, in its frame when this is the standard one. -/
noncomputable def hconic (h : Hyperbola2) : Quadric2 := ⟨1 / h.major ^ 2, 0, -(1 / h.minor ^ 2), 0, 0, -1⟩

lemma hconic_val (h : Hyperbola2) (p : V2 ℝ) : (hconic h).val p = p.x ^ 2 / h.major ^ 2 - p.y ^ 2 / h.minor ^ 2 - 1 := by
  unfold hconic Quadric2.val; dsimp only; ring

/-- The positive number `x/a + y/b` of a point of the branch. -/
lemma branch_param {a b x y : ℝ} (ha : 0 < a) (hb : 0 < b) (hx : 0 < x) (he : x ^ 2 / a ^ 2 - y ^ 2 / b ^ 2 = 1) :
    ∃ U, 0 < U ∧ x = a * (U + 1 / U) / 2 ∧ y = b * (U - 1 / U) / 2 := by
  have hprod : (x / a + y / b) * (x / a - y / b) = 1 := by rw [← he]; ring
  have hxa : 0 < x / a := by positivity
  have hU : 0 < x / a + y / b := by
    by_contra hneg
    have h1 : x / a + y / b ≤ 0 := not_lt.1 hneg
    have h2 : 0 ≤ x / a - y / b := by linarith
    have := mul_nonpos_of_nonpos_of_nonneg h1 h2
    linarith
  have hinv : 1 / (x / a + y / b) = x / a - y / b := by
    rw [div_eq_iff hU.ne']; linarith
  refine ⟨x / a + y / b, hU, ?_, ?_⟩
  · rw [hinv]; field_simp; ring
  · rw [hinv]; field_simp; ring

/-- The ordinate increases with the parameter. -/
lemma param_lt {b U V : ℝ} (hb : 0 < b) (_hU : 0 < U) (hV : 0 < V) (h : b * (U - 1 / U) / 2 < b * (V - 1 / V) / 2) : U < V := by
  by_contra hn
  have h1 : V ≤ U := not_lt.1 hn
  have h2 : 1 / U ≤ 1 / V := one_div_le_one_div_of_le hV h1
  have : b * (V - 1 / V) ≤ b * (U - 1 / U) := mul_le_mul_of_nonneg_left (by linarith) hb.le
  linarith

/-- Three points of the branch in order: the middle one is inside the triangle of the two others and of the meeting point of the tangents. -/
lemma inside_triangle {a b : ℝ} (ha : 0 < a) (hb : 0 < b) (P0 P1 P2 S : V2 ℝ) (h0 : 0 < P0.x) (e0 : P0.x ^ 2 / a ^ 2 - P0.y ^ 2 / b ^ 2 = 1) (h2 : 0 < P2.x)
    (e2 : P2.x ^ 2 / a ^ 2 - P2.y ^ 2 / b ^ 2 = 1) (hS : 0 < S.x) (eS : S.x ^ 2 / a ^ 2 - S.y ^ 2 / b ^ 2 = 1)
    (hord : P0.y < S.y ∧ S.y < P2.y ∨ P2.y < S.y ∧ S.y < P0.y)
    (p0 : P0.x * P1.x / a ^ 2 - P0.y * P1.y / b ^ 2 = 1) (p2 : P2.x * P1.x / a ^ 2 - P2.y * P1.y / b ^ 2 = 1) :
    ∃ α β γ : ℝ, 0 < α ∧ 0 < β ∧ 0 < γ ∧ α + β + γ = 1 ∧ S.x = α * P0.x + β * P1.x + γ * P2.x ∧ S.y = α * P0.y + β * P1.y + γ * P2.y := by
  obtain ⟨U, hU, ux, uy⟩ := branch_param ha hb h0 e0
  obtain ⟨V, hV, vx, vy⟩ := branch_param ha hb h2 e2
  obtain ⟨W, hW, wx, wy⟩ := branch_param ha hb hS eS
  have hsame : (U < W ∧ W < V) ∨ (V < W ∧ W < U) := by
    rw [uy, vy, wy] at hord
    rcases hord with ⟨a1, a2⟩ | ⟨a1, a2⟩
    · exact Or.inl ⟨param_lt hb hU hW a1, param_lt hb hW hV a2⟩
    · exact Or.inr ⟨param_lt hb hV hW a1, param_lt hb hW hU a2⟩
  have hUV : U - V ≠ 0 := by rcases hsame with ⟨a1, a2⟩ | ⟨a1, a2⟩ <;> intro e <;> linarith
  have hpq : 0 < (W - U) * (V - W) := by
    rcases hsame with ⟨a1, a2⟩ | ⟨a1, a2⟩
    · exact mul_pos (by linarith) (by linarith)
    · exact mul_pos_of_neg_of_neg (by linarith) (by linarith)
  -- the meeting point of the tangents
  have q0 : b * (U + 1 / U) * P1.x - a * (U - 1 / U) * P1.y = 2 * a * b := by
    rw [ux, uy] at p0; field_simp at p0 ⊢; linarith
  have q2 : b * (V + 1 / V) * P1.x - a * (V - 1 / V) * P1.y = 2 * a * b := by
    rw [vx, vy] at p2; field_simp at p2 ⊢; linarith
  have hP1x : P1.x = a * (U * V + 1) / (U + V) := by
    have hne : U + V ≠ 0 := by positivity
    field_simp at q0 q2 ⊢
    have : (U - V) * (P1.x * (U + V)) = (U - V) * (a * (U * V + 1)) := by
      have hb' := hb.ne'
      apply mul_left_cancel₀ hb'
      linear_combination -(V ^ 2 - 1) / 2 * q0 + (U ^ 2 - 1) / 2 * q2
    exact mul_left_cancel₀ hUV this
  have hP1y : P1.y = b * (U * V - 1) / (U + V) := by
    have hne : U + V ≠ 0 := by positivity
    field_simp at q0 q2 ⊢
    have : (U - V) * (P1.y * (U + V)) = (U - V) * (b * (U * V - 1)) := by
      have ha' := ha.ne'
      apply mul_left_cancel₀ ha'
      linear_combination -(V ^ 2 + 1) / 2 * q0 + (U ^ 2 + 1) / 2 * q2
    exact mul_left_cancel₀ hUV this
  have hUV2 : 0 < (U - V) ^ 2 := by positivity
  have hWU : W - V ≠ 0 := by rcases hsame with ⟨a1, a2⟩ | ⟨a1, a2⟩ <;> intro e <;> linarith
  have hWV : W - U ≠ 0 := by rcases hsame with ⟨a1, a2⟩ | ⟨a1, a2⟩ <;> intro e <;> linarith
  refine ⟨U * (W - V) ^ 2 / (W * (U - V) ^ 2), (W - U) * (V - W) * (U + V) / (W * (U - V) ^ 2), V * (W - U) ^ 2 / (W * (U - V) ^ 2), by positivity, by positivity, by positivity, ?_, ?_, ?_⟩
  · field_simp; ring
  · rw [wx, ux, vx, hP1x]; field_simp; ring
  · rw [wy, uy, vy, hP1y]; field_simp; ring

lemma branch_std {h : Hyperbola2} (hf : h.frame = ⟨⟨0, 0⟩, ⟨⟨1, 0⟩, ⟨0, 1⟩⟩⟩) (ha : 0 < h.major) (hb : 0 < h.minor) (q : V2 ℝ) :
    OnBranch h q ↔ 0 < q.x ∧ q.x ^ 2 / h.major ^ 2 - q.y ^ 2 / h.minor ^ 2 = 1 := by
  have ho : Ortho2 h.frame := by rw [hf]; exact std_ortho
  rw [onBranch_iff ho ha hb, hf, std_u, std_v]

lemma branch_unique {h : Hyperbola2} (hf : h.frame = ⟨⟨0, 0⟩, ⟨⟨1, 0⟩, ⟨0, 1⟩⟩⟩) (ha : 0 < h.major) (hb : 0 < h.minor) {p q : V2 ℝ} (hp : OnBranch h p)
    (hq : OnBranch h q) (hy : p.y = q.y) : p = q := by
  obtain ⟨p1, p2⟩ := (branch_std hf ha hb p).1 hp
  obtain ⟨q1, q2⟩ := (branch_std hf ha hb q).1 hq
  have : p.x ^ 2 = q.x ^ 2 := by
    have e : p.x ^ 2 / h.major ^ 2 = q.x ^ 2 / h.major ^ 2 := by rw [hy] at p2; linarith
    field_simp at e
    exact e
  ext
  · exact (sq_eq_sq₀ p1.le q1.le).1 this
  · exact hy

lemma getPoints3 {h : Hyperbola2} (hf : h.frame = ⟨⟨0, 0⟩, ⟨⟨1, 0⟩, ⟨0, 1⟩⟩⟩) (lo hi : ℝ) (hne : lo ≠ hi) :
    h.getPoints (some lo) (some hi) 3 = .ok [⟨h.getX lo, lo⟩, ⟨h.getX ((lo + hi) / 2), (lo + hi) / 2⟩, ⟨h.getX hi, hi⟩] := by
  unfold Hyperbola2.getPoints bounds
  rw [if_neg (by
    simp only [reduceCtorEq, Option.some.injEq, false_or]
    rintro ⟨rfl, rfl⟩
    exact hne rfl)]
  have hl : ∀ q : V2 ℝ, Frame2.localToGlobal ⟨⟨0, 0⟩, ⟨⟨1, 0⟩, ⟨0, 1⟩⟩⟩ q = q := by
    intro q
    ext
    · rw [l2g_x]; ring
    · rw [l2g_y]; ring
  rw [hf]
  simp only [hl]
  change Except.ok _ = _
  have e1 : lo + ((1 : ℕ) : ℝ) * ((hi - lo) / (((3 : ℕ) : ℝ) - 1)) = (lo + hi) / 2 := by norm_num; ring
  have e2 : lo + ((2 : ℕ) : ℝ) * ((hi - lo) / (((3 : ℕ) : ℝ) - 1)) = hi := by norm_num; ring
  have e0 : lo + ((0 : ℕ) : ℝ) * ((hi - lo) / (((3 : ℕ) : ℝ) - 1)) = lo := by norm_num
  unfold npLinspace
  simp only [List.range_succ, List.range_zero, List.nil_append, List.cons_append, List.map_cons, List.map_nil, e0, e1, e2]

lemma on_getX_std {h : Hyperbola2} (hf : h.frame = ⟨⟨0, 0⟩, ⟨⟨1, 0⟩, ⟨0, 1⟩⟩⟩) (ha : 0 < h.major) (hb : 0 < h.minor) (y : ℝ) : OnBranch h ⟨h.getX y, y⟩ := by
  rw [branch_std hf ha hb]
  refine ⟨getX_pos ha y, ?_⟩
  dsimp only
  rw [getX_sq]
  field_simp
  ring

lemma tangent_conic {h : Hyperbola2} (hf : h.frame = ⟨⟨0, 0⟩, ⟨⟨1, 0⟩, ⟨0, 1⟩⟩⟩) (ha : 0 < h.major) (hb : 0 < h.minor) (p : V2 ℝ) (hp : OnBranch h p) :
    (hconic h).Tangent p ⟨h.getDxDy p, 1⟩ := by
  obtain ⟨p1, p2⟩ := (branch_std hf ha hb p).1 hp
  unfold Quadric2.Tangent hconic
  dsimp only
  rw [dxdy_eq ha hb p p1 p2]
  field_simp
  ring

/-- A point of the hyperbola whose polar product with a point of the branch is at least one is on the branch. -/
lemma same_sheet {X Y Z R : ℝ} (hX : 0 < X) (k1 : X ^ 2 - Y ^ 2 = 1) (k2 : Z ^ 2 - R ^ 2 = 1) (k3 : 1 + Y * R ≤ X * Z) : 0 < Z := by
  by_contra hneg
  have hx' : Z ≤ 0 := not_lt.1 hneg
  have k4 : X * Z ≤ 0 := mul_nonpos_of_nonneg_of_nonpos hX.le hx'
  have a1 : X ^ 2 = 1 + Y ^ 2 := by linarith
  have a2 : Z ^ 2 = 1 + R ^ 2 := by linarith
  have k6 : (X * Z) ^ 2 = 1 + Y ^ 2 + R ^ 2 + (Y * R) ^ 2 := by rw [mul_pow, a1, a2]; ring
  have k7 : 0 ≤ (1 - X * Z) := by linarith
  have k8 : (1 - X * Z) ^ 2 ≤ (-(Y * R)) ^ 2 := pow_le_pow_left₀ k7 (by linarith) 2
  have k9 : (1 - X * Z) ^ 2 = 1 - 2 * (X * Z) + (X * Z) ^ 2 := by ring
  have k10 : (-(Y * R)) ^ 2 = (Y * R) ^ 2 := by ring
  have := sq_nonneg Y
  have := sq_nonneg R
  linarith

lemma polar_line {h : Hyperbola2} {p P1 : V2 ℝ} (ep : p.x ^ 2 / h.major ^ 2 - p.y ^ 2 / h.minor ^ 2 = 1) (tp : (hconic h).Tangent p ⟨h.getDxDy p, 1⟩)
    (l : OnLine2 p (p + ⟨h.getDxDy p, 1⟩) P1) : p.x * P1.x / h.major ^ 2 - p.y * P1.y / h.minor ^ 2 = 1 := by
  obtain ⟨s, s1, s2⟩ := l
  unfold Quadric2.Tangent hconic at tp
  dsimp only [V2.add_x, V2.add_y] at tp s1 s2
  rw [s1, s2]
  linear_combination ep + s / 2 * tp

lemma arc_den {w t : ℝ} (hw : 0 < w) (t0 : 0 ≤ t) (t1 : t ≤ 1) : 0 < (1 - t) ^ 2 + 2 * t * (1 - t) * w + t ^ 2 := by
  have h1 : 0 ≤ 2 * t * (1 - t) * w := by
    have : 0 ≤ 1 - t := by linarith
    positivity
  nlinarith [sq_nonneg (1 - t), sq_nonneg t, sq_nonneg (1 - 2 * t)]

/-- The rational arc between two points of the branch with the meeting point of the tangents as control point stays on the branch as soon as it
is on the hyperbola. -/
lemma arc_sheet {a b w t : ℝ} (ha : 0 < a) (hb : 0 < b) (hw : 0 < w) (t0 : 0 ≤ t) (t1 : t ≤ 1) (p1 P1 p2 q : V2 ℝ) (x1 : 0 < p1.x)
    (e1 : p1.x ^ 2 / a ^ 2 - p1.y ^ 2 / b ^ 2 = 1) (x2 : 0 < p2.x) (e2 : p2.x ^ 2 / a ^ 2 - p2.y ^ 2 / b ^ 2 = 1)
    (hP : p1.x * P1.x / a ^ 2 - p1.y * P1.y / b ^ 2 = 1)
    (qx : q.x = ((1 - t) ^ 2 * p1.x + 2 * t * (1 - t) * w * P1.x + t ^ 2 * p2.x) / ((1 - t) ^ 2 + 2 * t * (1 - t) * w + t ^ 2))
    (qy : q.y = ((1 - t) ^ 2 * p1.y + 2 * t * (1 - t) * w * P1.y + t ^ 2 * p2.y) / ((1 - t) ^ 2 + 2 * t * (1 - t) * w + t ^ 2))
    (hv : q.x ^ 2 / a ^ 2 - q.y ^ 2 / b ^ 2 = 1) : 0 < q.x := by
  have hB12 : 0 ≤ p1.x * p2.x / a ^ 2 - p1.y * p2.y / b ^ 2 - 1 := by
    obtain ⟨U, hU, ux, uy⟩ := branch_param ha hb x1 e1
    obtain ⟨V, hV, vx, vy⟩ := branch_param ha hb x2 e2
    have : p1.x * p2.x / a ^ 2 - p1.y * p2.y / b ^ 2 - 1 = (U - V) ^ 2 / (2 * U * V) := by
      rw [ux, uy, vx, vy]; field_simp; ring
    rw [this]; positivity
  have hD := arc_den hw t0 t1
  have hB : 0 ≤ p1.x * q.x / a ^ 2 - p1.y * q.y / b ^ 2 - 1 := by
    have : p1.x * q.x / a ^ 2 - p1.y * q.y / b ^ 2 - 1 =
        t ^ 2 * (p1.x * p2.x / a ^ 2 - p1.y * p2.y / b ^ 2 - 1) / ((1 - t) ^ 2 + 2 * t * (1 - t) * w + t ^ 2) := by
      rw [eq_div_iff hD.ne']
      rw [eq_div_iff hD.ne'] at qx qy
      linear_combination p1.x / a ^ 2 * qx - p1.y / b ^ 2 * qy + (1 - t) ^ 2 * e1 + 2 * t * (1 - t) * w * hP
    rw [this]
    exact div_nonneg (mul_nonneg (sq_nonneg t) hB12) hD.le
  have h1 : 0 < q.x / a := by
    refine same_sheet (X := p1.x / a) (Y := p1.y / b) (R := q.y / b) (by positivity) ?_ ?_ ?_
    · rw [div_pow, div_pow]; exact e1
    · rw [div_pow, div_pow]; exact hv
    · have : p1.x * q.x / a ^ 2 - p1.y * q.y / b ^ 2 - 1 = (p1.x / a) * (q.x / a) - (p1.y / b) * (q.y / b) - 1 := by field_simp
      linarith
  exact (div_pos_iff_of_pos_right ha).1 h1

/-- The full statement about `trim`: the curve returned goes from the first point to the second one and stays on the branch. -/
def C94_trim_full_statement : Prop :=
  ∀ (h : Hyperbola2) (p1 p2 : V2 ℝ), Ortho2 h.frame → 0 < h.major → 0 < h.minor → OnBranch h p1 → OnBranch h p2 → p1 ≠ p2 →
    ∃ c, h.trim p1 p2 = .ok (.curve c) ∧ c.eval 0 = (p1.x, p1.y) ∧ c.eval 1 = (p2.x, p2.y) ∧
      ∀ t, 0 ≤ t → t ≤ 1 → OnBranch h ⟨(c.eval t).1, (c.eval t).2⟩

open Classical in
set_option maxHeartbeats 1000000 in
/-- C94: `trim` in the standard frame, between two points of the branch that are not within `1e-6` of each other and whose tangents are not
colinear within the tolerances: the curve returned goes from the first point to the second one, stays on the branch, and passes through every
point of the branch whose ordinate is between those of the ends. -/
theorem C94_trim_partial (h : Hyperbola2) (hf : h.frame = ⟨⟨0, 0⟩, ⟨⟨1, 0⟩, ⟨0, 1⟩⟩⟩) (ha : 0 < h.major) (hb : 0 < h.minor) (p1 p2 : V2 ℝ)
    (h1 : OnBranch h p1) (h2 : OnBranch h p2) (hfar : ¬isClose2 p2 p1 (1 / 10 ^ 6))
    (hcol : isColinear2 ⟨h.getDxDy p1, 1⟩ ⟨h.getDxDy p2, 1⟩ = false) (hT : 1 / 10 ^ 15 < |h.getDxDy p1 - h.getDxDy p2|)
    (hc : ∀ q, OnLine2 p1 (p1 + ⟨h.getDxDy p1, 1⟩) q → OnLine2 p2 (p2 + ⟨h.getDxDy p2, 1⟩) q →
      1 / 10 ^ 15 < |V2.cross (p2 - p1) (q - ⟨h.getX ((p1.y + p2.y) / 2), (p1.y + p2.y) / 2⟩)|) :
    ∃ c, h.trim p1 p2 = .ok (.curve c) ∧ c.eval 0 = (p1.x, p1.y) ∧ c.eval 1 = (p2.x, p2.y) ∧
      (∀ t, 0 ≤ t → t ≤ 1 → OnBranch h ⟨(c.eval t).1, (c.eval t).2⟩) ∧
      ∀ q, OnBranch h q → q.y ∈ Set.uIcc p1.y p2.y → ∃ t, 0 ≤ t ∧ t ≤ 1 ∧ c.eval t = (q.x, q.y) := by
  have hbr := branch_std hf ha hb
  have ho : Ortho2 h.frame := by rw [hf]; exact std_ortho
  have hne : p1.y ≠ p2.y := by
    intro e
    apply hfar
    rw [branch_unique hf ha hb h1 h2 e]
    unfold isClose2 mathIsClose V2.pointDistance
    rw [show V2.norm (p2 - p2) = 0 by rw [V2.norm_eq_zero_iff]; ext <;> simp]
    norm_num
  have g1 : p1 = ⟨h.getX p1.y, p1.y⟩ := branch_unique hf ha hb h1 (on_getX_std hf ha hb _) rfl
  have g2 : p2 = ⟨h.getX p2.y, p2.y⟩ := branch_unique hf ha hb h2 (on_getX_std hf ha hb _) rfl
  set S : V2 ℝ := ⟨h.getX ((p1.y + p2.y) / 2), (p1.y + p2.y) / 2⟩ with hS
  have hSb : OnBranch h S := on_getX_std hf ha hb _
  have hself : ∀ p : V2 ℝ, isClose2 p p (1 / 10 ^ 6) := by
    intro p
    unfold isClose2 mathIsClose V2.pointDistance
    rw [show V2.norm (p - p) = 0 by rw [V2.norm_eq_zero_iff]; ext <;> simp]
    norm_num
  -- the three points
  have hps : ∃ ps, h.getPoints (some (min p1.y p2.y)) (some (max p1.y p2.y)) 3 = .ok ps ∧
      (if ¬isClose2 (ps.getD 0 ⟨0, 0⟩) p1 (1 / 10 ^ 6) then ps.reverse else ps) = [p1, S, p2] := by
    rcases lt_or_gt_of_ne hne with hlt | hlt
    · refine ⟨_, getPoints3 hf _ _ (by rw [min_eq_left hlt.le, max_eq_right hlt.le]; exact hne), ?_⟩
      rw [min_eq_left hlt.le, max_eq_right hlt.le, ← g1, ← g2, ← hS]
      exact if_neg (not_not.2 (hself p1))
    · refine ⟨_, getPoints3 hf _ _ (by rw [min_eq_right hlt.le, max_eq_left hlt.le]; exact hne.symm), ?_⟩
      rw [min_eq_right hlt.le, max_eq_left hlt.le, ← g1, ← g2, add_comm p2.y p1.y, ← hS]
      exact (if_pos hfar).trans rfl
  obtain ⟨ps, hps1, hps2⟩ := hps
  -- the meeting point of the tangents
  set T1 : V2 ℝ := ⟨h.getDxDy p1, 1⟩ with hT1
  set T2 : V2 ℝ := ⟨h.getDxDy p2, 1⟩ with hT2
  have hTc : V2.cross T1 T2 = h.getDxDy p1 - h.getDxDy p2 := by unfold V2.cross; rw [hT1, hT2]; dsimp only; ring
  have hcr : V2.cross (Line2.dir ⟨p1, p1 + T1⟩) (Line2.dir ⟨p2, p2 + T2⟩) = V2.cross T1 T2 := by
    simp only [V2.cross, Line2.dir, V2.sub_x, V2.sub_y, V2.add_x, V2.add_y]; ring
  obtain ⟨P1, -, hu⟩ := (C73_line_intersections_2d ⟨p1, p1 + T1⟩ ⟨p2, p2 + T2⟩).1 (by rw [hcr, hTc]; exact hT)
  obtain ⟨l1, l2⟩ := (hu P1).2 rfl
  dsimp only at l1 l2
  have t1 := tangent_conic hf ha hb p1 h1
  have t2 := tangent_conic hf ha hb p2 h2
  obtain ⟨x1, e1⟩ := (hbr p1).1 h1
  obtain ⟨x2, e2⟩ := (hbr p2).1 h2
  obtain ⟨xS, eS⟩ := (hbr S).1 hSb
  have hin := inside_triangle ha hb p1 P1 p2 S x1 e1 x2 e2 xS eS (by
    rcases lt_or_gt_of_ne hne with hlt | hlt
    · exact Or.inl ⟨by rw [hS]; dsimp only; linarith, by rw [hS]; dsimp only; linarith⟩
    · exact Or.inr ⟨by rw [hS]; dsimp only; linarith, by rw [hS]; dsimp only; linarith⟩) (polar_line e1 t1 l1) (polar_line e2 t2 l2)
  obtain ⟨w, c, c1, c2, c3, c4, c5, -, c7⟩ := C94_conic_arc (hconic h) p1 T1 p2 T2 S P1 (by rw [hconic_val]; linarith) (by rw [hconic_val]; linarith)
    (by rw [hconic_val]; linarith) t1 t2 (by rw [hTc]; exact hT) l1 l2 hin (hc P1 l1 l2)
  -- the curve stays on the branch
  have hev := rational2_eq p1 P1 p2 w
  rw [c3] at hev
  obtain ⟨c', hc', hev⟩ := hev
  injection hc' with hc'
  subst hc'
  have hbranch : ∀ t, 0 ≤ t → t ≤ 1 → OnBranch h ⟨(c.eval t).1, (c.eval t).2⟩ := by
    intro t t0 t1'
    have hv := c7 t t0 t1'
    rw [hconic_val] at hv
    rw [hbr]
    have hv' : (c.eval t).1 ^ 2 / h.major ^ 2 - (c.eval t).2 ^ 2 / h.minor ^ 2 = 1 := by linarith
    exact ⟨arc_sheet ha hb c2 t0 t1' p1 P1 p2 ⟨(c.eval t).1, (c.eval t).2⟩ x1 e1 x2 e2 (polar_line e1 t1 l1) (congrArg Prod.fst (hev t)) (congrArg Prod.snd (hev t)) hv', hv'⟩
  refine ⟨c, ?_, c4, c5, hbranch, ?_⟩
  · unfold Hyperbola2.trim
    have gl : ∀ p, h.frame.globalToLocal p = .ok ⟨p.x, p.y⟩ := by
      intro p; rw [ho.g2l, hf, std_u, std_v]
    rw [gl, gl]
    change (h.getPoints (some (min p1.y p2.y)) (some (max p1.y p2.y)) 3 >>= fun ps => _) = _
    rw [hps1]
    simp only [Except.bind_ok']
    rw [hps2]
    simp only [List.getD_cons_zero, List.getD_cons_succ]
    rw [tangent_std hf, tangent_std hf]
    change (if isColinear2 T1 T2 = true then _ else match controlPointAndWeight p1 T1 p2 T2 S with | none => _ | some (q, w) => _) = _
    rw [hcol, c1]
    simp only [c3]
    rfl
  · intro q hq hmem
    have hcont : ContinuousOn (fun t => (c.eval t).2) (Set.Icc 0 1) := by
      have : (fun t => (c.eval t).2) = fun t => ((1 - t) ^ 2 * p1.y + 2 * t * (1 - t) * w * P1.y + t ^ 2 * p2.y) / ((1 - t) ^ 2 + 2 * t * (1 - t) * w + t ^ 2) := by
        funext t; rw [hev]
      rw [this]
      apply ContinuousOn.div (by fun_prop) (by fun_prop)
      rintro t ⟨t0, t1'⟩
      exact (arc_den c2 t0 t1').ne'
    have hiv := intermediate_value_uIcc (a := (0 : ℝ)) (b := 1) (f := fun t => (c.eval t).2) (by rw [Set.uIcc_of_le zero_le_one]; exact hcont)
    rw [c4, c5] at hiv
    obtain ⟨t, ht, hty⟩ := hiv hmem
    rw [Set.uIcc_of_le zero_le_one] at ht
    refine ⟨t, ht.1, ht.2, ?_⟩
    have := branch_unique hf ha hb (hbranch t ht.1 ht.2) hq hty
    exact Prod.ext (congrArg V2.x this) (congrArg V2.y this)

/-- The hyperbola `x² - y² = 1`. -/
noncomputable def exTrim : Hyperbola2 := ⟨⟨⟨0, 0⟩, ⟨⟨1, 0⟩, ⟨0, 1⟩⟩⟩, 1, 1⟩

lemma exTrim_branch (p : V2 ℝ) (h0 : 0 < p.x) (h1 : p.x ^ 2 - p.y ^ 2 = 1) : OnBranch exTrim p := by
  rw [branch_std rfl (by norm_num [exTrim]) (by norm_num [exTrim])]
  refine ⟨h0, ?_⟩
  change p.x ^ 2 / 1 ^ 2 - p.y ^ 2 / 1 ^ 2 = 1
  linarith

lemma exTrim_dxdy (p : V2 ℝ) (h0 : 0 < p.x) (h1 : p.x ^ 2 - p.y ^ 2 = 1) : exTrim.getDxDy p = p.y / p.x := by
  rw [dxdy_eq (by norm_num [exTrim]) (by norm_num [exTrim]) p h0 ((branch_std rfl (by norm_num [exTrim]) (by norm_num [exTrim]) p).1 (exTrim_branch p h0 h1)).2]
  change 1 ^ 2 * p.y / (1 ^ 2 * p.x) = _
  norm_num

-- the arc of `x² - y² = 1` between `(5/4, -3/4)` and `(5/4, 3/4)` meets the hypotheses
example : OnBranch exTrim ⟨5 / 4, -3 / 4⟩ ∧ OnBranch exTrim ⟨5 / 4, 3 / 4⟩ ∧ ¬isClose2 (⟨5 / 4, 3 / 4⟩ : V2 ℝ) ⟨5 / 4, -3 / 4⟩ (1 / 10 ^ 6) ∧
    isColinear2 ⟨exTrim.getDxDy ⟨5 / 4, -3 / 4⟩, 1⟩ ⟨exTrim.getDxDy ⟨5 / 4, 3 / 4⟩, 1⟩ = false ∧
    1 / 10 ^ 15 < |exTrim.getDxDy ⟨5 / 4, -3 / 4⟩ - exTrim.getDxDy ⟨5 / 4, 3 / 4⟩| ∧
    ∀ q, OnLine2 (⟨5 / 4, -3 / 4⟩ : V2 ℝ) (⟨5 / 4, -3 / 4⟩ + ⟨exTrim.getDxDy ⟨5 / 4, -3 / 4⟩, 1⟩) q →
      OnLine2 (⟨5 / 4, 3 / 4⟩ : V2 ℝ) (⟨5 / 4, 3 / 4⟩ + ⟨exTrim.getDxDy ⟨5 / 4, 3 / 4⟩, 1⟩) q →
      (1 : ℝ) / 10 ^ 15 < |V2.cross ((⟨5 / 4, 3 / 4⟩ : V2 ℝ) - ⟨5 / 4, -3 / 4⟩) (q - ⟨exTrim.getX ((-3 / 4 + 3 / 4) / 2), (-3 / 4 + 3 / 4) / 2⟩)| := by
  rw [exTrim_dxdy _ (by norm_num) (by norm_num), exTrim_dxdy _ (by norm_num) (by norm_num)]
  refine ⟨exTrim_branch _ (by norm_num) (by norm_num), exTrim_branch _ (by norm_num) (by norm_num), ?_, ?_, by norm_num, ?_⟩
  · unfold isClose2 mathIsClose V2.pointDistance
    have : V2.norm ((⟨5 / 4, 3 / 4⟩ : V2 ℝ) - ⟨5 / 4, -3 / 4⟩) = 3 / 2 := by
      unfold V2.norm
      rw [show ∀ z : ℝ, z = (3 / 2) ^ 2 → Real.sqrt z = 3 / 2 from fun z hz => by rw [hz, Real.sqrt_sq (by norm_num)]]
      norm_num [V2.sub_x, V2.sub_y]
    rw [this]
    norm_num
  · have n1 : V2.norm (⟨-3 / 4 / (5 / 4), 1⟩ : V2 ℝ) = V2.norm (⟨3 / 4 / (5 / 4), 1⟩ : V2 ℝ) := by
      unfold V2.norm; congr 1; norm_num
    have n2 : V2.norm (⟨3 / 4 / (5 / 4), 1⟩ : V2 ℝ) ^ 2 = 34 / 25 := by
      rw [V2.norm_pow_two]; norm_num [V2.dot]
    have n3 : V2.norm (⟨3 / 4 / (5 / 4), 1⟩ : V2 ℝ) ≠ 0 := by intro e; rw [e] at n2; norm_num at n2
    unfold isColinear2
    dsimp only
    rw [n1, if_neg (by simp only [n3, or_self, not_false_eq_true])]
    classical
    rw [decide_eq_false_iff_not, div_div, ← sq, n2]
    norm_num [mathIsClose, V2.dot]
  · rintro q ⟨s, s1, s2⟩ ⟨r, r1, r2⟩
    simp only [V2.add_x, V2.add_y] at s1 s2 r1 r2
    have hq : q = ⟨4 / 5, 0⟩ := by ext <;> dsimp only <;> linarith
    have hx : exTrim.getX ((-3 / 4 + 3 / 4) / 2) = 1 := by
      unfold Hyperbola2.getX exTrim
      norm_num
    rw [hq, hx]
    norm_num [V2.cross, V2.sub_x, V2.sub_y]

set_option maxHeartbeats 1000000 in
open Classical in
/-- C94: false in general.  Between `(1, 0)` and a point at about `2e-5` of it on the branch `x² - y² = 1`, `trim` returns a segment, which is
not on the hyperbola: the tangents are colinear within the tolerance. -/
theorem C94_trim_counterexample : ¬C94_trim_full_statement := by
  intro hfull
  obtain ⟨s, hs⟩ : ∃ s : ℝ, s = 1 / 10 ^ 5 := ⟨_, rfl⟩
  have hs0 : 0 < s := by rw [hs]; norm_num
  have hd : (0 : ℝ) < 1 - s ^ 2 := by rw [hs]; norm_num
  set p2 : V2 ℝ := ⟨(1 + s ^ 2) / (1 - s ^ 2), 2 * s / (1 - s ^ 2)⟩ with hp2
  have x2 : 0 < p2.x := by rw [hp2]; dsimp only; positivity
  have y2 : 0 < p2.y := by rw [hp2]; dsimp only; positivity
  have e2 : p2.x ^ 2 - p2.y ^ 2 = 1 := by
    rw [hp2]; dsimp only; rw [div_pow, div_pow, ← sub_div, div_eq_one_iff_eq (by positivity)]; ring
  have b2 := exTrim_branch p2 x2 e2
  have b1 := exTrim_branch ⟨1, 0⟩ (by norm_num) (by norm_num)
  obtain ⟨c, hc, -⟩ := hfull exTrim ⟨1, 0⟩ p2 std_ortho (by norm_num [exTrim]) (by norm_num [exTrim]) b1 b2 (fun e => by
    have := congrArg V2.y e; dsimp only at this; linarith)
  have g1 : (⟨1, 0⟩ : V2 ℝ) = ⟨exTrim.getX 0, 0⟩ := branch_unique (h := exTrim) rfl (by norm_num [exTrim]) (by norm_num [exTrim]) b1 (on_getX_std rfl (by norm_num [exTrim]) (by norm_num [exTrim]) _) rfl
  have g2 : p2 = ⟨exTrim.getX p2.y, p2.y⟩ := branch_unique (h := exTrim) rfl (by norm_num [exTrim]) (by norm_num [exTrim]) b2 (on_getX_std rfl (by norm_num [exTrim]) (by norm_num [exTrim]) _) rfl
  have hself : ∀ p : V2 ℝ, isClose2 p p (1 / 10 ^ 6) := by
    intro p
    unfold isClose2 mathIsClose V2.pointDistance
    rw [show V2.norm (p - p) = 0 by rw [V2.norm_eq_zero_iff]; ext <;> simp]
    norm_num
  have hcol : isColinear2 ⟨exTrim.getDxDy ⟨1, 0⟩, 1⟩ ⟨exTrim.getDxDy p2, 1⟩ = true := by
    rw [exTrim_dxdy _ (by norm_num) (by norm_num), exTrim_dxdy _ x2 e2]
    have hk : p2.y / p2.x = 2 * s / (1 + s ^ 2) := by
      have : (1 + s ^ 2) ≠ 0 := by positivity
      rw [hp2]; dsimp only; field_simp
    rw [hk]
    have hk2 : (2 * s / (1 + s ^ 2)) ^ 2 ≤ 4 / 10 ^ 10 := by rw [hs]; norm_num
    generalize 2 * s / (1 + s ^ 2) = k at hk2
    have n1 : V2.norm (⟨0 / 1, 1⟩ : V2 ℝ) = 1 := by unfold V2.norm; norm_num
    have n2 : V2.norm (⟨k, 1⟩ : V2 ℝ) ^ 2 = 1 + k ^ 2 := by rw [V2.norm_pow_two]; unfold V2.dot; ring
    have n3 : 0 ≤ V2.norm (⟨k, 1⟩ : V2 ℝ) := Real.sqrt_nonneg _
    generalize hN : V2.norm (⟨k, 1⟩ : V2 ℝ) = N at n2 n3
    have n4 : 1 ≤ N := by nlinarith [sq_nonneg k]
    have n5 : N ≤ 1 + k ^ 2 := by nlinarith [sq_nonneg k]
    unfold isColinear2
    dsimp only
    have hdot : V2.dot (⟨0 / 1, 1⟩ : V2 ℝ) ⟨k, 1⟩ = 1 := by norm_num [V2.dot]
    rw [n1, hdot, hN, if_neg (by rintro (e | e) <;> linarith)]
    rw [decide_eq_true_iff, abs_one, div_one]
    have n6 : 1 / N ≤ 1 := by rw [div_le_one (by linarith)]; exact n4
    have n7 : 1 - 1 / 10 ^ 6 ≤ 1 / N := by
      rw [le_div_iff₀ (by linarith)]
      have : k ^ 2 ≤ 4 / 10 ^ 10 := hk2
      nlinarith
    unfold mathIsClose
    refine le_max_of_le_right ?_
    rw [abs_le]
    constructor <;> linarith
  unfold Hyperbola2.trim at hc
  have gl : ∀ p, exTrim.frame.globalToLocal p = .ok ⟨p.x, p.y⟩ := by
    intro p
    change Frame2.globalToLocal ⟨⟨0, 0⟩, ⟨⟨1, 0⟩, ⟨0, 1⟩⟩⟩ p = _
    rw [std_ortho.g2l, std_u, std_v]
  rw [gl, gl] at hc
  simp only [Except.bind_ok'] at hc
  rw [min_eq_left y2.le, max_eq_right y2.le, getPoints3 rfl _ _ y2.ne, ← g1, ← g2] at hc
  simp only [Except.bind_ok', List.getD_cons_zero, hself, not_true_eq_false, if_false, List.getD_cons_succ] at hc
  rw [tangent_std rfl, tangent_std rfl] at hc
  simp only [Except.bind_ok'] at hc
  rw [hcol, if_pos rfl] at hc
  injection hc with hc
  exact Trimmed.noConfusion hc

end Volmdlr.Conic
