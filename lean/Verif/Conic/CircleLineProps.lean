import Verif.Conic.ParabolaLineProps

/-!
# `Circle2D.line_intersections` (C95)
-/

namespace Volmdlr.Conic

open Volmdlr.Angle Volmdlr.Arc Volmdlr.Intersect

/-- The full statement: the points returned are the common points of the circle and of the line. -/
def C95_full_statement : Prop :=
  ∀ (c : Circle2) (l : Line2), Ortho2 c.frame → 0 < c.radius → l.point1 ≠ l.point2 →
    ∃ ps, circleLine c l = .ok ps ∧ ∀ p, p ∈ ps ↔ OnLine2 l.point1 l.point2 p ∧ V2.pointDistance p c.frame.origin = c.radius

lemma not_close_zero {x tol : ℝ} (h0 : 0 < x) (h : tol < x) : ¬mathIsClose x 0 tol := by
  unfold mathIsClose
  rw [sub_zero, abs_zero, abs_of_pos h0, max_eq_left h0.le, not_le, max_lt_iff]
  exact ⟨by linarith, h⟩

lemma dir_pos {a b : V2 ℝ} (h : a ≠ b) : 0 < (b.x - a.x) ^ 2 + (b.y - a.y) ^ 2 := by
  by_contra hn
  have h1 : (b.x - a.x) ^ 2 = 0 := by nlinarith [sq_nonneg (b.x - a.x), sq_nonneg (b.y - a.y)]
  have h2 : (b.y - a.y) ^ 2 = 0 := by nlinarith [sq_nonneg (b.x - a.x), sq_nonneg (b.y - a.y)]
  apply h
  ext
  · linarith [pow_eq_zero_iff (two_ne_zero) |>.1 h1]
  · linarith [pow_eq_zero_iff (two_ne_zero) |>.1 h2]

lemma distance_unique {a b p : V2 ℝ} {d e : ℝ} (h : IsDistanceToLine2 a b p d) (h' : IsDistanceToLine2 a b p e) : d = e := by
  obtain ⟨⟨q, hq, rfl⟩, h2⟩ := h
  obtain ⟨⟨r, hr, rfl⟩, h4⟩ := h'
  exact le_antisymm (h2 r hr) (h4 q hq)

lemma point_distance_eq (l : Line2) (h : l.point1 ≠ l.point2) (p : V2 ℝ) {d : ℝ} (hd : IsDistanceToLine2 l.point1 l.point2 p d) :
    l.pointDistance p = some d ∧ 0 ≤ d ∧
      d ^ 2 * ((l.point2.x - l.point1.x) ^ 2 + (l.point2.y - l.point1.y) ^ 2) =
        ((l.point2.x - l.point1.x) * (p.y - l.point1.y) - (l.point2.y - l.point1.y) * (p.x - l.point1.x)) ^ 2 := by
  obtain ⟨e, he, hde⟩ := C73_point_distance2 l h p
  rw [distance_unique hd hde]
  refine ⟨he, ?_⟩
  unfold Line2.pointDistance at he
  have hp := dir_pos h
  have hn : V2.norm (V2.normalVector l.dir) ^ 2 = (l.point2.x - l.point1.x) ^ 2 + (l.point2.y - l.point1.y) ^ 2 := by
    rw [V2.norm_pow_two]; simp only [V2.dot, V2.normalVector, Line2.dir, V2.sub_x, V2.sub_y]; ring
  have hn0 : V2.norm (V2.normalVector l.dir) ≠ 0 := by
    intro e0; rw [e0] at hn; norm_num at hn; linarith
  dsimp only at he
  rw [if_neg hn0] at he
  injection he with he
  have h0 : 0 ≤ e := by rw [← he]; exact div_nonneg (abs_nonneg _) (Real.sqrt_nonneg _)
  refine ⟨h0, ?_⟩
  rw [← hn, ← he, div_pow, div_mul_cancel₀ _ (pow_ne_zero 2 hn0), sq_abs]
  simp only [V2.dot, V2.normalVector, Line2.dir, V2.sub_x, V2.sub_y]; ring

lemma onCircle_iff (p c : V2 ℝ) {r : ℝ} (hr : 0 < r) : V2.pointDistance p c = r ↔ (p.x - c.x) ^ 2 + (p.y - c.y) ^ 2 = r ^ 2 := by
  have h0 : 0 ≤ V2.pointDistance p c := Real.sqrt_nonneg _
  rw [← sq_eq_sq₀ h0 hr.le]
  unfold V2.pointDistance
  rw [V2.norm_pow_two]
  simp only [V2.dot, V2.sub_x, V2.sub_y]
  rw [sq (p.x - c.x), sq (p.y - c.y)]

/-- The line passes through the centre. -/
lemma through_centre (c : V2 ℝ) {r tol : ℝ} (hr : 0 < r) (htol : 0 ≤ tol) (l : Line2) (h : l.point1 ≠ l.point2) (hd : IsDistanceToLine2 l.point1 l.point2 c 0)
    (k : Except PyErr (List (V2 ℝ))) :
    ∃ ps, circleLineWith c r l tol k = .ok ps ∧ ∀ p, p ∈ ps ↔ OnLine2 l.point1 l.point2 p ∧ V2.pointDistance p c = r := by
  obtain ⟨h1, -, h3⟩ := point_distance_eq l h c hd
  unfold circleLineWith
  rw [h1]
  dsimp only
  rw [if_neg (by rw [gt_iff_lt, not_lt]; linarith), if_pos (by unfold mathIsClose; norm_num)]
  obtain ⟨n, hn⟩ := V2.unitVector_some (u := l.dir) (by
    intro e
    apply h
    have hx := congrArg V2.x e
    have hy := congrArg V2.y e
    simp only [Line2.dir, V2.sub_x, V2.sub_y] at hx hy
    ext <;> linarith)
  rw [hn]
  refine ⟨_, rfl, ?_⟩
  obtain ⟨n1, n2, n3⟩ := V2.unitVector_spec hn
  generalize V2.norm l.dir = N at n1 n2
  have hx := congrArg V2.x n2
  have hy := congrArg V2.y n2
  simp only [Line2.dir, V2.sub_x, V2.sub_y, V2.smul_x, V2.smul_y] at hx hy
  rw [zero_pow two_ne_zero, zero_mul] at h3
  have h4 := pow_eq_zero_iff two_ne_zero |>.1 h3.symm
  rw [hx, hy] at h4
  have h5 : n.x * (c.y - l.point1.y) - n.y * (c.x - l.point1.x) = 0 := by
    have : N * (n.x * (c.y - l.point1.y) - n.y * (c.x - l.point1.x)) = 0 := by linarith
    exact (mul_eq_zero.1 this).resolve_left n1.ne'
  have n4 : n.x ^ 2 + n.y ^ 2 = 1 := by unfold V2.dot at n3; linarith [n3, sq n.x, sq n.y]
  -- the abscissa of the centre on the line
  obtain ⟨s, sx, sy⟩ : ∃ s, c.x = l.point1.x + s * n.x ∧ c.y = l.point1.y + s * n.y := by
    refine ⟨(c.x - l.point1.x) * n.x + (c.y - l.point1.y) * n.y, ?_, ?_⟩
    · linear_combination -(c.x - l.point1.x) * n4 - n.y * h5
    · linear_combination -(c.y - l.point1.y) * n4 + n.x * h5
  intro p
  rw [onCircle_iff p c hr]
  simp only [List.mem_cons, List.not_mem_nil, or_false]
  have hline : OnLine2 l.point1 l.point2 p ↔ ∃ t, p.x = c.x + t * n.x ∧ p.y = c.y + t * n.y := by
    constructor
    · rintro ⟨t, t1, t2⟩
      exact ⟨t * N - s, by rw [t1, hx, sx]; ring, by rw [t2, hy, sy]; ring⟩
    · rintro ⟨t, t1, t2⟩
      refine ⟨(t + s) / N, ?_, ?_⟩
      · rw [hx, t1, sx]; field_simp; ring
      · rw [hy, t2, sy]; field_simp; ring
  rw [hline]
  constructor
  · rintro (rfl | rfl)
    · refine ⟨⟨r, by simp only [V2.add_x, V2.smul_x]; ring, by simp only [V2.add_y, V2.smul_y]; ring⟩, ?_⟩
      simp only [V2.add_x, V2.add_y, V2.smul_x, V2.smul_y]
      linear_combination r ^ 2 * n4
    · refine ⟨⟨-r, by simp only [V2.sub_x, V2.smul_x]; ring, by simp only [V2.sub_y, V2.smul_y]; ring⟩, ?_⟩
      simp only [V2.sub_x, V2.sub_y, V2.smul_x, V2.smul_y]
      linear_combination r ^ 2 * n4
  · rintro ⟨⟨t, t1, t2⟩, h6⟩
    have h7 : (t - r) * (t + r) = 0 := by
      rw [t1, t2] at h6
      linear_combination h6 - t ^ 2 * n4
    rcases mul_eq_zero.1 h7 with e | e
    · left
      have : t = r := by linarith
      ext
      · simp only [V2.add_x, V2.smul_x]; rw [t1, this]; ring
      · simp only [V2.add_y, V2.smul_y]; rw [t2, this]; ring
    · right
      have : t = -r := by linarith
      ext
      · simp only [V2.sub_x, V2.smul_x]; rw [t1, this]; ring
      · simp only [V2.sub_y, V2.smul_y]; rw [t2, this]; ring

/-- The line crosses the circle, centred at the origin, away from tangency. -/
lemma helper_spec {r d : ℝ} (hr : 0 < r) (l : Line2) (h : l.point1 ≠ l.point2) (hd : IsDistanceToLine2 l.point1 l.point2 ⟨0, 0⟩ d)
    (hg : 1 / 10 ^ 6 < 4 * (r ^ 2 - d ^ 2)) :
    ∃ ps, circleHelper r l = .ok ps ∧ ∀ p, p ∈ ps ↔ OnLine2 l.point1 l.point2 p ∧ p.x ^ 2 + p.y ^ 2 = r ^ 2 := by
  obtain ⟨-, -, h3⟩ := point_distance_eq l h _ hd
  dsimp only at h3
  unfold circleHelper slopeIntercept
  by_cases hv : l.point1.x = l.point2.x
  · rw [if_pos hv]
    dsimp only
    have hy : l.point2.y - l.point1.y ≠ 0 := by
      intro e; apply h; ext
      · exact hv
      · linarith
    have hx : l.point1.x ^ 2 = d ^ 2 := by
      rw [← hv] at h3
      have : (l.point2.y - l.point1.y) ^ 2 * l.point1.x ^ 2 = (l.point2.y - l.point1.y) ^ 2 * d ^ 2 := by linear_combination -h3
      exact mul_left_cancel₀ (pow_ne_zero 2 hy) this
    have hpos : 0 < r ^ 2 - l.point1.x ^ 2 := by
      rw [hx]
      have : (0 : ℝ) < 1 / 10 ^ 6 := by norm_num
      linarith
    rw [if_neg (not_lt.2 hpos.le)]
    refine ⟨_, rfl, fun p => ?_⟩
    have hs := Real.sq_sqrt hpos.le
    generalize Real.sqrt (r ^ 2 - l.point1.x ^ 2) = S at hs
    simp only [List.mem_cons, List.not_mem_nil, or_false]
    constructor
    · rintro (rfl | rfl)
      · refine ⟨⟨(-S - l.point1.y) / (l.point2.y - l.point1.y), ?_, ?_⟩, ?_⟩
        · dsimp only; rw [← hv]; ring
        · dsimp only; field_simp; ring
        · dsimp only; linarith [neg_sq S]
      · refine ⟨⟨(S - l.point1.y) / (l.point2.y - l.point1.y), ?_, ?_⟩, ?_⟩
        · dsimp only; rw [← hv]; ring
        · dsimp only; field_simp; ring
        · dsimp only; linarith
    · rintro ⟨⟨t, t1, t2⟩, h6⟩
      have e1 : p.x = l.point1.x := by rw [t1, ← hv]; ring
      have : (p.y - S) * (p.y + S) = 0 := by rw [e1] at h6; linear_combination h6 - hs
      rcases mul_eq_zero.1 this with e | e
      · right; ext
        · exact e1
        · dsimp only; linarith
      · left; ext
        · exact e1
        · dsimp only; linarith
  · rw [if_neg hv]
    dsimp only
    have hx : l.point2.x - l.point1.x ≠ 0 := fun e => hv (by linarith)
    obtain ⟨m, hm⟩ : ∃ m, m = (l.point2.y - l.point1.y) / (l.point2.x - l.point1.x) := ⟨_, rfl⟩
    rw [← hm]
    have hm' : l.point2.y - l.point1.y = m * (l.point2.x - l.point1.x) := by rw [hm]; field_simp
    obtain ⟨c, hc⟩ : ∃ c, c = l.point1.y - m * l.point1.x := ⟨_, rfl⟩
    rw [← hc]
    have hdc : d ^ 2 * (1 + m ^ 2) = c ^ 2 := by
      have : (l.point2.x - l.point1.x) ^ 2 * (d ^ 2 * (1 + m ^ 2)) = (l.point2.x - l.point1.x) ^ 2 * c ^ 2 := by
        rw [hm'] at h3
        rw [hc]
        linear_combination h3
      exact mul_left_cancel₀ (pow_ne_zero 2 hx) this
    have hline : ∀ p, OnLine2 l.point1 l.point2 p ↔ p.y = m * p.x + c := by
      intro p
      constructor
      · rintro ⟨t, t1, t2⟩
        rw [t1, t2, hm', hc]; ring
      · intro e
        refine ⟨(p.x - l.point1.x) / (l.point2.x - l.point1.x), by field_simp; ring, ?_⟩
        rw [hm', e, hc]; field_simp; ring
    have hq : 0 < 1 + m ^ 2 := by positivity
    have hdel : (2 * m * c) ^ 2 - 4 * (1 + m ^ 2) * (c ^ 2 - r ^ 2) = (1 + m ^ 2) * (4 * (r ^ 2 - d ^ 2)) := by
      linear_combination 4 * hdc
    have hbig : 1 / 10 ^ 6 < (2 * m * c) ^ 2 - 4 * (1 + m ^ 2) * (c ^ 2 - r ^ 2) := by
      rw [hdel]
      have hm2 := sq_nonneg m
      have h0 : (0 : ℝ) < 4 * (r ^ 2 - d ^ 2) := lt_trans (by norm_num) hg
      calc (1 : ℝ) / 10 ^ 6 < 4 * (r ^ 2 - d ^ 2) := hg
        _ ≤ (1 + m ^ 2) * (4 * (r ^ 2 - d ^ 2)) := by
          have := mul_nonneg hm2 h0.le
          linarith
    have hbig0 : 0 < (2 * m * c) ^ 2 - 4 * (1 + m ^ 2) * (c ^ 2 - r ^ 2) := lt_trans (by norm_num) hbig
    rw [if_neg (by rintro (e | e) <;> linarith)]
    rw [if_neg (not_close_zero hbig0 hbig)]
    refine ⟨_, rfl, fun p => ?_⟩
    have hs := Real.sq_sqrt hbig0.le
    generalize Real.sqrt ((2 * m * c) ^ 2 - 4 * (1 + m ^ 2) * (c ^ 2 - r ^ 2)) = S at hs
    rw [hline]
    have key : ∀ x : ℝ, x ^ 2 + (m * x + c) ^ 2 = r ^ 2 ↔ x = (-(2 * m * c) + S) / (2 * (1 + m ^ 2)) ∨ x = (-(2 * m * c) - S) / (2 * (1 + m ^ 2)) := by
      intro x
      rw [eq_div_iff (by positivity), eq_div_iff (by positivity)]
      constructor
      · intro e
        have : (x * (2 * (1 + m ^ 2)) - (-(2 * m * c) + S)) * (x * (2 * (1 + m ^ 2)) - (-(2 * m * c) - S)) = 0 := by
          linear_combination 4 * (1 + m ^ 2) * e - hs
        rcases mul_eq_zero.1 this with e | e
        · left; linarith
        · right; linarith
      · intro e
        have : (x * (2 * (1 + m ^ 2)) + 2 * m * c) ^ 2 = S ^ 2 := by
          rcases e with e | e
          · rw [e]; ring
          · rw [e]; ring
        have h4 : 4 * (1 + m ^ 2) * (x ^ 2 + (m * x + c) ^ 2) = 4 * (1 + m ^ 2) * r ^ 2 := by linear_combination this + hs
        exact mul_left_cancel₀ (by positivity) h4
    simp only [List.mem_cons, List.not_mem_nil, or_false]
    constructor
    · rintro (rfl | rfl)
      · exact ⟨rfl, (key _).2 (Or.inl rfl)⟩
      · exact ⟨rfl, (key _).2 (Or.inr rfl)⟩
    · rintro ⟨e1, e2⟩
      rw [e1] at e2
      rcases (key _).1 e2 with e | e
      · left; ext
        · exact e
        · dsimp only; rw [e1, e]
      · right; ext
        · exact e
        · dsimp only; rw [e1, e]

/-- Distances to a line in the coordinates of an orthonormal frame. -/
lemma distance_local {f : Frame2 ℝ} (ho : Ortho2 f) {a b : V2 ℝ} {d : ℝ} (hd : IsDistanceToLine2 a b f.origin d) :
    IsDistanceToLine2 ⟨alongU f a, alongV f a⟩ ⟨alongU f b, alongV f b⟩ ⟨0, 0⟩ d := by
  have hO : alongU f f.origin = 0 ∧ alongV f f.origin = 0 := by
    simp [alongU, alongV, V2.dot, V2.sub_x, V2.sub_y]
  have hdist : ∀ q, V2.pointDistance (⟨0, 0⟩ : V2 ℝ) ⟨alongU f q, alongV f q⟩ = V2.pointDistance f.origin q := by
    intro q
    have h1 : 0 ≤ V2.pointDistance (⟨0, 0⟩ : V2 ℝ) ⟨alongU f q, alongV f q⟩ := Real.sqrt_nonneg _
    have h2 : 0 ≤ V2.pointDistance f.origin q := Real.sqrt_nonneg _
    refine (sq_eq_sq₀ h1 h2).1 ?_
    rw [ho.dist_sq f.origin q, hO.1, hO.2]
    unfold V2.pointDistance
    rw [V2.norm_pow_two]
    simp only [V2.dot, V2.sub_x, V2.sub_y]
    ring
  obtain ⟨⟨q, hq, hqd⟩, hmin⟩ := hd
  constructor
  · refine ⟨⟨alongU f q, alongV f q⟩, (ho.onLine_iff a b q).1 hq, ?_⟩
    rw [hdist, hqd]
  · rintro ⟨x, y⟩ hxy
    have e1 := ho.alongU_l2g ⟨x, y⟩
    have e2 := ho.alongV_l2g ⟨x, y⟩
    dsimp only at e1 e2
    have hon : OnLine2 a b (f.localToGlobal ⟨x, y⟩) := by
      rw [ho.onLine_iff, e1, e2]
      exact hxy
    have := hmin _ hon
    rw [← hdist, e1, e2] at this
    exact this

/-- C95: `line_intersections` gives exactly the common points of the circle and of the line, when the centre is the origin or away from it, and the
line misses the circle by more than the tolerance, or crosses it away from tangency (`4 (r² - d²) > 1e-6`) and passes through the centre or farther
than `1e-6` from it. -/
theorem C95_line_partial (c : Circle2) (ho : Ortho2 c.frame) (hr : 0 < c.radius) (l : Line2) (hl : l.point1 ≠ l.point2)
    (hor : c.frame.origin = ⟨0, 0⟩ ∨ ¬isClose2 c.frame.origin ⟨0, 0⟩ (1 / 10 ^ 6)) {d tol : ℝ} (htol : 0 ≤ tol)
    (hd : IsDistanceToLine2 l.point1 l.point2 c.frame.origin d)
    (hg : c.radius + tol < d ∨ (d = 0 ∨ 1 / 10 ^ 6 < d) ∧ 1 / 10 ^ 6 < 4 * (c.radius ^ 2 - d ^ 2)) :
    ∃ ps, circleLine c l tol = .ok ps ∧ ∀ p, p ∈ ps ↔ OnLine2 l.point1 l.point2 p ∧ V2.pointDistance p c.frame.origin = c.radius := by
  obtain ⟨h1, h2, -⟩ := point_distance_eq l hl c.frame.origin hd
  rcases hg with hg | ⟨hd0, hg⟩
  · refine ⟨[], ?_, ?_⟩
    · unfold circleLine circleLineWith
      rw [h1]
      dsimp only
      rw [if_pos hg]
    · intro p
      simp only [List.not_mem_nil, false_iff, not_and]
      intro hp e
      have := hd.2 p hp
      rw [show V2.pointDistance c.frame.origin p = V2.pointDistance p c.frame.origin by
        unfold V2.pointDistance V2.norm; congr 1; simp only [V2.sub_x, V2.sub_y]; ring, e] at this
      linarith
  · rcases hd0 with rfl | hd0
    · exact through_centre c.frame.origin hr htol l hl hd _
    · have hrd : d < c.radius := by
        by_contra hn
        have := mul_self_le_mul_self hr.le (not_lt.1 hn)
        have h6 : (0 : ℝ) < 1 / 10 ^ 6 := by norm_num
        rw [← sq, ← sq] at this
        linarith
      have hnz : ¬mathIsClose d 0 (1 / 10 ^ 6) := by
        exact not_close_zero (lt_trans (by norm_num) hd0) hd0
      have step : ∀ (o : V2 ℝ) (m : Line2) (t : ℝ) (k : Except PyErr (List (V2 ℝ))), 0 ≤ t → m.pointDistance o = some d → circleLineWith o c.radius m t k = k := by
        intro o m t k ht hm
        unfold circleLineWith
        rw [hm]
        dsimp only
        rw [if_neg (by rw [gt_iff_lt, not_lt]; linarith), if_neg hnz]
      unfold circleLine
      rw [step _ _ _ _ htol h1]
      by_cases hc : isClose2 c.frame.origin ⟨0, 0⟩ (1 / 10 ^ 6)
      · rw [if_neg (not_not.2 hc)]
        have hO := hor.resolve_right (not_not.2 hc)
        rw [hO] at hd
        obtain ⟨ps, p1, p2⟩ := helper_spec hr l hl hd hg
        refine ⟨ps, p1, fun p => ?_⟩
        rw [p2, onCircle_iff _ _ hr, hO, sub_zero, sub_zero]
      · rw [if_pos hc, toLocal_eq ho, ho.g2l]
        have hO : alongU c.frame c.frame.origin = 0 ∧ alongV c.frame c.frame.origin = 0 := by
          simp [alongU, alongV, V2.dot, V2.sub_x, V2.sub_y]
        rw [hO.1, hO.2]
        have hne : (⟨alongU c.frame l.point1, alongV c.frame l.point1⟩ : V2 ℝ) ≠ ⟨alongU c.frame l.point2, alongV c.frame l.point2⟩ := fun e =>
          hl (ho.ext (congrArg V2.x e) (congrArg V2.y e))
        have hdl := distance_local ho hd
        obtain ⟨ps, p1, p2⟩ := helper_spec hr ⟨⟨alongU c.frame l.point1, alongV c.frame l.point1⟩, ⟨alongU c.frame l.point2, alongV c.frame l.point2⟩⟩ hne hdl hg
        refine ⟨ps.map c.frame.localToGlobal, ?_, ?_⟩
        · change (circleLineWith ⟨0, 0⟩ c.radius ⟨⟨alongU c.frame l.point1, alongV c.frame l.point1⟩, ⟨alongU c.frame l.point2, alongV c.frame l.point2⟩⟩ (1 / 10 ^ 9) _ >>= fun r => _) = _
          rw [step _ _ _ _ (by norm_num) (point_distance_eq _ hne ⟨0, 0⟩ hdl).1, p1]
          rfl
        · intro p
          rw [onCircle_iff _ _ hr, List.mem_map]
          have hsq := ho.dist_sq p c.frame.origin
          rw [hO.1, hO.2, sub_zero, sub_zero] at hsq
          have hsq' : (p.x - c.frame.origin.x) ^ 2 + (p.y - c.frame.origin.y) ^ 2 = alongU c.frame p ^ 2 + alongV c.frame p ^ 2 := by
            rw [← hsq]; unfold V2.pointDistance; rw [V2.norm_pow_two]; simp only [V2.dot, V2.sub_x, V2.sub_y]; ring
          rw [hsq', ho.onLine_iff]
          constructor
          · rintro ⟨q, hq, rfl⟩
            rw [ho.alongU_l2g, ho.alongV_l2g]
            exact (p2 q).1 hq
          · intro hp
            exact ⟨⟨alongU c.frame p, alongV c.frame p⟩, (p2 _).2 hp, ho.l2g_along p⟩

/-- The circle of radius 5 centred at `(1, 2)`, in a turned frame. -/
noncomputable def exCircleL : Circle2 := ⟨⟨⟨1, 2⟩, ⟨⟨3 / 5, 4 / 5⟩, ⟨-4 / 5, 3 / 5⟩⟩⟩, 5⟩

-- the line at distance 3 of its centre meets the hypotheses
example : Ortho2 exCircleL.frame ∧ 0 < exCircleL.radius ∧ ¬isClose2 exCircleL.frame.origin ⟨0, 0⟩ (1 / 10 ^ 6) ∧
    IsDistanceToLine2 (⟨0, 5⟩ : V2 ℝ) ⟨1, 5⟩ exCircleL.frame.origin 3 ∧ (1 : ℝ) / 10 ^ 6 < 3 ∧ 1 / 10 ^ 6 < 4 * (exCircleL.radius ^ 2 - 3 ^ 2) := by
  refine ⟨⟨by norm_num [exCircleL, V2.dot], by norm_num [exCircleL, V2.dot], by norm_num [exCircleL, V2.dot]⟩, by norm_num [exCircleL], ?_, ?_, by norm_num, by norm_num [exCircleL]⟩
  · unfold isClose2
    have h0 : 0 ≤ V2.pointDistance exCircleL.frame.origin ⟨0, 0⟩ := Real.sqrt_nonneg _
    have h1 : V2.pointDistance exCircleL.frame.origin ⟨0, 0⟩ ^ 2 = 5 := by
      unfold V2.pointDistance; rw [V2.norm_pow_two]; norm_num [V2.dot, exCircleL, V2.sub_x, V2.sub_y]
    generalize V2.pointDistance exCircleL.frame.origin ⟨0, 0⟩ = D at *
    have h2 : 1 ≤ D := by nlinarith
    exact not_close_zero (by linarith) (by norm_num; linarith)
  · have key : ∀ q : V2 ℝ, V2.pointDistance exCircleL.frame.origin q ^ 2 = (1 - q.x) ^ 2 + (2 - q.y) ^ 2 := by
      intro q; unfold V2.pointDistance; rw [V2.norm_pow_two]; simp only [V2.dot, exCircleL, V2.sub_x, V2.sub_y]; ring
    constructor
    · refine ⟨⟨1, 5⟩, ⟨1, by norm_num, by norm_num⟩, ?_⟩
      have h0 : 0 ≤ V2.pointDistance exCircleL.frame.origin ⟨1, 5⟩ := Real.sqrt_nonneg _
      refine (sq_eq_sq₀ h0 (by norm_num)).1 ?_
      rw [key]; norm_num
    · rintro q ⟨t, t1, t2⟩
      have h0 : 0 ≤ V2.pointDistance exCircleL.frame.origin q := Real.sqrt_nonneg _
      refine (sq_le_sq₀ (by norm_num) h0).1 ?_
      rw [key, t2]
      nlinarith [sq_nonneg (1 - q.x)]

/-! ## What fails -/

lemma zero_close : isClose2 (⟨0, 0⟩ : V2 ℝ) ⟨0, 0⟩ (1 / 10 ^ 6) := by
  unfold isClose2 mathIsClose V2.pointDistance
  rw [show V2.norm ((⟨0, 0⟩ : V2 ℝ) - ⟨0, 0⟩) = 0 by rw [V2.norm_eq_zero_iff]; ext <;> simp]
  norm_num

/-- The unit circle at the origin. -/
noncomputable def unitCircle : Circle2 := ⟨⟨⟨0, 0⟩, ⟨⟨1, 0⟩, ⟨0, 1⟩⟩⟩, 1⟩

lemma unit_ortho : Ortho2 unitCircle.frame := ⟨by norm_num [unitCircle, V2.dot], by norm_num [unitCircle, V2.dot], by norm_num [unitCircle, V2.dot]⟩

/-- C95: false.  For the tangent `3x - 4y + 5 = 0` of the unit circle the point returned is `(-375/256, 155/1024)`, which is not on the circle: the
abscissa is computed as `-b/2*a`. -/
theorem C95_tangent_counterexample : ¬C95_full_statement := by
  intro hfull
  obtain ⟨ps, h1, h2⟩ := hfull unitCircle ⟨⟨0, 5 / 4⟩, ⟨1, 2⟩⟩ unit_ortho (by norm_num [unitCircle]) (fun e => by have := congrArg V2.x e; norm_num at this)
  have hn : V2.norm (⟨-(2 - 5 / 4), 1 - 0⟩ : V2 ℝ) = 5 / 4 := by
    unfold V2.norm
    rw [show ∀ z : ℝ, z = (5 / 4) ^ 2 → Real.sqrt z = 5 / 4 from fun z hz => by rw [hz, Real.sqrt_sq (by norm_num)]]
    norm_num
  have hd : (⟨⟨0, 5 / 4⟩, ⟨1, 2⟩⟩ : Line2).pointDistance ⟨0, 0⟩ = some 1 := by
    unfold Line2.pointDistance
    change (if V2.norm (⟨-(2 - 5 / 4), 1 - 0⟩ : V2 ℝ) = 0 then none else some (|V2.dot (⟨-(2 - 5 / 4), 1 - 0⟩ : V2 ℝ) ⟨0 - 0, 5 / 4 - 0⟩| / V2.norm (⟨-(2 - 5 / 4), 1 - 0⟩ : V2 ℝ))) = _
    rw [hn, if_neg (by norm_num)]
    congr 1
    norm_num [V2.dot]
  unfold circleLine circleLineWith at h1
  change (match (⟨⟨0, 5 / 4⟩, ⟨1, 2⟩⟩ : Line2).pointDistance ⟨0, 0⟩ with | none => _ | some d => _) = _ at h1
  rw [hd] at h1
  dsimp only at h1
  rw [if_neg (by norm_num [unitCircle]), if_neg (by norm_num [mathIsClose]), if_neg (by rw [not_not]; exact zero_close)] at h1
  unfold circleHelper slopeIntercept at h1
  dsimp only at h1
  rw [if_neg (by norm_num)] at h1
  dsimp only at h1
  rw [if_neg (by norm_num [unitCircle]), if_pos (by norm_num [unitCircle, mathIsClose])] at h1
  injection h1 with h1
  have h3 := ((h2 ⟨-375 / 256, 155 / 1024⟩).1 (by rw [← h1]; simp only [List.mem_singleton]; norm_num)).2
  rw [onCircle_iff _ _ (by norm_num [unitCircle])] at h3
  norm_num [unitCircle] at h3

/-- C95: a vertical line that misses the circle by less than the tolerance raises `ValueError` instead of returning no point. -/
theorem C95_vertical_counterexample (tol e : ℝ) (he : 0 < e) (het : e ≤ tol) :
    circleLine unitCircle ⟨⟨1 + e, 0⟩, ⟨1 + e, 1⟩⟩ tol = .error .valueError := by
  have hn : V2.norm (⟨-(1 - 0), 1 + e - (1 + e)⟩ : V2 ℝ) = 1 := by
    unfold V2.norm
    rw [show ∀ z : ℝ, z = 1 ^ 2 → Real.sqrt z = 1 from fun z hz => by rw [hz, Real.sqrt_sq (by norm_num)]]
    norm_num
  have hd : (⟨⟨1 + e, 0⟩, ⟨1 + e, 1⟩⟩ : Line2).pointDistance ⟨0, 0⟩ = some (1 + e) := by
    unfold Line2.pointDistance
    change (if V2.norm (⟨-(1 - 0), 1 + e - (1 + e)⟩ : V2 ℝ) = 0 then none else some (|V2.dot (⟨-(1 - 0), 1 + e - (1 + e)⟩ : V2 ℝ) ⟨1 + e - 0, 0 - 0⟩| / V2.norm (⟨-(1 - 0), 1 + e - (1 + e)⟩ : V2 ℝ))) = _
    rw [hn, if_neg (by norm_num)]
    congr 1
    rw [div_one]
    unfold V2.dot
    dsimp only
    rw [show -(1 - 0) * (1 + e - 0) + (1 + e - (1 + e)) * (0 - 0) = -(1 + e) by ring, abs_neg, abs_of_pos (by linarith)]
  unfold circleLine circleLineWith
  change (match (⟨⟨1 + e, 0⟩, ⟨1 + e, 1⟩⟩ : Line2).pointDistance ⟨0, 0⟩ with | none => _ | some d => _) = _
  rw [hd]
  dsimp only
  have hr : unitCircle.radius = 1 := rfl
  rw [hr]
  rw [if_neg (by rw [gt_iff_lt, not_lt]; linarith), if_neg (not_close_zero (by linarith) (by norm_num; linarith)), if_neg (by rw [not_not]; exact zero_close)]
  unfold circleHelper slopeIntercept
  dsimp only
  rw [if_pos rfl]
  dsimp only
  rw [if_pos (by nlinarith)]

end Volmdlr.Conic
