import Verif.Hull.ConvexProps

/-!
# C87: a point lost by the convex hull (a vertex straight ahead of a side)
-/

namespace Volmdlr.Hull

open Real Volmdlr.Angle Volmdlr.Arc

theorem cw_neg {u v : V2 ℝ} {nu nv c : ℝ} (hu : 0 < nu) (hv : 0 < nv) (eu : u.x * u.x + u.y * u.y = nu * nu)
    (ev : v.x * v.x + v.y * v.y = nv * nv) (hc : V2.dot u v = c * (nu * nv)) (h1 : -1 ≤ c) (h2 : c ≤ 1) :
    clockwiseAngle u v = if V2.cross u v < 0 then arccos c else 2 * π - arccos c := by
  have hu0 : u ≠ ⟨0, 0⟩ := by rintro rfl; simp at eu; exact hu.ne' eu
  have hv0 : v ≠ ⟨0, 0⟩ := by rintro rfl; simp at ev; exact hv.ne' ev
  unfold clockwiseAngle
  rw [if_neg (by tauto)]
  have n1 : V2.norm u = nu := by unfold V2.norm; rw [eu]; exact sqrt_mul_self hu.le
  have n2 : V2.norm v = nv := by unfold V2.norm; rw [ev]; exact sqrt_mul_self hv.le
  have hp := mul_pos hu hv
  dsimp only
  rw [n1, n2, hc, mul_div_assoc, div_self hp.ne', mul_one, min_eq_right h2, max_eq_right h1]

/-- Four points: the foot `M = (0, -1)` of the triangle `S A B` is on its side `A B`. -/
def lostPoints : List (V2 ℝ) := [⟨0, 3⟩, ⟨-3, -1⟩, ⟨0, -1⟩, ⟨3, -1⟩]

theorem bary_lost : barycenter lostPoints = ⟨0, 0⟩ := by
  unfold barycenter lostPoints
  simp only [List.tail_cons, List.headD_cons, List.foldl_cons, List.foldl_nil, List.length_cons, List.length_nil]
  simp only [show ∀ p q : V2 ℝ, p + q = ⟨p.x + q.x, p.y + q.y⟩ from fun _ _ => rfl]
  norm_num

theorem cross_mk (a b c d : ℝ) : V2.cross (⟨a, b⟩ : V2 ℝ) ⟨c, d⟩ = a * d - b * c := rfl
theorem dot_mk (a b c d : ℝ) : V2.dot (⟨a, b⟩ : V2 ℝ) ⟨c, d⟩ = a * c + b * d := rfl
theorem sub_mk (a b c d : ℝ) : (⟨a, b⟩ : V2 ℝ) - ⟨c, d⟩ = ⟨a - c, b - d⟩ := rfl

theorem arccos_open {c : ℝ} (h1 : -1 < c) (h2 : c < 1) : 0 < arccos c ∧ arccos c < π := by
  refine ⟨Real.arccos_pos.2 h2, ?_⟩
  rcases (arccos_le_pi c).lt_or_eq with h | h
  · exact h
  · have := Real.arccos_eq_pi.1 h; linarith

theorem cw1 : clockwiseAngle ⟨0, 3⟩ ⟨-3, -4⟩ = 2 * π - arccos (-4 / 5) := by
  rw [cw_neg (nu := 3) (nv := 5) (c := -4 / 5)] <;> norm_num [cross_mk, dot_mk]
theorem cw2 : clockwiseAngle ⟨0, 3⟩ ⟨0, -4⟩ = π := by
  rw [cw_neg (nu := 3) (nv := 4) (c := -1)] <;> norm_num [cross_mk, dot_mk]
  ring
theorem cw3 : clockwiseAngle ⟨0, 3⟩ ⟨3, -4⟩ = arccos (-4 / 5) := by
  rw [cw_neg (nu := 3) (nv := 5) (c := -4 / 5)] <;> norm_num [cross_mk, dot_mk]
theorem cw4 : clockwiseAngle ⟨-3, -4⟩ ⟨3, 0⟩ = 2 * π - arccos (-3 / 5) := by
  rw [cw_neg (nu := 5) (nv := 3) (c := -3 / 5)] <;> norm_num [cross_mk, dot_mk]
theorem cw5 : clockwiseAngle ⟨-3, -4⟩ ⟨6, 0⟩ = 2 * π - arccos (-3 / 5) := by
  rw [cw_neg (nu := 5) (nv := 6) (c := -3 / 5)] <;> norm_num [cross_mk, dot_mk]
theorem cw6 : clockwiseAngle ⟨-3, -4⟩ ⟨3, 4⟩ = π := by
  rw [cw_neg (nu := 5) (nv := 5) (c := -1)] <;> norm_num [cross_mk, dot_mk]
  ring
theorem cw7 : clockwiseAngle ⟨0, 3⟩ ⟨0, -1⟩ = π := by
  rw [cw_neg (nu := 3) (nv := 1) (c := -1)] <;> norm_num [cross_mk, dot_mk]
  ring
theorem cw8 : clockwiseAngle ⟨3, 0⟩ ⟨3, 0⟩ = 2 * π := by
  rw [cw_neg (nu := 3) (nv := 3) (c := 1)] <;> norm_num [cross_mk, dot_mk]
theorem cw9 : clockwiseAngle ⟨3, 0⟩ ⟨0, 4⟩ = 2 * π - π / 2 := by
  rw [cw_neg (nu := 3) (nv := 4) (c := 0)] <;> norm_num [cross_mk, dot_mk]
theorem cw10 : clockwiseAngle ⟨0, -1⟩ ⟨0, 3⟩ = π := by
  rw [cw_neg (nu := 1) (nv := 3) (c := -1)] <;> norm_num [cross_mk, dot_mk]
  ring

theorem argmin3 {a b c : ℝ} (h1 : a ≤ b) (h2 : a ≤ c) : argmin [a, b, c] = some (a, 0) := by
  simp only [argmin, argminFrom, if_neg (not_lt.2 h1), if_neg (not_lt.2 h2)]

theorem argmin2 {a b : ℝ} (h1 : a ≤ b) : argmin [a, b] = some (a, 0) := by
  simp only [argmin, argminFrom, if_neg (not_lt.2 h1)]

theorem notClose_zero {x tol : ℝ} (ht : tol < 1) (hx : x < -1) : ¬ mathIsClose x 0 tol := by
  unfold mathIsClose
  rw [sub_zero, abs_zero, abs_of_neg (by linarith : x < 0), show max (-x) 0 = -x from max_eq_left (by linarith)]
  intro h
  rcases le_max_iff.1 h with h | h <;> nlinarith

theorem notClose_2pi {x : ℝ} (h1 : -2 * π + 1 < x) (h2 : x < 0) : ¬ mathIsClose x (-2 * π) (1 / 10 ^ 6) := by
  have hp := pi_gt_three
  have hp' := pi_lt_four
  unfold mathIsClose
  rw [abs_of_pos (by linarith : 0 < x - -2 * π), abs_of_neg h2, abs_of_neg (by linarith : -2 * π < 0),
    show max (-x) (-(-2 * π)) = -(-2 * π) from max_eq_right (by linarith)]
  intro h
  rcases le_max_iff.1 h with h | h <;> nlinarith

theorem isClose2_iff_dist {p q : V2 ℝ} (h : 1 / 10 ^ 6 < V2.pointDistance p q) : ¬ isClose2 p q (1 / 10 ^ 6) :=
  fun h' => absurd (isClose2_dist' h') (not_le.2 h)

/-- **C87** the convex hull of the four points is computed as the triangle `S A M`: the point `B = (3, -1)`, straight ahead of the
side `A M`, is thrown away. -/
theorem C87_lost_point : pointsConvexHull lostPoints = .ok (some [⟨0, 3⟩, ⟨-3, -1⟩, ⟨0, -1⟩]) := by
  have hp := pi_gt_three
  have hp' := pi_lt_four
  obtain ⟨a1, a2⟩ := arccos_open (c := -4 / 5) (by norm_num) (by norm_num)
  obtain ⟨b1, b2⟩ := arccos_open (c := -3 / 5) (by norm_num) (by norm_num)
  have b3 : π / 2 < arccos (-3 / 5) := by
    by_contra hc
    have := (Real.arccos_le_pi_div_two).1 (not_lt.1 hc)
    norm_num at this
  unfold pointsConvexHull
  rw [bary_lost]
  have m1 : argmax (lostPoints.map V2.y) = some (3, 0) := by
    norm_num [argmax, argmin, argminFrom, lostPoints]
  rw [if_neg (by simp [lostPoints]), m1]
  simp only [lostPoints, List.getD_cons_zero, List.eraseIdx_zero, List.tail_cons]
  have m2 : argmin (thetas ((⟨0, 3⟩ : V2 ℝ) - ⟨0, 0⟩) ⟨0, 3⟩ [⟨-3, -1⟩, ⟨0, -1⟩, ⟨3, -1⟩]) = some (-(2 * π - arccos (-4 / 5)), 0) := by
    have e : thetas ((⟨0, 3⟩ : V2 ℝ) - ⟨0, 0⟩) ⟨0, 3⟩ [⟨-3, -1⟩, ⟨0, -1⟩, ⟨3, -1⟩] = [-(2 * π - arccos (-4 / 5)), -π, -arccos (-4 / 5)] := by
      rw [← cw1, ← cw2, ← cw3]
      norm_num [thetas, sub_mk]
    rw [e]
    exact argmin3 (by linarith) (by linarith)
  rw [m2]
  simp only [List.getD_cons_zero, List.eraseIdx_zero, List.tail_cons, List.length_cons, List.length_nil]
  have far1 : ¬ isClose2 (⟨-3, -1⟩ : V2 ℝ) ⟨0, 3⟩ (1 / 10 ^ 6) := by
    apply isClose2_iff_dist
    unfold V2.pointDistance V2.norm
    rw [sub_mk]
    apply Real.lt_sqrt_of_sq_lt
    norm_num
  have far2 : ¬ isClose2 (⟨0, -1⟩ : V2 ℝ) ⟨0, 3⟩ (1 / 10 ^ 6) := by
    apply isClose2_iff_dist
    unfold V2.pointDistance V2.norm
    rw [sub_mk]
    apply Real.lt_sqrt_of_sq_lt
    norm_num
  have m3 : argmin (thetas ((⟨-3, -1⟩ : V2 ℝ) - ⟨0, 3⟩) ⟨-3, -1⟩ ([⟨0, -1⟩, ⟨3, -1⟩] ++ [⟨0, 3⟩])) =
      some (-(2 * π - arccos (-3 / 5)), 0) := by
    have e : thetas ((⟨-3, -1⟩ : V2 ℝ) - ⟨0, 3⟩) ⟨-3, -1⟩ ([⟨0, -1⟩, ⟨3, -1⟩] ++ [⟨0, 3⟩]) =
        [-clockwiseAngle ⟨-3, -4⟩ ⟨3, 0⟩, -clockwiseAngle ⟨-3, -4⟩ ⟨6, 0⟩, -clockwiseAngle ⟨-3, -4⟩ ⟨3, 4⟩] := by
      norm_num [thetas, sub_mk]
    rw [e, cw4, cw5, cw6]
    exact argmin3 (by linarith) (by linarith)
  rw [hullLoop, if_neg far1, m3]
  simp only [List.getD_cons_zero, List.eraseIdx_zero, List.tail_cons, List.length_cons, List.length_nil, List.cons_append,
    List.nil_append]
  rw [if_neg (by
    rintro (h | h)
    · exact notClose_2pi (by linarith) (by linarith) h
    · exact notClose_zero (by norm_num) (by linarith) h)]
  have s0 : ∀ p : V2 ℝ, p - ⟨0, 0⟩ = p := by
    intro p
    show (⟨p.x - 0, p.y - 0⟩ : V2 ℝ) = p
    simp
  rw [s0, s0, cw7, if_neg (by linarith)]
  rw [hullLoop, if_neg far2]
  have m4 : argmin (thetas ((⟨0, -1⟩ : V2 ℝ) - ⟨-3, -1⟩) ⟨0, -1⟩ [⟨3, -1⟩, ⟨0, 3⟩]) = some (-(2 * π), 0) := by
    have e : thetas ((⟨0, -1⟩ : V2 ℝ) - ⟨-3, -1⟩) ⟨0, -1⟩ [⟨3, -1⟩, ⟨0, 3⟩] =
        [-clockwiseAngle ⟨3, 0⟩ ⟨3, 0⟩, -clockwiseAngle ⟨3, 0⟩ ⟨0, 4⟩] := by
      norm_num [thetas, sub_mk]
    rw [e, cw8, cw9]
    exact argmin2 (by linarith)
  rw [m4]
  simp only [List.getD_cons_zero, List.eraseIdx_zero, List.tail_cons, List.length_cons, List.length_nil, List.cons_append,
    List.nil_append]
  rw [if_pos (Or.inl (by
    have : -(2 * π) = -2 * π := by ring
    rw [this]
    unfold mathIsClose
    rw [sub_self, abs_zero]
    exact le_max_of_le_right (by norm_num))), if_neg (by simp)]
  rw [hullLoop, if_neg far2]
  have m5 : argmin (thetas ((⟨0, -1⟩ : V2 ℝ) - ⟨-3, -1⟩) ⟨0, -1⟩ [⟨0, 3⟩]) = some (-(2 * π - π / 2), 0) := by
    have e : thetas ((⟨0, -1⟩ : V2 ℝ) - ⟨-3, -1⟩) ⟨0, -1⟩ [⟨0, 3⟩] = [-clockwiseAngle ⟨3, 0⟩ ⟨0, 4⟩] := by
      norm_num [thetas, sub_mk]
    rw [e, cw9]
    simp only [argmin, argminFrom]
  rw [m5]
  simp only [List.getD_cons_zero, List.eraseIdx_zero, List.tail_cons, List.length_cons, List.length_nil, List.cons_append,
    List.nil_append]
  rw [if_neg (by
    rintro (h | h)
    · exact notClose_2pi (by linarith) (by linarith) h
    · exact notClose_zero (by norm_num) (by linarith) h)]
  rw [s0, cw10, if_neg (by linarith)]
  rw [hullLoop, if_pos (isClose2_self _)]
  rfl

/-- **C87** the full property: the polygon has the convex hull of any list of points that are not all on a line. -/
def C87_full_statement : Prop :=
  ∀ pts : List (V2 ℝ), pts.Nodup → (∃ a ∈ pts, ∃ b ∈ pts, ∃ c ∈ pts, V2.cross (b - a) (c - a) ≠ 0) →
    ∃ hull, pointsConvexHull pts = .ok (some hull) ∧
      convexHull ℝ {q | ∃ p ∈ hull, q = pair p} = convexHull ℝ {q | ∃ p ∈ pts, q = pair p}

/-- **C87** the full property is false: aligned points. -/
theorem C87_counterexample : ¬ C87_full_statement := by
  intro h
  obtain ⟨hull, e, hh⟩ := h lostPoints (by norm_num [lostPoints])
    ⟨⟨0, 3⟩, by simp [lostPoints], ⟨-3, -1⟩, by simp [lostPoints], ⟨0, -1⟩, by simp [lostPoints], by
      simp only [sub_mk, cross_mk]; norm_num⟩
  rw [C87_lost_point] at e
  simp only [Except.ok.injEq, Option.some.injEq] at e
  subst e
  have hB : ((3, -1) : ℝ × ℝ) ∈ convexHull ℝ {q | ∃ p ∈ lostPoints, q = pair p} :=
    subset_convexHull ℝ _ ⟨⟨3, -1⟩, by simp [lostPoints], rfl⟩
  rw [← hh] at hB
  have hsub : convexHull ℝ {q | ∃ p ∈ ([⟨0, 3⟩, ⟨-3, -1⟩, ⟨0, -1⟩] : List (V2 ℝ)), q = pair p} ⊆ {q : ℝ × ℝ | q.1 ≤ 0} := by
    apply convexHull_min
    · rintro _ ⟨p, hp, rfl⟩
      simp only [List.mem_cons, List.not_mem_nil, or_false] at hp
      rcases hp with rfl | rfl | rfl <;> norm_num [pair]
    · exact convex_halfSpace_le (LinearMap.isLinear (LinearMap.fst ℝ ℝ ℝ)) 0
  have := hsub hB
  norm_num at this

/-- Non-vacuity of the hypotheses of `C87_convex_hull_partial`: a triangle with a point inside. -/
example : GenPos [⟨0, 0⟩, ⟨4, 0⟩, ⟨0, 4⟩, ⟨1, 1⟩] ∧ 3 ≤ ([⟨0, 0⟩, ⟨4, 0⟩, ⟨0, 4⟩, ⟨1, 1⟩] : List (V2 ℝ)).length := by
  have hd : ∀ p q : V2 ℝ, 1 / 10 ^ 6 < (p.x - q.x) * (p.x - q.x) + (p.y - q.y) * (p.y - q.y) →
      1 / 10 ^ 6 < V2.pointDistance p q := by
    intro p q h
    unfold V2.pointDistance V2.norm
    apply Real.lt_sqrt_of_sq_lt
    show _ < (p.x - q.x) * (p.x - q.x) + (p.y - q.y) * (p.y - q.y)
    refine lt_trans ?_ h
    norm_num
  have hn : ∀ u v : V2 ℝ, V2.norm u * V2.norm v ≤ (u.x * u.x + u.y * u.y + (v.x * v.x + v.y * v.y)) / 2 := by
    intro u v
    have h1 := norm_sq u
    have h2 := norm_sq v
    nlinarith [mul_self_nonneg (V2.norm u - V2.norm v)]
  refine ⟨⟨?_, ?_⟩, by simp⟩
  · simp only [List.pairwise_cons, List.mem_cons, List.not_mem_nil, or_false]
    refine ⟨?_, ?_, ?_, ?_, List.Pairwise.nil⟩ <;> intro p hp
    · rcases hp with rfl | rfl | rfl <;> apply hd <;> norm_num
    · rcases hp with rfl | rfl <;> apply hd <;> norm_num
    · subst hp; apply hd; norm_num
    · exact hp.elim
  · intro a ha b hb c hc h1 h2 h3
    have := hn (b - a) (c - b)
    simp only [List.mem_cons, List.not_mem_nil, or_false] at ha hb hc
    rcases ha with rfl | rfl | rfl | rfl <;> rcases hb with rfl | rfl | rfl | rfl <;> rcases hc with rfl | rfl | rfl | rfl <;>
      first
        | exact absurd rfl h1
        | exact absurd rfl h2
        | exact absurd rfl h3
        | (simp only [sub_mk, cross_mk] at this ⊢
           norm_num at this ⊢
           linarith)

end Volmdlr.Hull
