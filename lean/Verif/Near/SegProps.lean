import Verif.Near.SegModel
import Verif.Near.PlaneProps
import Verif.Segment.Props

/-!
# C206, C207: distances of a line segment of the plane to another one and to a line

**C206** `LineSegment2D.distance_linesegment`, **C207** `LineSegment2D.line_distance`.
-/

namespace Volmdlr.Near

/-- The points of the segment from `a` to `b`. -/
def Seg (a b : V2 ℝ) : Set (V2 ℝ) := {p | ∃ t : ℝ, 0 ≤ t ∧ t ≤ 1 ∧ p = ⟨a.x + t * (b.x - a.x), a.y + t * (b.y - a.y)⟩}

/-- The points of the line by `a` and `b`. -/
def Line (a b : V2 ℝ) : Set (V2 ℝ) := {p | ∃ t : ℝ, p = ⟨a.x + t * (b.x - a.x), a.y + t * (b.y - a.y)⟩}

lemma sq_pos_of_ne {a b : V2 ℝ} (h : a ≠ b) : 0 < (b.x - a.x) ^ 2 + (b.y - a.y) ^ 2 := by
  by_contra hh
  have h1 : b.x - a.x = 0 := by nlinarith [sq_nonneg (b.x - a.x), sq_nonneg (b.y - a.y)]
  have h2 : b.y - a.y = 0 := by nlinarith [sq_nonneg (b.x - a.x), sq_nonneg (b.y - a.y)]
  exact h (by ext <;> linarith)

lemma dot_self_eq (a b : V2 ℝ) : V2.dot (b - a) (b - a) = (b.x - a.x) ^ 2 + (b.y - a.y) ^ 2 := by
  simp only [V2.dot, V2.sub_x, V2.sub_y]; ring

/-- The distances to the points of a line in terms of the projection. -/
lemma dist_sq_line (a b p : V2 ℝ) (h : a ≠ b) (t : ℝ) :
    (a.x + t * (b.x - a.x) - p.x) ^ 2 + (a.y + t * (b.y - a.y) - p.y) ^ 2 =
      ((b.x - a.x) ^ 2 + (b.y - a.y) ^ 2) * (t - V2.dot (p - a) (b - a) / V2.dot (b - a) (b - a)) ^ 2 +
      ((p.x - a.x) * (b.y - a.y) - (p.y - a.y) * (b.x - a.x)) ^ 2 / ((b.x - a.x) ^ 2 + (b.y - a.y) ^ 2) := by
  rw [dot_self_eq]
  have h0 := (sq_pos_of_ne h).ne'
  simp only [V2.dot, V2.sub_x, V2.sub_y]
  field_simp
  ring

lemma clamp_le (x t : ℝ) (h0 : 0 ≤ t) (h1 : t ≤ 1) : (max 0 (min x 1) - x) ^ 2 ≤ (t - x) ^ 2 := by
  rcases le_total x 0 with hx | hx
  · rw [min_eq_left (by linarith), max_eq_left hx]; nlinarith
  · rcases le_total x 1 with hx1 | hx1
    · rw [min_eq_left hx1, max_eq_right hx]; nlinarith [sq_nonneg (t - x)]
    · rw [min_eq_right hx1, max_eq_right (by norm_num)]; nlinarith

/-- `closest_point_on_segment` gives the nearest point of the segment. -/
lemma closestOnSegment_spec (a b p : V2 ℝ) (h : a ≠ b) : ∃ q, closestOnSegment a b p = some q ∧ q ∈ Seg a b ∧ ∀ q' ∈ Seg a b, V2.pointDistance q p ≤ V2.pointDistance q' p := by
  have h0 := sq_pos_of_ne h
  unfold closestOnSegment
  rw [if_neg (by rw [dot_self_eq]; exact h0.ne')]
  refine ⟨_, rfl, ⟨max 0 (min (V2.dot (p - a) (b - a) / V2.dot (b - a) (b - a)) 1), le_max_left _ _, max_le (by norm_num) (min_le_right _ _), by simp only [V2.sub_x, V2.sub_y]⟩, ?_⟩
  rintro q' ⟨t, ht0, ht1, rfl⟩
  rw [dist2, dist2]
  refine Real.sqrt_le_sqrt ?_
  simp only [V2.sub_x, V2.sub_y]
  rw [dist_sq_line a b p h, dist_sq_line a b p h]
  have := mul_le_mul_of_nonneg_left (clamp_le (V2.dot (p - a) (b - a) / V2.dot (b - a) (b - a)) t ht0 ht1) h0.le
  linarith

/-- `closest_point_on_line` gives the nearest point of the line, at a distance given by the cross product. -/
lemma closestOnLine_spec (a b p : V2 ℝ) (h : a ≠ b) : ∃ q, closestOnLine a b p = some q ∧ q ∈ Line a b ∧ (∀ q' ∈ Line a b, V2.pointDistance q p ≤ V2.pointDistance q' p) ∧
    V2.pointDistance q p = Real.sqrt (((p.x - a.x) * (b.y - a.y) - (p.y - a.y) * (b.x - a.x)) ^ 2 / ((b.x - a.x) ^ 2 + (b.y - a.y) ^ 2)) := by
  have h0 := sq_pos_of_ne h
  unfold closestOnLine
  rw [if_neg (by rw [dot_self_eq]; exact h0.ne')]
  refine ⟨_, rfl, ⟨V2.dot (p - a) (b - a) / V2.dot (b - a) (b - a), by simp only [V2.sub_x, V2.sub_y]⟩, ?_, ?_⟩
  · rintro q' ⟨t, rfl⟩
    rw [dist2, dist2]
    refine Real.sqrt_le_sqrt ?_
    simp only [V2.sub_x, V2.sub_y]
    rw [dist_sq_line a b p h, dist_sq_line a b p h]
    have := mul_nonneg h0.le (sq_nonneg (t - V2.dot (p - a) (b - a) / V2.dot (b - a) (b - a)))
    rw [sub_self]
    linarith
  · rw [dist2]
    simp only [V2.sub_x, V2.sub_y]
    rw [dist_sq_line a b p h, sub_self]
    congr 1
    ring

/-! ## C206 -/

/-- From a point of the unit interval a move reaches an end. -/
lemma exit_one (s α : ℝ) (h0 : 0 ≤ s) (h1 : s ≤ 1) (hα : α ≠ 0) : ∃ l : ℝ, 0 ≤ l ∧ (s + l * α = 0 ∨ s + l * α = 1) := by
  rcases lt_or_gt_of_ne hα with h | h
  · exact ⟨s / (-α), div_nonneg h0 (by linarith), Or.inl (by field_simp; ring)⟩
  · exact ⟨(1 - s) / α, div_nonneg (by linarith) h.le, Or.inr (by field_simp; ring)⟩

lemma between {s α l m : ℝ} (h0 : 0 ≤ s) (h1 : s ≤ 1) (hm : 0 ≤ m) (hml : m ≤ l) (hl0 : 0 ≤ s + l * α) (hl1 : s + l * α ≤ 1) : 0 ≤ s + m * α ∧ s + m * α ≤ 1 := by
  rcases le_total 0 α with h | h
  · exact ⟨by nlinarith, by nlinarith⟩
  · exact ⟨by nlinarith, by nlinarith⟩

/-- From a point of the unit square a move reaches a side. -/
lemma exit_square (s t α β : ℝ) (hs0 : 0 ≤ s) (hs1 : s ≤ 1) (ht0 : 0 ≤ t) (ht1 : t ≤ 1) (h : α ≠ 0 ∨ β ≠ 0) :
    ∃ l : ℝ, 0 ≤ l ∧ 0 ≤ s + l * α ∧ s + l * α ≤ 1 ∧ 0 ≤ t + l * β ∧ t + l * β ≤ 1 ∧ (s + l * α = 0 ∨ s + l * α = 1 ∨ t + l * β = 0 ∨ t + l * β = 1) := by
  by_cases hα : α = 0
  · obtain ⟨l, hl, hle⟩ := exit_one t β ht0 ht1 (h.resolve_left (fun hh => hh hα))
    refine ⟨l, hl, by rw [hα]; linarith, by rw [hα]; linarith, ?_, ?_, by tauto⟩ <;> rcases hle with e | e <;> rw [e] <;> norm_num
  · by_cases hβ : β = 0
    · obtain ⟨l, hl, hle⟩ := exit_one s α hs0 hs1 hα
      refine ⟨l, hl, ?_, ?_, by rw [hβ]; linarith, by rw [hβ]; linarith, by tauto⟩ <;> rcases hle with e | e <;> rw [e] <;> norm_num
    · obtain ⟨l, hl, hle⟩ := exit_one s α hs0 hs1 hα
      obtain ⟨m, hm, hme⟩ := exit_one t β ht0 ht1 hβ
      have l01 : 0 ≤ s + l * α ∧ s + l * α ≤ 1 := by rcases hle with e | e <;> rw [e] <;> norm_num
      have m01 : 0 ≤ t + m * β ∧ t + m * β ≤ 1 := by rcases hme with e | e <;> rw [e] <;> norm_num
      rcases le_total l m with hlm | hlm
      · obtain ⟨b1, b2⟩ := between ht0 ht1 hl hlm m01.1 m01.2
        exact ⟨l, hl, l01.1, l01.2, b1, b2, by tauto⟩
      · obtain ⟨b1, b2⟩ := between hs0 hs1 hm hlm l01.1 l01.2
        exact ⟨m, hm, b1, b2, m01.1, m01.2, by tauto⟩

/-- Between segments that do not cross, or are parallel, no pair of points is nearer than all the pairs with an end. -/
lemma end_nearer (a b c d : V2 ℝ) (hab : a ≠ b) (_hcd : c ≠ d)
    (hno : (∀ p, p ∈ Seg a b → p ∉ Seg c d) ∨ (b.x - a.x) * (d.y - c.y) - (b.y - a.y) * (d.x - c.x) = 0) (p q : V2 ℝ) (hp : p ∈ Seg a b) (hq : q ∈ Seg c d) :
    ∃ p' ∈ Seg a b, ∃ q' ∈ Seg c d, (p' = a ∨ p' = b ∨ q' = c ∨ q' = d) ∧ V2.pointDistance p' q' ≤ V2.pointDistance p q := by
  obtain ⟨s, hs0, hs1, rfl⟩ := hp
  obtain ⟨t, ht0, ht1, rfl⟩ := hq
  have finish : ∀ α β l : ℝ, 0 ≤ s + l * α → s + l * α ≤ 1 → 0 ≤ t + l * β → t + l * β ≤ 1 → (s + l * α = 0 ∨ s + l * α = 1 ∨ t + l * β = 0 ∨ t + l * β = 1) →
      (a.x + (s + l * α) * (b.x - a.x) - (c.x + (t + l * β) * (d.x - c.x))) ^ 2 + (a.y + (s + l * α) * (b.y - a.y) - (c.y + (t + l * β) * (d.y - c.y))) ^ 2 ≤
        (a.x + s * (b.x - a.x) - (c.x + t * (d.x - c.x))) ^ 2 + (a.y + s * (b.y - a.y) - (c.y + t * (d.y - c.y))) ^ 2 →
      ∃ p' ∈ Seg a b, ∃ q' ∈ Seg c d, (p' = a ∨ p' = b ∨ q' = c ∨ q' = d) ∧
        V2.pointDistance p' q' ≤ V2.pointDistance ⟨a.x + s * (b.x - a.x), a.y + s * (b.y - a.y)⟩ ⟨c.x + t * (d.x - c.x), c.y + t * (d.y - c.y)⟩ := by
    intro α β l h1 h2 h3 h4 h5 h6
    refine ⟨_, ⟨s + l * α, h1, h2, rfl⟩, _, ⟨t + l * β, h3, h4, rfl⟩, ?_, ?_⟩
    · rcases h5 with e | e | e | e <;> rw [e]
      · left; ext <;> simp
      · right; left; ext <;> simp
      · right; right; left; ext <;> simp
      · right; right; right; ext <;> simp
    · rw [dist2, dist2]
      exact Real.sqrt_le_sqrt h6
  obtain ⟨D, hD⟩ : ∃ D, D = (b.x - a.x) * (d.y - c.y) - (b.y - a.y) * (d.x - c.x) := ⟨_, rfl⟩
  by_cases hD0 : D = 0
  · -- parallel: sliding along both keeps the distance
    rw [hD] at hD0
    have hu := sq_pos_of_ne hab
    obtain ⟨α, hα⟩ : ∃ α, α = (b.x - a.x) * (d.x - c.x) + (b.y - a.y) * (d.y - c.y) := ⟨_, rfl⟩
    obtain ⟨β, hβ⟩ : ∃ β, β = (b.x - a.x) ^ 2 + (b.y - a.y) ^ 2 := ⟨_, rfl⟩
    obtain ⟨l, -, h1, h2, h3, h4, h5⟩ := exit_square s t α β hs0 hs1 ht0 ht1 (Or.inr (by rw [hβ]; exact hu.ne'))
    refine finish α β l h1 h2 h3 h4 h5 (le_of_eq ?_)
    have e1 : α * (b.x - a.x) = β * (d.x - c.x) := by
      rw [hα, hβ]; linear_combination (b.y - a.y) * hD0
    have e2 : α * (b.y - a.y) = β * (d.y - c.y) := by
      rw [hα, hβ]; linear_combination -(b.x - a.x) * hD0
    have f1 : a.x + (s + l * α) * (b.x - a.x) - (c.x + (t + l * β) * (d.x - c.x)) = a.x + s * (b.x - a.x) - (c.x + t * (d.x - c.x)) := by linear_combination l * e1
    have f2 : a.y + (s + l * α) * (b.y - a.y) - (c.y + (t + l * β) * (d.y - c.y)) = a.y + s * (b.y - a.y) - (c.y + t * (d.y - c.y)) := by linear_combination l * e2
    rw [f1, f2]
  · -- the crossing of the lines is out of the square: going to it makes the distance smaller
    have hno' := hno.resolve_right (by rw [← hD]; exact hD0)
    obtain ⟨s', hs'⟩ : ∃ s', s' = ((c.x - a.x) * (d.y - c.y) - (c.y - a.y) * (d.x - c.x)) / D := ⟨_, rfl⟩
    obtain ⟨t', ht'⟩ : ∃ t', t' = ((c.x - a.x) * (b.y - a.y) - (c.y - a.y) * (b.x - a.x)) / D := ⟨_, rfl⟩
    have k1 : s' * D = (c.x - a.x) * (d.y - c.y) - (c.y - a.y) * (d.x - c.x) := by rw [hs']; field_simp
    have k2 : t' * D = (c.x - a.x) * (b.y - a.y) - (c.y - a.y) * (b.x - a.x) := by rw [ht']; field_simp
    have e1 : a.x + s' * (b.x - a.x) = c.x + t' * (d.x - c.x) := by
      have : (a.x + s' * (b.x - a.x) - (c.x + t' * (d.x - c.x))) * D = 0 := by
        have : (a.x + s' * (b.x - a.x) - (c.x + t' * (d.x - c.x))) * D = (a.x - c.x) * D + (s' * D) * (b.x - a.x) - (t' * D) * (d.x - c.x) := by ring
        rw [this, k1, k2, hD]; ring
      have := (mul_eq_zero.mp this).resolve_right hD0
      linarith
    have e2 : a.y + s' * (b.y - a.y) = c.y + t' * (d.y - c.y) := by
      have : (a.y + s' * (b.y - a.y) - (c.y + t' * (d.y - c.y))) * D = 0 := by
        have : (a.y + s' * (b.y - a.y) - (c.y + t' * (d.y - c.y))) * D = (a.y - c.y) * D + (s' * D) * (b.y - a.y) - (t' * D) * (d.y - c.y) := by ring
        rw [this, k1, k2, hD]; ring
      have := (mul_eq_zero.mp this).resolve_right hD0
      linarith
    have hout : ¬ (0 ≤ s' ∧ s' ≤ 1 ∧ 0 ≤ t' ∧ t' ≤ 1) := by
      rintro ⟨g1, g2, g3, g4⟩
      exact hno' ⟨a.x + s' * (b.x - a.x), a.y + s' * (b.y - a.y)⟩ ⟨s', g1, g2, rfl⟩ ⟨t', g3, g4, by rw [e1, e2]⟩
    have hne : s' - s ≠ 0 ∨ t' - t ≠ 0 := by
      by_contra hh
      push Not at hh
      have h1 : s' = s := by linarith [hh.1]
      have h2 : t' = t := by linarith [hh.2]
      exact hout ⟨by linarith, by linarith, by linarith, by linarith⟩
    obtain ⟨l, hl, h1, h2, h3, h4, h5⟩ := exit_square s t (s' - s) (t' - t) hs0 hs1 ht0 ht1 hne
    have hl1 : l ≤ 1 := by
      by_contra hh
      push Not at hh
      obtain ⟨b1, b2⟩ := between hs0 hs1 zero_le_one hh.le h1 h2
      obtain ⟨b3, b4⟩ := between ht0 ht1 zero_le_one hh.le h3 h4
      exact hout ⟨by linarith, by linarith, by linarith, by linarith⟩
    refine finish _ _ l h1 h2 h3 h4 h5 ?_
    have f1 : a.x + (s + l * (s' - s)) * (b.x - a.x) - (c.x + (t + l * (t' - t)) * (d.x - c.x)) = (1 - l) * (a.x + s * (b.x - a.x) - (c.x + t * (d.x - c.x))) := by linear_combination l * e1
    have f2 : a.y + (s + l * (s' - s)) * (b.y - a.y) - (c.y + (t + l * (t' - t)) * (d.y - c.y)) = (1 - l) * (a.y + s * (b.y - a.y) - (c.y + t * (d.y - c.y))) := by linear_combination l * e2
    rw [f1, f2]
    have hsq : (1 - l) ^ 2 ≤ 1 := by nlinarith
    have hx := sq_nonneg (a.x + s * (b.x - a.x) - (c.x + t * (d.x - c.x)))
    have hy := sq_nonneg (a.y + s * (b.y - a.y) - (c.y + t * (d.y - c.y)))
    rw [mul_pow, mul_pow]
    have hx' := mul_le_mul_of_nonneg_right hsq hx
    have hy' := mul_le_mul_of_nonneg_right hsq hy
    rw [one_mul] at hx' hy'
    linarith

lemma dist2_comm (u v : V2 ℝ) : V2.pointDistance u v = V2.pointDistance v u := by
  rw [dist2, dist2]; congr 1; ring

lemma end_mem (a b : V2 ℝ) : a ∈ Seg a b ∧ b ∈ Seg a b := ⟨⟨0, le_refl _, zero_le_one, by ext <;> simp⟩, ⟨1, zero_le_one, le_refl _, by ext <;> simp⟩⟩

/-- What is used of `linesegment_intersections`: a common point, or none and the segments have no common point or are parallel. -/
def GoodHits (hits : List (V2 ℝ)) (a b c d : V2 ℝ) : Prop :=
  (∀ p ∈ hits, p ∈ Seg a b ∧ p ∈ Seg c d) ∧ (hits = [] → (∀ p, p ∈ Seg a b → p ∉ Seg c d) ∨ (b.x - a.x) * (d.y - c.y) - (b.y - a.y) * (d.x - c.x) = 0)

/-- **C206** (partial: the points can come in the other order) the distance of two segments of the plane, and points of them at this distance. -/
theorem C206_segments_partial (hits : List (V2 ℝ)) (a b c d : V2 ℝ) (hab : a ≠ b) (hcd : c ≠ d) (hh : GoodHits hits a b c d) :
    ∃ r, segmentsDistance hits a b c d = .ok r ∧
      (IsDistance V2.pointDistance (Seg a b) (Seg c d) r ∨ IsDistance V2.pointDistance (Seg a b) (Seg c d) (r.1, r.2.2, r.2.1)) := by
  unfold segmentsDistance
  rcases hits with _ | ⟨p, l⟩
  · obtain ⟨pc, epc, mpc, npc⟩ := closestOnSegment_spec a b c hab
    obtain ⟨pd, epd, mpd, npd⟩ := closestOnSegment_spec a b d hab
    obtain ⟨pa, epa, mpa, npa⟩ := closestOnSegment_spec c d a hcd
    obtain ⟨pb, epb, mpb, npb⟩ := closestOnSegment_spec c d b hcd
    obtain ⟨r, hr, hleast, hmin⟩ := leastOf_spec [(V2.pointDistance pc c, (pc, c)), (V2.pointDistance pd d, (pd, d)), (V2.pointDistance pa a, (pa, a)), (V2.pointDistance pb b, (pb, b))] (by simp)
    have m1 := hmin (V2.pointDistance pc c, (pc, c)) (by simp)
    have m2 := hmin (V2.pointDistance pd d, (pd, d)) (by simp)
    have m3 := hmin (V2.pointDistance pa a, (pa, a)) (by simp)
    have m4 := hmin (V2.pointDistance pb b, (pb, b)) (by simp)
    dsimp only at m1 m2 m3 m4
    have hall : ∀ p ∈ Seg a b, ∀ q ∈ Seg c d, r.1 ≤ V2.pointDistance p q := by
      intro p hp q hq
      obtain ⟨p', hp', q', hq', hend, hle⟩ := end_nearer a b c d hab hcd (hh.2 rfl) p q hp hq
      refine le_trans ?_ hle
      rcases hend with rfl | rfl | rfl | rfl
      · rw [dist2_comm]; exact m3.trans (npa q' hq')
      · rw [dist2_comm]; exact m4.trans (npb q' hq')
      · exact m1.trans (npc p' hp')
      · exact m2.trans (npd p' hp')
    refine ⟨r, by dsimp only; rw [epc, epd, epa, epb]; dsimp only; rw [hleast], ?_⟩
    simp only [List.mem_cons, List.not_mem_nil, or_false] at hr
    rcases hr with rfl | rfl | rfl | rfl
    · exact Or.inl ⟨mpc, (end_mem c d).1, rfl, hall⟩
    · exact Or.inl ⟨mpd, (end_mem c d).2, rfl, hall⟩
    · exact Or.inr ⟨(end_mem a b).1, mpa, dist2_comm _ _, hall⟩
    · exact Or.inr ⟨(end_mem a b).2, mpb, dist2_comm _ _, hall⟩
  · obtain ⟨h1, h2⟩ := hh.1 p List.mem_cons_self
    refine ⟨_, rfl, Or.inl ⟨h1, h2, ?_, fun p' _ q' _ => ?_⟩⟩
    · rw [dist2]; simp
    · rw [dist2]; exact Real.sqrt_nonneg _

/-- C206 as expected by a user: the first point is on the first segment, the second on the second. -/
def C206_full_statement : Prop := ∀ (hits : List (V2 ℝ)) (a b c d : V2 ℝ), a ≠ b → c ≠ d → GoodHits hits a b c d →
  ∃ r, segmentsDistance hits a b c d = .ok r ∧ IsDistance V2.pointDistance (Seg a b) (Seg c d) r

/-- **C206** false: when an end of the first segment is the nearest, the points come in the other order. -/
theorem C206_counterexample : ¬ C206_full_statement := by
  intro h
  have hd : ∀ p, p ∈ Seg ⟨0, 1⟩ ⟨0, 2⟩ → p ∉ Seg (⟨-1, 0⟩ : V2 ℝ) ⟨1, 0⟩ := by
    rintro p ⟨s, s0, s1, rfl⟩ ⟨t, t0, t1, e⟩
    have := congrArg V2.y e
    dsimp only at this
    linarith
  have hh : GoodHits [] ⟨0, 1⟩ ⟨0, 2⟩ ⟨-1, 0⟩ (⟨1, 0⟩ : V2 ℝ) := ⟨by simp, fun _ => Or.inl hd⟩
  obtain ⟨r, hr, h1, h2, h3, h4⟩ := h [] ⟨0, 1⟩ ⟨0, 2⟩ ⟨-1, 0⟩ ⟨1, 0⟩ (by simp) (by intro e; have := congrArg V2.x e; norm_num at this) hh
  have e1 : closestOnSegment ⟨0, 1⟩ ⟨0, 2⟩ (⟨-1, 0⟩ : V2 ℝ) = some ⟨0, 1⟩ := by
    unfold closestOnSegment
    simp only [V2.dot, V2.sub_x, V2.sub_y]
    norm_num
  have e2 : closestOnSegment ⟨0, 1⟩ ⟨0, 2⟩ (⟨1, 0⟩ : V2 ℝ) = some ⟨0, 1⟩ := by
    unfold closestOnSegment
    simp only [V2.dot, V2.sub_x, V2.sub_y]
    norm_num
  have e3 : closestOnSegment ⟨-1, 0⟩ ⟨1, 0⟩ (⟨0, 1⟩ : V2 ℝ) = some ⟨0, 0⟩ := by
    unfold closestOnSegment
    simp only [V2.dot, V2.sub_x, V2.sub_y]
    norm_num
  have e4 : closestOnSegment ⟨-1, 0⟩ ⟨1, 0⟩ (⟨0, 2⟩ : V2 ℝ) = some ⟨0, 0⟩ := by
    unfold closestOnSegment
    simp only [V2.dot, V2.sub_x, V2.sub_y]
    norm_num
  obtain ⟨r', hr', hleast, hmin⟩ := leastOf_spec [(V2.pointDistance ⟨0, 1⟩ ⟨-1, 0⟩, ((⟨0, 1⟩ : V2 ℝ), (⟨-1, 0⟩ : V2 ℝ))), (V2.pointDistance ⟨0, 1⟩ ⟨1, 0⟩, (⟨0, 1⟩, ⟨1, 0⟩)),
    (V2.pointDistance ⟨0, 0⟩ ⟨0, 1⟩, (⟨0, 0⟩, ⟨0, 1⟩)), (V2.pointDistance ⟨0, 0⟩ ⟨0, 2⟩, (⟨0, 0⟩, ⟨0, 2⟩))] (by simp)
  have hrun : segmentsDistance [] ⟨0, 1⟩ ⟨0, 2⟩ ⟨-1, 0⟩ (⟨1, 0⟩ : V2 ℝ) = .ok r' := by
    unfold segmentsDistance
    rw [e1, e2, e3, e4]
    dsimp only
    rw [hleast]
  rw [hrun] at hr
  cases hr
  have hm := hmin (V2.pointDistance ⟨0, 0⟩ ⟨0, 1⟩, (⟨0, 0⟩, ⟨0, 1⟩)) (by simp)
  simp only [List.mem_cons, List.not_mem_nil, or_false] at hr'
  obtain ⟨t, t0, t1, ht⟩ := h1
  have hty := congrArg V2.y ht
  have hone : V2.pointDistance (⟨0, 0⟩ : V2 ℝ) ⟨0, 1⟩ = 1 := by rw [dist2]; norm_num
  rw [hone] at hm
  rcases hr' with rfl | rfl | rfl | rfl
  · rw [dist2] at hm
    dsimp only at hm
    rw [Real.sqrt_le_one] at hm
    norm_num at hm
  · rw [dist2] at hm
    dsimp only at hm
    rw [Real.sqrt_le_one] at hm
    norm_num at hm
  · dsimp only at hty; linarith
  · dsimp only at hty; linarith

/-- The hypotheses of C206 are met, with no intersection and with one. -/
example : GoodHits [] ⟨0, 1⟩ ⟨0, 2⟩ (⟨0, 3⟩ : V2 ℝ) ⟨0, 4⟩ ∧ GoodHits [⟨0, 0⟩] ⟨-1, 0⟩ ⟨1, 0⟩ (⟨0, -1⟩ : V2 ℝ) ⟨0, 1⟩ := by
  refine ⟨⟨by simp, fun _ => Or.inr (by norm_num)⟩, ?_, by simp⟩
  intro p hp
  rw [List.mem_singleton] at hp
  subst hp
  exact ⟨⟨1 / 2, by norm_num, by norm_num, by norm_num⟩, ⟨1 / 2, by norm_num, by norm_num, by norm_num⟩⟩

/-! ## C207 -/

/-- **C207** the distance of a segment and a line of the plane, the first point on the segment and the second on the line; `line_intersections` gives the common point of the two lines or, for parallel lines, nothing. -/
theorem C207_segment_line (hit : Option (V2 ℝ)) (belongs : V2 ℝ → Bool) (a b l m : V2 ℝ) (hlm : l ≠ m)
    (hhit : ∀ p, hit = some p → p ∈ Line a b ∧ p ∈ Line l m ∧ (belongs p = true ↔ p ∈ Seg a b))
    (hnone : hit = none → (b.x - a.x) * (m.y - l.y) - (b.y - a.y) * (m.x - l.x) = 0) :
    ∃ r, segmentLineDistance hit belongs a b l m = .ok r ∧ IsDistance V2.pointDistance (Seg a b) (Line l m) r := by
  have hu := sq_pos_of_ne hlm
  obtain ⟨pa, epa, mpa, -, dpa⟩ := closestOnLine_spec l m a hlm
  obtain ⟨pb, epb, mpb, -, dpb⟩ := closestOnLine_spec l m b hlm
  -- the distance of a point of the segment to the line
  have low : ∀ t : ℝ, ∀ q ∈ Line l m, Real.sqrt (((1 - t) * ((a.x - l.x) * (m.y - l.y) - (a.y - l.y) * (m.x - l.x)) + t * ((b.x - l.x) * (m.y - l.y) - (b.y - l.y) * (m.x - l.x))) ^ 2 /
      ((m.x - l.x) ^ 2 + (m.y - l.y) ^ 2)) ≤ V2.pointDistance ⟨a.x + t * (b.x - a.x), a.y + t * (b.y - a.y)⟩ q := by
    intro t q hq
    obtain ⟨p', -, -, hp', dp'⟩ := closestOnLine_spec l m ⟨a.x + t * (b.x - a.x), a.y + t * (b.y - a.y)⟩ hlm
    rw [dist2_comm]
    refine le_trans (le_of_eq ?_) (hp' q hq)
    rw [dp']
    congr 2
    dsimp only
    ring
  obtain ⟨A, hA⟩ : ∃ A, A = (a.x - l.x) * (m.y - l.y) - (a.y - l.y) * (m.x - l.x) := ⟨_, rfl⟩
  obtain ⟨B, hB⟩ : ∃ B, B = (b.x - l.x) * (m.y - l.y) - (b.y - l.y) * (m.x - l.x) := ⟨_, rfl⟩
  rw [← hA] at dpa
  rw [← hB] at dpb
  rw [← hA, ← hB] at low
  unfold segmentLineDistance
  rcases hit with _ | p
  · dsimp only
    rw [epa]
    refine ⟨_, rfl, (end_mem a b).1, mpa, dist2_comm _ _, ?_⟩
    rintro p ⟨t, -, -, rfl⟩ q hq
    have hAB : A = B := by rw [hA, hB]; linear_combination -(hnone rfl)
    refine le_trans (le_of_eq ?_) (low t q hq)
    dsimp only
    rw [dpa, hAB]
    congr 2
    ring
  · obtain ⟨⟨s, hs⟩, h2, h3⟩ := hhit p rfl
    dsimp only
    split_ifs with hb
    · refine ⟨_, rfl, h3.mp hb, h2, ?_, fun p' _ q' _ => ?_⟩
      · rw [dist2]; simp
      · rw [dist2]; exact Real.sqrt_nonneg _
    all_goals
      have hzero : (1 - s) * A + s * B = 0 := by
        obtain ⟨t, ht⟩ := h2
        have ex := congrArg V2.x (hs.symm.trans ht)
        have ey := congrArg V2.y (hs.symm.trans ht)
        dsimp only at ex ey
        rw [hA, hB]
        linear_combination (m.y - l.y) * ex - (m.x - l.x) * ey
      have hout : ¬ (0 ≤ s ∧ s ≤ 1) := fun hh => hb (h3.mpr ⟨s, hh.1, hh.2, hs⟩)
      -- both ends are on the same side
      have hsame : 0 ≤ A * B := by
        by_contra hneg
        push Not at hneg
        have e3 : A = s * (A - B) := by linear_combination hzero
        have e4 : B = (s - 1) * (A - B) := by linear_combination hzero
        have hAB : A - B ≠ 0 := by intro h0; rw [h0, mul_zero] at e3; rw [e3, zero_mul] at hneg; exact lt_irrefl _ hneg
        have hpos : 0 < (A - B) ^ 2 := by positivity
        have : A * B = s * (s - 1) * (A - B) ^ 2 := by
          calc A * B = (s * (A - B)) * ((s - 1) * (A - B)) := by rw [← e3, ← e4]
            _ = _ := by ring
        rw [this] at hneg
        have h5 : s * (s - 1) < 0 := by
          by_contra hh
          push Not at hh
          have := mul_nonneg hh hpos.le
          linarith
        exact hout ⟨by nlinarith, by nlinarith⟩
      have hcomb : ∀ t : ℝ, 0 ≤ t → t ≤ 1 → A ^ 2 ≤ ((1 - t) * A + t * B) ^ 2 ∨ B ^ 2 ≤ ((1 - t) * A + t * B) ^ 2 := by
        intro t t0 t1
        rcases le_total (A ^ 2) (B ^ 2) with h6 | h6
        · left
          have : A ^ 2 ≤ A * B := by
            by_contra hh
            push Not at hh
            nlinarith [sq_nonneg (A - B), mul_self_nonneg A, mul_self_nonneg B, mul_nonneg hsame hsame]
          nlinarith [mul_nonneg t0 (sub_nonneg.mpr t1), mul_nonneg t0 t0, mul_nonneg (mul_nonneg t0 (sub_nonneg.mpr t1)) (sub_nonneg.mpr this), mul_nonneg (mul_nonneg t0 t0) (sub_nonneg.mpr h6)]
        · right
          have : B ^ 2 ≤ A * B := by
            by_contra hh
            push Not at hh
            nlinarith [sq_nonneg (A - B), mul_self_nonneg A, mul_self_nonneg B, mul_nonneg hsame hsame]
          have t1' : 0 ≤ 1 - t := by linarith
          nlinarith [mul_nonneg t1' t0, mul_nonneg t1' t1', mul_nonneg (mul_nonneg t1' t0) (sub_nonneg.mpr this), mul_nonneg (mul_nonneg t1' t1') (sub_nonneg.mpr h6)]
      have hboth : ∀ t : ℝ, 0 ≤ t → t ≤ 1 → ∀ q ∈ Line l m, V2.pointDistance pa a ≤ V2.pointDistance ⟨a.x + t * (b.x - a.x), a.y + t * (b.y - a.y)⟩ q ∨
          V2.pointDistance pb b ≤ V2.pointDistance ⟨a.x + t * (b.x - a.x), a.y + t * (b.y - a.y)⟩ q := by
        intro t t0 t1 q hq
        rcases hcomb t t0 t1 with h7 | h7
        · left; rw [dpa]; exact (Real.sqrt_le_sqrt (div_le_div_of_nonneg_right h7 hu.le)).trans (low t q hq)
        · right; rw [dpb]; exact (Real.sqrt_le_sqrt (div_le_div_of_nonneg_right h7 hu.le)).trans (low t q hq)
      rw [epa, epb]
      dsimp only
      by_cases hlt : V2.pointDistance pa a < V2.pointDistance pb b
      · rw [if_pos hlt]
        refine ⟨_, rfl, (end_mem a b).1, mpa, dist2_comm _ _, ?_⟩
        rintro p' ⟨t, t0, t1, rfl⟩ q hq
        rcases hboth t t0 t1 q hq with h8 | h8
        · exact h8
        · exact hlt.le.trans h8
      · rw [if_neg hlt]
        refine ⟨_, rfl, (end_mem a b).2, mpb, dist2_comm _ _, ?_⟩
        rintro p' ⟨t, t0, t1, rfl⟩ q hq
        rcases hboth t t0 t1 q hq with h8 | h8
        · exact (not_lt.mp hlt).trans h8
        · exact h8

/-- The hypotheses of C207 are met: lines that meet out of the segment. -/
example : (⟨0, 0⟩ : V2 ℝ) ∈ Line ⟨1, 0⟩ ⟨2, 0⟩ ∧ (⟨0, 0⟩ : V2 ℝ) ∈ Line ⟨0, 1⟩ ⟨0, 2⟩ ∧ (⟨0, 0⟩ : V2 ℝ) ∉ Seg ⟨1, 0⟩ ⟨2, 0⟩ := by
  refine ⟨⟨-1, by norm_num⟩, ⟨-1, by norm_num⟩, ?_⟩
  rintro ⟨t, t0, -, h⟩
  have := congrArg V2.x h
  dsimp only at this
  linarith

end Volmdlr.Near
