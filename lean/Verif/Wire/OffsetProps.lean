import Verif.Wire.OffsetModel
import Verif.Segment.Props
import Mathlib.Data.List.GetD

/-!
# C211: offset of a contour of line segments
-/

namespace Volmdlr.Wire

open Volmdlr.Intersect

/-- The distance of a point to the right of a segment (specification): the cross product with the direction of the segment. -/
noncomputable def rightDistance (s : Side) (p : V2 ℝ) : ℝ :=
  ((s.2.y - s.1.y) * (p.x - s.1.x) - (s.2.x - s.1.x) * (p.y - s.1.y)) / Real.sqrt ((s.2.x - s.1.x) ^ 2 + (s.2.y - s.1.y) ^ 2)

/-- What is required of the sides: each has distinct ends and each is not parallel to the next one, the last one being followed by the first one. -/
def GoodSides (sides : List Side) : Prop :=
  2 ≤ sides.length ∧ (∀ s ∈ sides, s.1 ≠ s.2) ∧
  ∀ (k : ℕ) (s t : Side), sides[k]? = some s → sides[(k + 1) % sides.length]? = some t → 1 / 10 ^ 15 < |(s.2.x - s.1.x) * (t.2.y - t.1.y) - (s.2.y - s.1.y) * (t.2.x - t.1.x)|

lemma sideOffset_spec (s : Side) (offset : ℝ) (h : s.1 ≠ s.2) : ∃ l : Line2, sideOffset s offset = some l ∧ l.point2.x - l.point1.x = s.2.x - s.1.x ∧ l.point2.y - l.point1.y = s.2.y - s.1.y ∧
    ∀ p, OnLine2 l.point1 l.point2 p → rightDistance s p = offset := by
  have hne : V2.normalVector (s.2 - s.1) ≠ ⟨0, 0⟩ := by
    intro e
    have e1 := congrArg V2.x e
    have e2 := congrArg V2.y e
    simp only [V2.normalVector, V2.sub_x, V2.sub_y] at e1 e2
    exact h (by ext <;> linarith)
  obtain ⟨m, hm⟩ := V2.unitVector_some hne
  obtain ⟨npos, h1, h2⟩ := V2.unitVector_spec hm
  refine ⟨_, by unfold sideOffset; rw [hm]; rfl, ?_, ?_, ?_⟩
  · simp only [V2.add_x, V2.smul_x]; ring
  · simp only [V2.add_y, V2.smul_y]; ring
  · rintro p ⟨t, px, py⟩
    have hn : V2.norm (V2.normalVector (s.2 - s.1)) = Real.sqrt ((s.2.x - s.1.x) ^ 2 + (s.2.y - s.1.y) ^ 2) := by
      unfold V2.norm
      simp only [V2.normalVector, V2.sub_x, V2.sub_y]
      congr 1
      ring
    rw [hn] at npos h1
    have e1 := congrArg V2.x h1
    have e2 := congrArg V2.y h1
    simp only [V2.normalVector, V2.sub_x, V2.sub_y, V2.smul_x, V2.smul_y] at e1 e2
    simp only [V2.dot] at h2
    simp only [V2.add_x, V2.add_y, V2.smul_x, V2.smul_y, V2.neg_x, V2.neg_y] at px py
    unfold rightDistance
    rw [div_eq_iff npos.ne', px, py]
    set L := Real.sqrt ((s.2.x - s.1.x) ^ 2 + (s.2.y - s.1.y) ^ 2)
    have e1' : s.2.y - s.1.y = -(m.x * L) := by linarith
    rw [e1', e2]
    linear_combination offset * L * h2 - L * t * m.x * e2 + L * t * m.y * e1

lemma lineIntersections_spec (l m : Line2) (h : 1 / 10 ^ 15 < |(l.point2.x - l.point1.x) * (m.point2.y - m.point1.y) - (l.point2.y - l.point1.y) * (m.point2.x - m.point1.x)|) :
    ∃ p, l.lineIntersections m = [p] ∧ OnLine2 l.point1 l.point2 p ∧ OnLine2 m.point1 m.point2 p := by
  rcases C09_lineIntersection l.point1 l.point2 m.point1 m.point2 with ⟨h1, -⟩ | ⟨-, p, t, u, h1, h2, h3, -⟩
  · simp only [V2.cross, V2.sub_x, V2.sub_y] at h1
    exact absurd h (not_lt.mpr h1)
  · have hne : ∀ a b : V2 ℝ, (a = b → False) → ¬ V2.norm (b - a) ^ 2 = 0 := fun a b hab h' => hab ((V2.norm_sq_zero a b).mp h')
    have hl : l.point1 = l.point2 → False := by
      intro e; rw [e] at h; simp only [sub_self, zero_mul, abs_zero] at h; exact absurd h (not_lt.mpr (by positivity))
    have hm : m.point1 = m.point2 → False := by
      intro e; rw [e] at h; simp only [sub_self, mul_zero, abs_zero] at h; exact absurd h (not_lt.mpr (by positivity))
    refine ⟨p, ?_, ⟨t, by rw [h2]; simp only [V2.add_x, V2.smul_x, V2.sub_x]; ring, by rw [h2]; simp only [V2.add_y, V2.smul_y, V2.sub_y]; ring⟩,
      ⟨u, by rw [h3]; simp only [V2.add_x, V2.smul_x, V2.sub_x]; ring, by rw [h3]; simp only [V2.add_y, V2.smul_y, V2.sub_y]; ring⟩⟩
    unfold Line2.lineIntersections Line2.pointProjection pointProjection2
    rw [h1]
    dsimp only
    rw [if_neg (hne _ _ hl), if_neg (hne _ _ hm)]
    dsimp only
    have hN : V2.dot (l.point2 - l.point1) (l.point2 - l.point1) = V2.norm (l.point2 - l.point1) ^ 2 := (V2.norm_pow_two _).symm
    have ht : V2.dot (p - l.point1) (l.point2 - l.point1) / V2.norm (l.point2 - l.point1) ^ 2 = t := by
      rw [div_eq_iff (hne _ _ hl), ← hN]
      conv_lhs => rw [h2]
      simp only [V2.dot, V2.sub_x, V2.sub_y, V2.add_x, V2.add_y, V2.smul_x, V2.smul_y]
      ring
    rw [ht, ← h2]

lemma cyclic_pairs {α : Type*} (l : List α) (d : α) : l.zip (l.tail ++ l.take 1) = (List.range l.length).map fun k : ℕ => (l.getD k d, l.getD ((k + 1) % l.length) d) := by
  rcases l with _ | ⟨a, l⟩
  · rfl
  apply List.ext_getElem
  · simp
  intro i h1 h2
  have hi : i < l.length + 1 := by simpa using h2
  rw [List.getElem_zip, List.getElem_map, List.getElem_range]
  congr 1
  · rw [List.getD_eq_getElem _ _ (by simpa using hi)]
  · simp only [List.tail_cons, List.take_succ_cons, List.take_zero, List.length_cons]
    by_cases hl : i + 1 < l.length + 1
    · rw [Nat.mod_eq_of_lt hl, List.getElem_append_left (by omega), List.getD_eq_getElem _ _ (by simpa using hl), List.getElem_cons_succ]
    · have : i = l.length := by omega
      subst this
      rw [Nat.mod_self, List.getElem_append_right (le_refl _)]
      simp

lemma mapM_sides (l : List Side) (f : Side → Option Line2) (g : Side → Line2) (h : ∀ s ∈ l, f s = some (g s)) : l.mapM f = some (l.map g) := by
  induction l with
  | nil => rfl
  | cons a l ih =>
    rw [List.mapM_cons, h a List.mem_cons_self, ih fun s hs => h s (List.mem_cons_of_mem _ hs)]
    rfl

open Classical in
lemma mapM_check (l : List (V2 ℝ × V2 ℝ)) : (l.mapM fun ab : V2 ℝ × V2 ℝ => if ab.1 = ab.2 then (.error .valueError : Except PyErr Side) else .ok ab) =
    if ∃ ab ∈ l, ab.1 = ab.2 then .error .valueError else .ok l := by
  induction l with
  | nil => rw [if_neg (by simp)]; rfl
  | cons a l ih =>
    rw [List.mapM_cons, ih]
    by_cases ha : a.1 = a.2
    · rw [if_pos ha, if_pos (show ∃ ab ∈ a :: l, ab.1 = ab.2 from ⟨a, List.mem_cons_self, ha⟩)]
      rfl
    · rw [if_neg ha]
      by_cases hl : ∃ ab ∈ l, ab.1 = ab.2
      · obtain ⟨b, hb, e⟩ := hl
        rw [if_pos ⟨b, hb, e⟩, if_pos ⟨b, List.mem_cons_of_mem _ hb, e⟩]
        rfl
      · rw [if_neg hl, if_neg]
        · rfl
        · rintro ⟨b, hb, e⟩
          rcases List.mem_cons.mp hb with rfl | hb
          · exact ha e
          · exact hl ⟨b, hb, e⟩

open Classical in
/-- **C211** (partial: no parallel successive sides) the offset of a closed contour of line segments: as many points as sides, each at the distance `offset` to the right of a side and of the next one;
the answered segments go from each point to the next one, and it is refused when two successive points are the same. -/
theorem C211_contour_offset_partial (sides : List Side) (offset : ℝ) (h : GoodSides sides) :
    ∃ P : ℕ → V2 ℝ, (∀ (k : ℕ) (s t : Side), sides[k]? = some s → sides[(k + 1) % sides.length]? = some t → rightDistance s (P k) = offset ∧ rightDistance t (P k) = offset) ∧
      offsetSides sides offset = if ∃ k < sides.length, P k = P ((k + 1) % sides.length) then .error .valueError
        else .ok ((List.range sides.length).map fun k : ℕ => (P k, P ((k + 1) % sides.length))) := by
  obtain ⟨hlen, hends, hpar⟩ := h
  -- the offset lines
  have hg : ∃ g : Side → Line2, ∀ s ∈ sides, sideOffset s offset = some (g s) ∧ (g s).point2.x - (g s).point1.x = s.2.x - s.1.x ∧ (g s).point2.y - (g s).point1.y = s.2.y - s.1.y ∧
      ∀ p, OnLine2 (g s).point1 (g s).point2 p → rightDistance s p = offset := by
    refine ⟨fun s => if hs : s.1 ≠ s.2 then (sideOffset_spec s offset hs).choose else ⟨⟨0, 0⟩, ⟨0, 0⟩⟩, fun s hs => ?_⟩
    dsimp only
    rw [dif_pos (hends s hs)]
    exact (sideOffset_spec s offset (hends s hs)).choose_spec
  obtain ⟨g, hg⟩ := hg
  -- their intersections
  let d : Side := (⟨0, 0⟩, ⟨0, 0⟩)
  have hget : ∀ k, k < sides.length → sides[k]? = some (sides.getD k d) ∧ sides.getD k d ∈ sides := by
    intro k hk
    rw [List.getD_eq_getElem _ _ hk]
    exact ⟨List.getElem?_eq_getElem hk, List.getElem_mem hk⟩
  have hpos : 0 < sides.length := by omega
  have hP : ∃ P : ℕ → V2 ℝ, ∀ k, k < sides.length → (g (sides.getD k d)).lineIntersections (g (sides.getD ((k + 1) % sides.length) d)) = [P k] ∧
      rightDistance (sides.getD k d) (P k) = offset ∧ rightDistance (sides.getD ((k + 1) % sides.length) d) (P k) = offset := by
    have hex : ∀ k, k < sides.length → ∃ p, (g (sides.getD k d)).lineIntersections (g (sides.getD ((k + 1) % sides.length) d)) = [p] ∧
        rightDistance (sides.getD k d) p = offset ∧ rightDistance (sides.getD ((k + 1) % sides.length) d) p = offset := by
      intro k hk
      obtain ⟨e1, m1⟩ := hget k hk
      obtain ⟨e2, m2⟩ := hget _ (Nat.mod_lt (k + 1) hpos)
      obtain ⟨-, a1, a2, a3⟩ := hg _ m1
      obtain ⟨-, b1, b2, b3⟩ := hg _ m2
      obtain ⟨p, hp, o1, o2⟩ := lineIntersections_spec (g (sides.getD k d)) (g (sides.getD ((k + 1) % sides.length) d)) (by rw [a1, a2, b1, b2]; exact hpar k _ _ e1 e2)
      exact ⟨p, hp, a3 p o1, b3 p o2⟩
    refine ⟨fun k => if hk : k < sides.length then (hex k hk).choose else ⟨0, 0⟩, fun k hk => ?_⟩
    dsimp only
    rw [dif_pos hk]
    exact (hex k hk).choose_spec
  obtain ⟨P, hP⟩ := hP
  refine ⟨P, ?_, ?_⟩
  · intro k s t hs ht
    have hk : k < sides.length := (List.getElem?_eq_some_iff.mp hs).1
    have e1 := (hget k hk).1
    have e2 := (hget _ (Nat.mod_lt (k + 1) hpos)).1
    rw [hs] at e1
    rw [ht] at e2
    have := (hP k hk).2
    rw [← Option.some.inj e1, ← Option.some.inj e2] at this
    exact this
  · have hlines := mapM_sides sides (fun s : Side => sideOffset s offset) g fun s hs => (hg s hs).1
    have hpts : infiniteIntersections (sides.map g) = (List.range sides.length).map P := by
      unfold infiniteIntersections
      rw [cyclic_pairs (sides.map g) (g d), List.flatMap_map, List.length_map]
      rw [show (List.range sides.length).map P = (List.range sides.length).flatMap fun k => [P k] by rw [← List.map_eq_flatMap]]
      refine List.flatMap_congr fun k hk => ?_
      have hk := List.mem_range.mp hk
      dsimp only
      rw [List.getD_map, List.getD_map, (hP k hk).1]
      rfl
    have hcyc := cyclic_pairs ((List.range sides.length).map P) (P 0)
    rw [List.length_map, List.length_range] at hcyc
    have hcyc2 : ((List.range sides.length).map fun k : ℕ => (((List.range sides.length).map P).getD k (P 0), ((List.range sides.length).map P).getD ((k + 1) % sides.length) (P 0))) =
        (List.range sides.length).map fun k : ℕ => (P k, P ((k + 1) % sides.length)) := by
      refine List.map_congr_left fun k hk => ?_
      have hk := List.mem_range.mp hk
      have hk2 := Nat.mod_lt (k + 1) hpos
      rw [List.getD_eq_getElem _ _ (by simpa using hk), List.getD_eq_getElem _ _ (by simpa using hk2)]
      simp
    rw [hcyc2] at hcyc
    unfold offsetSides
    rw [hlines]
    dsimp only
    rw [hpts]
    rcases hl : (List.range sides.length).map P with _ | ⟨p, ps⟩
    · have := congrArg List.length hl
      rw [List.length_map, List.length_range, List.length_nil] at this
      omega
    · dsimp only
      rw [hl] at hcyc
      have hcyc' : (p :: ps).zip (ps ++ [p]) = (List.range sides.length).map fun k : ℕ => (P k, P ((k + 1) % sides.length)) := hcyc
      rw [hcyc', mapM_check]
      congr 1
      simp

/-- C211 as expected by a user of `Wire2D.offset`: the offset of an open wire exists as soon as its successive sides are not parallel. -/
def C211_full_statement : Prop := ∀ (sides : List Side) (offset : ℝ), 2 ≤ sides.length → (∀ s ∈ sides, s.1 ≠ s.2) →
  (∀ (k : ℕ) (s t : Side), sides[k]? = some s → sides[k + 1]? = some t → s.2 = t.1 ∧ 1 / 10 ^ 15 < |(s.2.x - s.1.x) * (t.2.y - t.1.y) - (s.2.y - s.1.y) * (t.2.x - t.1.x)|) →
  ∃ r, offsetSides sides offset = .ok r

/-- **C211** false for open wires: the last side is cut with the first one, and a wire of two sides is always refused. -/
theorem C211_counterexample : ¬ C211_full_statement := by
  intro h
  have hg : GoodSides [((⟨0, 0⟩ : V2 ℝ), (⟨1, 0⟩ : V2 ℝ)), (⟨1, 0⟩, ⟨1, 1⟩)] := by
    refine ⟨by simp, ?_, ?_⟩
    · intro s hs
      simp only [List.mem_cons, List.not_mem_nil, or_false] at hs
      rcases hs with rfl | rfl
      · intro e; have := congrArg V2.x e; norm_num at this
      · intro e; have := congrArg V2.y e; norm_num at this
    · intro k s t hs ht
      have hk : k < 2 := (List.getElem?_eq_some_iff.mp hs).1
      rcases (by omega : k = 0 ∨ k = 1) with rfl | rfl
      · simp at hs ht; subst hs; subst ht; norm_num
      · simp at hs ht; subst hs; subst ht; norm_num
  obtain ⟨r, hr⟩ := h [((⟨0, 0⟩ : V2 ℝ), (⟨1, 0⟩ : V2 ℝ)), (⟨1, 0⟩, ⟨1, 1⟩)] 1 hg.1 hg.2.1 (by
    intro k s t hs ht
    have hk : k + 1 < 2 := (List.getElem?_eq_some_iff.mp ht).1
    obtain rfl : k = 0 := by omega
    simp at hs ht; subst hs; subst ht; norm_num)
  obtain ⟨P, hP, he⟩ := C211_contour_offset_partial _ 1 hg
  rw [hr, if_pos] at he
  · cases he
  obtain ⟨a1, a2⟩ := hP 0 _ _ rfl rfl
  obtain ⟨b1, b2⟩ := hP 1 _ _ rfl rfl
  refine ⟨0, by simp, ?_⟩
  unfold rightDistance at a1 a2 b1 b2
  norm_num at a1 a2 b1 b2
  change P 0 = P 1
  ext <;> linarith

/-- The hypotheses of C211 are met: a triangle. -/
example : GoodSides [((⟨0, 0⟩ : V2 ℝ), (⟨3, 0⟩ : V2 ℝ)), (⟨3, 0⟩, ⟨0, 3⟩), (⟨0, 3⟩, ⟨0, 0⟩)] := by
  refine ⟨by simp, ?_, ?_⟩
  · intro s hs
    simp only [List.mem_cons, List.not_mem_nil, or_false] at hs
    rcases hs with rfl | rfl | rfl
    · intro e; have := congrArg V2.x e; norm_num at this
    · intro e; have := congrArg V2.y e; norm_num at this
    · intro e; have := congrArg V2.y e; norm_num at this
  · intro k s t hs ht
    have hk : k < 3 := (List.getElem?_eq_some_iff.mp hs).1
    rcases (by omega : k = 0 ∨ k = 1 ∨ k = 2) with rfl | rfl | rfl
    · simp at hs ht; subst hs; subst ht; norm_num
    · simp at hs ht; subst hs; subst ht; norm_num
    · simp at hs ht; subst hs; subst ht; norm_num

end Volmdlr.Wire
