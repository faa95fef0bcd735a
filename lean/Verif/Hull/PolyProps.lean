import Verif.Hull.HullProps
import Verif.Segment.Props
import Verif.Surface.Props

/-!
# C88, C90: orientation of a polygon, distance to its border
-/

namespace Volmdlr.Hull

open Real Volmdlr.Angle Volmdlr.Arc

/-! ### Specification -/

/-- The vertex of index `i`, modulo the number of vertices. -/
noncomputable def vertex (pts : List (V2 ℝ)) (i : ℕ) : V2 ℝ := pts.getD (i % pts.length) ⟨0, 0⟩

/-- A point of the border of the polygon. -/
def OnBorder (pts : List (V2 ℝ)) (q : V2 ℝ) : Prop :=
  ∃ i, vertex pts i ≠ vertex pts (i + 1) ∧ OnSeg2 (vertex pts i) (vertex pts (i + 1)) q

/-! ### Sides -/

theorem cyc_length {α : Type*} (l : List α) : (l.tail ++ l.take 1).length = l.length := by
  cases l <;> simp

theorem cyc_getElem {α : Type*} (l : List α) (i : ℕ) (hi : i < l.length) (h' : i < (l.tail ++ l.take 1).length) :
    (l.tail ++ l.take 1)[i] = l[(i + 1) % l.length]'(Nat.mod_lt _ (by omega)) := by
  cases l with
  | nil => simp at hi
  | cons a t =>
    by_cases h : i + 1 < (a :: t).length
    · simp only [Nat.mod_eq_of_lt h]
      rw [List.getElem_append_left (by simpa using h)]
      simp
    · have e : i + 1 = (a :: t).length := by omega
      simp only [e, Nat.mod_self]
      rw [List.getElem_append_right (by simp at *; omega)]
      simp

theorem vertex_eq (pts : List (V2 ℝ)) (i : ℕ) (hi : i < pts.length) : vertex pts i = pts[i] := by
  unfold vertex
  rw [Nat.mod_eq_of_lt hi, List.getD_eq_getElem _ _ hi]

theorem vertex_mod (pts : List (V2 ℝ)) (i : ℕ) (h : 0 < pts.length) :
    vertex pts i = pts[i % pts.length]'(Nat.mod_lt _ h) := by
  unfold vertex
  rw [List.getD_eq_getElem _ _ (Nat.mod_lt _ h)]

theorem mem_zip_cyc (pts : List (V2 ℝ)) (e : V2 ℝ × V2 ℝ) :
    e ∈ pts.zip (pts.tail ++ pts.take 1) ↔ ∃ i < pts.length, e = (vertex pts i, vertex pts (i + 1)) := by
  rw [List.mem_iff_getElem]
  constructor
  · rintro ⟨i, hi, rfl⟩
    have h : i < pts.length := by rw [List.length_zip, cyc_length] at hi; omega
    refine ⟨i, h, ?_⟩
    rw [List.getElem_zip, cyc_getElem _ _ h, vertex_eq _ _ h, vertex_mod _ _ (by omega)]
  · rintro ⟨i, h, rfl⟩
    refine ⟨i, by rw [List.length_zip, cyc_length]; omega, ?_⟩
    rw [List.getElem_zip, cyc_getElem _ _ h, vertex_eq _ _ h, vertex_mod _ _ (by omega)]

theorem mem_sides (pts : List (V2 ℝ)) (e : V2 ℝ × V2 ℝ) :
    e ∈ sides pts ↔ ∃ i, vertex pts i ≠ vertex pts (i + 1) ∧ e = (vertex pts i, vertex pts (i + 1)) := by
  unfold sides
  by_cases h : pts.length > 1
  · rw [if_pos h, List.mem_filter, mem_zip_cyc]
    simp only [decide_eq_true_eq]
    constructor
    · rintro ⟨⟨i, hi, rfl⟩, hne⟩
      exact ⟨i, hne, rfl⟩
    · rintro ⟨i, hne, rfl⟩
      refine ⟨⟨i % pts.length, Nat.mod_lt _ (by omega), ?_⟩, hne⟩
      unfold vertex
      simp
  · rw [if_neg h]
    constructor
    · intro h'; cases h'
    · rintro ⟨i, hne, rfl⟩
      exfalso
      apply hne
      have : pts.length = 0 ∨ pts.length = 1 := by omega
      rcases this with h | h
      · rw [List.length_eq_zero_iff] at h; subst h; rfl
      · unfold vertex; rw [h, Nat.mod_one, Nat.mod_one]

/-! ### C90 -/

theorem borderLoop_spec (point : V2 ℝ) (l : List (V2 ℝ × V2 ℝ)) : ∀ (best : ℝ × V2 ℝ), (∀ e ∈ l, e.1 ≠ e.2) →
    best.1 = V2.pointDistance best.2 point →
    ∃ r, borderLoop point best l = some r ∧ r.1 = V2.pointDistance r.2 point ∧
      (r.2 = best.2 ∨ ∃ e ∈ l, OnSeg2 e.1 e.2 r.2) ∧ r.1 ≤ best.1 ∧
      ∀ e ∈ l, ∀ q, OnSeg2 e.1 e.2 q → r.1 ≤ V2.pointDistance q point := by
  induction l with
  | nil => intro best _ hb; exact ⟨best, rfl, hb, Or.inl rfl, le_refl _, by simp⟩
  | cons e l ih =>
    intro best hne hb
    obtain ⟨d, q, h1, h2, h3, h4⟩ := (C07_linesegment2d_distance e.1 e.2 point).2 (hne e (by simp))
    rw [borderLoop, h1]
    dsimp only
    have hl := fun e' (he : e' ∈ l) => hne e' (List.mem_cons_of_mem _ he)
    by_cases hd : d < best.1
    · rw [if_pos hd]
      obtain ⟨r, r1, r2, r3, r4, r5⟩ := ih (d, q) hl h3
      refine ⟨r, r1, r2, ?_, r4.trans hd.le, ?_⟩
      · right
        rcases r3 with r3 | ⟨e', he, r3⟩
        · exact ⟨e, by simp, by rw [r3]; exact h2⟩
        · exact ⟨e', List.mem_cons_of_mem _ he, r3⟩
      · intro e' he q' hq
        rcases List.mem_cons.1 he with rfl | he
        · exact r4.trans (h4 q' hq)
        · exact r5 e' he q' hq
    · rw [if_neg hd]
      obtain ⟨r, r1, r2, r3, r4, r5⟩ := ih best hl hb
      refine ⟨r, r1, r2, ?_, r4, ?_⟩
      · rcases r3 with r3 | ⟨e', he, r3⟩
        · exact Or.inl r3
        · exact Or.inr ⟨e', List.mem_cons_of_mem _ he, r3⟩
      · intro e' he q' hq
        rcases List.mem_cons.1 he with rfl | he
        · exact (r4.trans (not_lt.1 hd)).trans (h4 q' hq)
        · exact r5 e' he q' hq

/-- **C90** `point_border_distance` returns the smallest distance from the point to the border of the polygon, and a point of the
border at that distance, for every polygon with two different vertices. -/
theorem C90_point_border_distance (pts : List (V2 ℝ)) (point : V2 ℝ) (h : ∃ i, vertex pts i ≠ vertex pts (i + 1)) :
    ∃ d q, pointBorderDistance pts point = some (d, q) ∧ OnBorder pts q ∧ d = V2.pointDistance q point ∧
      ∀ r, OnBorder pts r → d ≤ V2.pointDistance r point := by
  unfold pointBorderDistance
  have hb : ∀ r, OnBorder pts r ↔ ∃ e ∈ sides pts, OnSeg2 e.1 e.2 r := by
    intro r
    constructor
    · rintro ⟨i, hi, hr⟩
      exact ⟨_, (mem_sides pts _).2 ⟨i, hi, rfl⟩, hr⟩
    · rintro ⟨e, he, hr⟩
      obtain ⟨i, hi, rfl⟩ := (mem_sides pts e).1 he
      exact ⟨i, hi, hr⟩
  have hns : ∀ e ∈ sides pts, e.1 ≠ e.2 := by
    intro e he
    obtain ⟨i, hi, rfl⟩ := (mem_sides pts e).1 he
    exact hi
  have hne : sides pts ≠ [] := by
    obtain ⟨i, hi⟩ := h
    exact List.ne_nil_of_mem ((mem_sides pts _).2 ⟨i, hi, rfl⟩)
  cases hs : sides pts with
  | nil => exact absurd hs hne
  | cons e l =>
    rw [hs] at hb hns
    obtain ⟨d, q, h1, h2, h3, h4⟩ := (C07_linesegment2d_distance e.1 e.2 point).2 (hns e (by simp))
    dsimp only
    rw [h1]
    dsimp only
    obtain ⟨r, r1, r2, r3, r4, r5⟩ := borderLoop_spec point l (d, q) (fun e' he => hns e' (List.mem_cons_of_mem _ he)) h3
    refine ⟨r.1, r.2, r1, ?_, r2, ?_⟩
    · rw [hb]
      rcases r3 with r3 | ⟨e', he, r3⟩
      · exact ⟨e, by simp, by rw [r3]; exact h2⟩
      · exact ⟨e', List.mem_cons_of_mem _ he, r3⟩
    · intro r' hr'
      obtain ⟨e', he, hr'⟩ := (hb r').1 hr'
      rcases List.mem_cons.1 he with rfl | he
      · exact r4.trans (h4 r' hr')
      · exact r5 e' he r' hr'

/-- Non-vacuity: a triangle. -/
example : ∃ i, vertex [⟨0, 0⟩, ⟨1, 0⟩, ⟨0, 1⟩] i ≠ vertex [⟨0, 0⟩, ⟨1, 0⟩, ⟨0, 1⟩] (i + 1) := ⟨0, by simp [vertex]⟩

/-! ### C88 -/

/-- The angle of `turn`, for non-zero directions. -/
noncomputable def turnVal (d1 d2 : V2 ℝ) : ℝ := atan2 (V2.norm d1 * V2.cross d1 d2) (V2.dot d1 d2)

theorem turn_eq {d1 d2 : V2 ℝ} (h1 : d1 ≠ ⟨0, 0⟩) (h2 : d2 ≠ ⟨0, 0⟩) : turn d1 d2 = some (turnVal d1 d2) := by
  obtain ⟨u1, e1⟩ := V2.unitVector_some h1
  obtain ⟨u2, e2⟩ := V2.unitVector_some h2
  obtain ⟨n1, s1, -⟩ := V2.unitVector_spec e1
  obtain ⟨n2, s2, -⟩ := V2.unitVector_spec e2
  unfold turn
  rw [e1, e2]
  simp only [Option.some.injEq]
  unfold turnVal
  have hp := mul_pos n1 n2
  rw [← Surface.atan2_scale hp (V2.dot d1 d2)]
  generalize V2.norm d1 = a at *
  generalize V2.norm d2 = b at *
  have hx1 := congrArg V2.x s1
  have hy1 := congrArg V2.y s1
  have hx2 := congrArg V2.x s2
  have hy2 := congrArg V2.y s2
  simp only [V2.smul] at hx1 hy1 hx2 hy2
  congr 1
  · rw [eq_div_iff hp.ne']
    simp only [V2.dot, V2.normalVector, V2.cross]
    rw [hx2, hy2]
    ring
  · rw [eq_div_iff hp.ne']
    simp only [V2.dot]
    rw [hx2, hy2, hx1, hy1]
    ring

theorem turnFold (l : List ((V2 ℝ × V2 ℝ) × (V2 ℝ × V2 ℝ))) : ∀ a : ℝ,
    (∀ p ∈ l, p.1.1 ≠ p.1.2 ∧ p.2.1 ≠ p.2.2) →
    l.foldl (fun acc p => match acc, turn (p.1.2 - p.1.1) (p.2.2 - p.2.1) with
      | some a, some t => some (a + t)
      | _, _ => none) (some a) = some (a + (l.map fun p => turnVal (p.1.2 - p.1.1) (p.2.2 - p.2.1)).sum) := by
  induction l with
  | nil => intro a _; simp
  | cons p l ih =>
    intro a h
    rw [List.foldl_cons, turn_eq (sub_ne (h p (by simp)).1) (sub_ne (h p (by simp)).2)]
    dsimp only
    rw [ih _ (fun p' hp => h p' (List.mem_cons_of_mem _ hp)), List.map_cons, List.sum_cons, add_assoc]

theorem turnSum_eq (s : List (V2 ℝ × V2 ℝ)) (h : ∀ e ∈ s, e.1 ≠ e.2) :
    turnSum s = some (((s.zip (s.tail ++ s.take 1)).map fun p => turnVal (p.1.2 - p.1.1) (p.2.2 - p.2.1)).sum) := by
  unfold turnSum
  refine (turnFold _ 0 ?_).trans ?_
  swap
  · rw [zero_add]
  · intro p hp
    obtain ⟨h1, h2⟩ := List.of_mem_zip hp
    refine ⟨h _ h1, h _ ?_⟩
    rcases List.mem_append.1 h2 with h' | h'
    · exact List.mem_of_mem_tail h'
    · exact List.mem_of_mem_take h'

theorem sides_all (pts : List (V2 ℝ)) (h2 : 1 < pts.length) (h : ∀ i, vertex pts i ≠ vertex pts (i + 1)) :
    sides pts = pts.zip (pts.tail ++ pts.take 1) := by
  unfold sides
  rw [if_pos h2, List.filter_eq_self]
  intro e he
  obtain ⟨i, -, rfl⟩ := (mem_zip_cyc pts e).1 he
  simpa using h i

theorem sides_getElem (pts : List (V2 ℝ)) (h2 : 1 < pts.length) (h : ∀ i, vertex pts i ≠ vertex pts (i + 1)) (i : ℕ)
    (hi : i < (sides pts).length) : (sides pts)[i] = (vertex pts i, vertex pts (i + 1)) := by
  have hl : (sides pts).length = pts.length := by rw [sides_all pts h2 h, List.length_zip, cyc_length, min_self]
  have hi' : i < pts.length := by omega
  simp only [sides_all pts h2 h]
  rw [List.getElem_zip, cyc_getElem _ _ hi', vertex_eq _ _ hi', vertex_mod _ _ (by omega)]

/-- The sum of the angles, for a polygon whose consecutive vertices are different. -/
theorem isTrigo_eq (pts : List (V2 ℝ)) (h3 : 3 ≤ pts.length) (h : ∀ i, vertex pts i ≠ vertex pts (i + 1)) :
    isTrigo pts = some (decide (0 < ((List.range pts.length).map fun i =>
      turnVal (vertex pts (i + 1) - vertex pts i) (vertex pts (i + 2) - vertex pts (i + 1))).sum)) := by
  have hl : (sides pts).length = pts.length := by
    rw [sides_all pts (by omega) h, List.length_zip, cyc_length, min_self]
  have hns : ∀ e ∈ sides pts, e.1 ≠ e.2 := by
    intro e he
    obtain ⟨i, hi, rfl⟩ := (mem_sides pts e).1 he
    exact hi
  unfold isTrigo
  rw [if_neg (by omega), if_neg (by intro e; rw [e] at hl; simp at hl; omega), turnSum_eq _ hns, Option.map_some]
  have : (((sides pts).zip ((sides pts).tail ++ (sides pts).take 1)).map fun p => turnVal (p.1.2 - p.1.1) (p.2.2 - p.2.1)) =
      (List.range pts.length).map fun i =>
        turnVal (vertex pts (i + 1) - vertex pts i) (vertex pts (i + 2) - vertex pts (i + 1)) := by
    apply List.ext_getElem
    · rw [List.length_map, List.length_zip, cyc_length, hl, min_self, List.length_map, List.length_range]
    · intro i hi hi'
      have hi2 : i < pts.length := by simpa using hi'
      have hi3 : i < (sides pts).length := by omega
      rw [List.getElem_map, List.getElem_zip, cyc_getElem _ _ hi3, List.getElem_map, List.getElem_range,
        sides_getElem _ (by omega) h, sides_getElem _ (by omega) h]
      dsimp only
      have e1 : vertex pts ((i + 1) % (sides pts).length) = vertex pts (i + 1) := by unfold vertex; rw [hl, Nat.mod_mod]
      have e2 : vertex pts ((i + 1) % (sides pts).length + 1) = vertex pts (i + 2) := by
        unfold vertex; rw [hl, Nat.mod_add_mod]
      rw [e1, e2]
  rw [this]

theorem turnVal_nonneg {d1 d2 : V2 ℝ} (h : 0 ≤ V2.cross d1 d2) : 0 ≤ turnVal d1 d2 := by
  unfold turnVal atan2
  rw [Complex.arg_nonneg_iff]
  exact mul_nonneg (sqrt_nonneg _) h

theorem turnVal_pos {d1 d2 : V2 ℝ} (h : 0 < V2.cross d1 d2) : 0 < turnVal d1 d2 := by
  refine lt_of_le_of_ne (turnVal_nonneg h.le) (Ne.symm ?_)
  unfold turnVal atan2
  rw [Ne, Complex.arg_eq_zero_iff]
  rintro ⟨-, h'⟩
  have hd : d1 ≠ ⟨0, 0⟩ := by rintro rfl; unfold V2.cross at h; simp at h
  exact absurd h' (mul_pos (norm_pos hd) h).ne'

theorem turnVal_nonpos {d1 d2 : V2 ℝ} (h : V2.cross d1 d2 < 0 ∨ V2.cross d1 d2 = 0 ∧ 0 < V2.dot d1 d2) : turnVal d1 d2 ≤ 0 := by
  unfold turnVal atan2
  rcases h with h | ⟨h, h'⟩
  · have hd : d1 ≠ ⟨0, 0⟩ := by rintro rfl; unfold V2.cross at h; simp at h
    apply le_of_lt
    rw [Complex.arg_neg_iff]
    exact mul_neg_of_pos_of_neg (norm_pos hd) h
  · rw [h, mul_zero]
    apply le_of_eq
    rw [Complex.arg_eq_zero_iff]
    exact ⟨h'.le, rfl⟩

/-- **C88** a polygon that never turns right is found to be in the trigonometric direction (counter-clockwise convex polygons, in
particular). -/
theorem C88_left_turns_partial (pts : List (V2 ℝ)) (h3 : 3 ≤ pts.length) (h : ∀ i, vertex pts i ≠ vertex pts (i + 1))
    (hl : ∀ i, 0 ≤ V2.cross (vertex pts (i + 1) - vertex pts i) (vertex pts (i + 2) - vertex pts (i + 1)))
    (hs : ∃ i < pts.length, 0 < V2.cross (vertex pts (i + 1) - vertex pts i) (vertex pts (i + 2) - vertex pts (i + 1))) :
    isTrigo pts = some true := by
  rw [isTrigo_eq pts h3 h, Option.some.injEq, decide_eq_true_iff]
  obtain ⟨i, hi, hpos⟩ := hs
  have := List.single_le_sum (l := (List.range pts.length).map fun i =>
      turnVal (vertex pts (i + 1) - vertex pts i) (vertex pts (i + 2) - vertex pts (i + 1)))
    (by
      intro x hx
      obtain ⟨j, -, rfl⟩ := List.mem_map.1 hx
      exact turnVal_nonneg (hl j)) _ (List.mem_map.2 ⟨i, List.mem_range.2 hi, rfl⟩)
  exact lt_of_lt_of_le (turnVal_pos hpos) this

/-- **C88** a polygon that never turns left nor back is found to be in the clockwise direction. -/
theorem C88_right_turns_partial (pts : List (V2 ℝ)) (h3 : 3 ≤ pts.length) (h : ∀ i, vertex pts i ≠ vertex pts (i + 1))
    (hl : ∀ i, V2.cross (vertex pts (i + 1) - vertex pts i) (vertex pts (i + 2) - vertex pts (i + 1)) < 0 ∨
      V2.cross (vertex pts (i + 1) - vertex pts i) (vertex pts (i + 2) - vertex pts (i + 1)) = 0 ∧
      0 < V2.dot (vertex pts (i + 1) - vertex pts i) (vertex pts (i + 2) - vertex pts (i + 1))) :
    isTrigo pts = some false := by
  rw [isTrigo_eq pts h3 h, Option.some.injEq, decide_eq_false_iff_not, not_lt]
  have : ∀ l : List ℝ, (∀ x ∈ l, x ≤ 0) → l.sum ≤ 0 := by
    intro l hl
    induction l with
    | nil => simp
    | cons a l ih =>
      rw [List.sum_cons]
      have := hl a (by simp)
      have := ih (fun x hx => hl x (List.mem_cons_of_mem _ hx))
      linarith
  apply this
  intro x hx
  obtain ⟨j, -, rfl⟩ := List.mem_map.1 hx
  exact turnVal_nonpos (hl j)

/-- Every index is that of a vertex modulo the length: reduction to finitely many cases. -/
theorem vertex_periodic (pts : List (V2 ℝ)) (i k : ℕ) : vertex pts (i % pts.length + k) = vertex pts (i + k) := by
  unfold vertex; rw [Nat.mod_add_mod]

/-- Non-vacuity of `C88_left_turns_partial`: a square with a point in the middle of a side. -/
example : isTrigo [⟨0, 0⟩, ⟨1, 0⟩, ⟨2, 0⟩, ⟨2, 2⟩, ⟨0, 2⟩] = some true := by
  have key : ∀ i, i < 5 → vertex [⟨0, 0⟩, ⟨1, 0⟩, ⟨2, 0⟩, ⟨2, 2⟩, ⟨0, 2⟩] i ≠ vertex [⟨0, 0⟩, ⟨1, 0⟩, ⟨2, 0⟩, ⟨2, 2⟩, ⟨0, 2⟩] (i + 1) ∧
      0 ≤ V2.cross (vertex [⟨0, 0⟩, ⟨1, 0⟩, ⟨2, 0⟩, ⟨2, 2⟩, ⟨0, 2⟩] (i + 1) - vertex [⟨0, 0⟩, ⟨1, 0⟩, ⟨2, 0⟩, ⟨2, 2⟩, ⟨0, 2⟩] i)
        (vertex [⟨0, 0⟩, ⟨1, 0⟩, ⟨2, 0⟩, ⟨2, 2⟩, ⟨0, 2⟩] (i + 2) - vertex [⟨0, 0⟩, ⟨1, 0⟩, ⟨2, 0⟩, ⟨2, 2⟩, ⟨0, 2⟩] (i + 1)) := by
    intro i hi
    simp only [show ∀ p q : V2 ℝ, V2.cross (p) (q) = p.x * q.y - p.y * q.x from fun _ _ => rfl,
      show ∀ p q : V2 ℝ, (p - q).x = p.x - q.x from fun _ _ => rfl, show ∀ p q : V2 ℝ, (p - q).y = p.y - q.y from fun _ _ => rfl]
    interval_cases i <;> norm_num [vertex]
  apply C88_left_turns_partial _ (by simp)
  · intro i
    have := (key (i % 5) (Nat.mod_lt _ (by norm_num))).1
    have e := vertex_periodic [⟨0, 0⟩, ⟨1, 0⟩, ⟨2, 0⟩, ⟨2, 2⟩, ⟨0, 2⟩] i
    simp only [List.length_cons, List.length_nil] at e
    have e0 := e 0
    rw [add_zero, add_zero] at e0
    rwa [e0, e 1] at this
  · intro i
    have := (key (i % 5) (Nat.mod_lt _ (by norm_num))).2
    have e := vertex_periodic [⟨0, 0⟩, ⟨1, 0⟩, ⟨2, 0⟩, ⟨2, 2⟩, ⟨0, 2⟩] i
    simp only [List.length_cons, List.length_nil] at e
    have e0 := e 0
    rw [add_zero, add_zero] at e0
    rwa [e0, e 1, e 2] at this
  · exact ⟨1, by norm_num, by
      simp only [show ∀ p q : V2 ℝ, V2.cross (p) (q) = p.x * q.y - p.y * q.x from fun _ _ => rfl,
        show ∀ p q : V2 ℝ, (p - q).x = p.x - q.x from fun _ _ => rfl, show ∀ p q : V2 ℝ, (p - q).y = p.y - q.y from fun _ _ => rfl]
      norm_num [vertex]⟩

/-- **C88** the full property: a polygon whose sides all turn counter-clockwise around a point is in the trigonometric
direction. -/
def C88_full_statement : Prop :=
  ∀ (pts : List (V2 ℝ)) (c : V2 ℝ), 3 ≤ pts.length →
    (∀ i < pts.length, 0 < V2.cross (vertex pts i - c) (vertex pts (i + 1) - c)) → isTrigo pts = some true

/-- A heart of six millimetres. -/
noncomputable def heart : List (V2 ℝ) :=
  [⟨-1 / 1000, -3 / 1000⟩, ⟨1 / 1000, -3 / 1000⟩, ⟨3 / 1000, -1 / 1000⟩, ⟨3 / 1000, 2 / 1000⟩, ⟨2 / 1000, 3 / 1000⟩, ⟨1 / 1000, 3 / 1000⟩,
    ⟨0, 0⟩, ⟨-1 / 1000, 3 / 1000⟩, ⟨-2 / 1000, 3 / 1000⟩, ⟨-3 / 1000, 2 / 1000⟩, ⟨-3 / 1000, -1 / 1000⟩]

theorem turnVal_small {d1 d2 : V2 ℝ} (hd : 0 < V2.dot d1 d2) (hc : 0 ≤ V2.cross d1 d2) (hc' : V2.cross d1 d2 ≤ 3 * V2.dot d1 d2)
    (hn : d1.x * d1.x + d1.y * d1.y ≤ (1 / 100) * (1 / 100)) : turnVal d1 d2 ≤ 6 / 100 := by
  have hn' : V2.norm d1 ≤ 1 / 100 := by
    unfold V2.norm
    rw [← Real.sqrt_mul_self (show (0 : ℝ) ≤ 1 / 100 by norm_num)]
    exact Real.sqrt_le_sqrt hn
  have hn0 : 0 ≤ V2.norm d1 := sqrt_nonneg _
  unfold turnVal atan2
  rw [Complex.arg_of_re_nonneg (by exact hd.le)]
  have hq : 0 ≤ V2.norm d1 * V2.cross d1 d2 := mul_nonneg hn0 hc
  have hz : V2.dot d1 d2 ≤ ‖(⟨V2.dot d1 d2, V2.norm d1 * V2.cross d1 d2⟩ : ℂ)‖ := by
    have := Complex.abs_re_le_norm (⟨V2.dot d1 d2, V2.norm d1 * V2.cross d1 d2⟩ : ℂ)
    exact (le_abs_self _).trans this
  have hs : (V2.norm d1 * V2.cross d1 d2) / ‖(⟨V2.dot d1 d2, V2.norm d1 * V2.cross d1 d2⟩ : ℂ)‖ ≤ 3 / 100 := by
    rw [div_le_iff₀ (lt_of_lt_of_le hd hz)]
    nlinarith
  have hp := pi_gt_three
  have hp4 := pi_lt_four
  apply (Real.arcsin_le_iff_le_sin' ⟨by linarith, by linarith⟩).2
  refine hs.trans ?_
  have := Real.mul_le_sin (x := 6 / 100) (by norm_num) (by linarith)
  refine le_trans ?_ this
  rw [div_mul_eq_mul_div, le_div_iff₀ (by linarith)]
  linarith

theorem turnVal_back {d1 d2 : V2 ℝ} (hd : V2.dot d1 d2 < 0) (hc : V2.cross d1 d2 < 0) : turnVal d1 d2 ≤ -(π / 2) := by
  have h0 : d1 ≠ ⟨0, 0⟩ := by rintro rfl; unfold V2.cross at hc; simp at hc
  have him : V2.norm d1 * V2.cross d1 d2 < 0 := mul_neg_of_pos_of_neg (norm_pos h0) hc
  unfold turnVal atan2
  have := (Complex.neg_pi_div_two_le_arg_iff (z := ⟨V2.dot d1 d2, V2.norm d1 * V2.cross d1 d2⟩)).not
  apply le_of_lt
  rw [← not_le]
  apply this.2
  rintro (h | h)
  · exact absurd h (not_le.2 hd)
  · exact absurd h (not_le.2 him)

/-- **C88** the full property is false: the heart is star-shaped around `(0, -1/1000)` and counter-clockwise, but `is_trigo` is
`False` (the normal vectors are not normalised, so that on a small polygon the turns by less than a right angle count for
nothing while the sharp turn to the right counts for `-π`). -/
theorem C88_counterexample : ¬ C88_full_statement := by
  intro h
  have hx := h heart ⟨0, -1 / 1000⟩ (by simp [heart]) (by
    intro i hi
    have hi' : i < 11 := by simpa [heart] using hi
    simp only [show ∀ p q : V2 ℝ, V2.cross (p) (q) = p.x * q.y - p.y * q.x from fun _ _ => rfl,
      show ∀ p q : V2 ℝ, (p - q).x = p.x - q.x from fun _ _ => rfl, show ∀ p q : V2 ℝ, (p - q).y = p.y - q.y from fun _ _ => rfl]
    interval_cases i <;> norm_num [vertex, heart])
  have key : ∀ i, i < 11 → vertex heart i ≠ vertex heart (i + 1) := by
    intro i hi
    interval_cases i <;> norm_num [vertex, heart]
  rw [isTrigo_eq heart (by simp [heart]) (by
    intro i
    have := key (i % 11) (Nat.mod_lt _ (by norm_num))
    have e := vertex_periodic heart i
    have hl : heart.length = 11 := by simp [heart]
    rw [hl] at e
    have e0 := e 0
    rw [add_zero, add_zero] at e0
    rwa [e0, e 1] at this), Option.some.injEq, decide_eq_true_iff] at hx
  have hl : heart.length = 11 := by simp [heart]
  rw [hl] at hx
  have small : ∀ i, i < 11 → i ≠ 5 → turnVal (vertex heart (i + 1) - vertex heart i) (vertex heart (i + 2) - vertex heart (i + 1)) ≤ 6 / 100 := by
    intro i hi h5
    apply turnVal_small <;>
    simp only [show ∀ p q : V2 ℝ, V2.cross (p) (q) = p.x * q.y - p.y * q.x from fun _ _ => rfl,
      show ∀ p q : V2 ℝ, V2.dot (p) (q) = p.x * q.x + p.y * q.y from fun _ _ => rfl,
      show ∀ p q : V2 ℝ, (p - q).x = p.x - q.x from fun _ _ => rfl, show ∀ p q : V2 ℝ, (p - q).y = p.y - q.y from fun _ _ => rfl] <;>
    interval_cases i <;> first | exact absurd rfl h5 | norm_num [vertex, heart]
  have back : turnVal (vertex heart (5 + 1) - vertex heart 5) (vertex heart (5 + 2) - vertex heart (5 + 1)) ≤ -(π / 2) := by
    apply turnVal_back <;>
    simp only [show ∀ p q : V2 ℝ, V2.cross (p) (q) = p.x * q.y - p.y * q.x from fun _ _ => rfl,
      show ∀ p q : V2 ℝ, V2.dot (p) (q) = p.x * q.x + p.y * q.y from fun _ _ => rfl,
      show ∀ p q : V2 ℝ, (p - q).x = p.x - q.x from fun _ _ => rfl, show ∀ p q : V2 ℝ, (p - q).y = p.y - q.y from fun _ _ => rfl] <;>
    norm_num [vertex, heart]
  have hp := pi_gt_three
  have hf : ∀ f : ℕ → ℝ, (∀ i, i < 11 → i ≠ 5 → f i ≤ 6 / 100) → f 5 ≤ -(π / 2) → ((List.range 11).map f).sum ≤ 0 := by
    intro f h1 h2
    simp only [List.range_succ, List.range_zero, List.nil_append, List.map_append, List.map_cons, List.map_nil, List.sum_append,
      List.sum_cons, List.sum_nil]
    have := h1 0 (by norm_num) (by norm_num)
    have := h1 1 (by norm_num) (by norm_num)
    have := h1 2 (by norm_num) (by norm_num)
    have := h1 3 (by norm_num) (by norm_num)
    have := h1 4 (by norm_num) (by norm_num)
    have := h1 6 (by norm_num) (by norm_num)
    have := h1 7 (by norm_num) (by norm_num)
    have := h1 8 (by norm_num) (by norm_num)
    have := h1 9 (by norm_num) (by norm_num)
    have := h1 10 (by norm_num) (by norm_num)
    linarith
  exact absurd hx (not_lt.2 (hf _ small back))

end Volmdlr.Hull
