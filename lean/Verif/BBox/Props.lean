import Verif.BBox.Model
import Verif.Segment.Props

/-!
# C14-C18: bounding boxes
-/

namespace Volmdlr

section Spec
variable {K : Type*} [Field K] [LinearOrder K]
/-- Specification: the closed set a bounding rectangle stands for. -/
def Rect.Mem (r : Rect K) (p : V2 K) : Prop :=
  r.xmin ≤ p.x ∧ p.x ≤ r.xmax ∧ r.ymin ≤ p.y ∧ p.y ≤ r.ymax
/-- Specification: the closed set a bounding box stands for. -/
def Box3.Mem (b : Box3 K) (p : V3 K) : Prop :=
  b.xmin ≤ p.x ∧ p.x ≤ b.xmax ∧ b.ymin ≤ p.y ∧ p.y ≤ b.ymax ∧ b.zmin ≤ p.z ∧ p.z ≤ b.zmax
/-- Specification: the interior of a box. -/
def Box3.Interior (b : Box3 K) (p : V3 K) : Prop :=
  b.xmin < p.x ∧ p.x < b.xmax ∧ b.ymin < p.y ∧ p.y < b.ymax ∧ b.zmin < p.z ∧ p.z < b.zmax
/-- Specification: minimum not above maximum on each axis. -/
def Rect.Valid (r : Rect K) : Prop := r.xmin ≤ r.xmax ∧ r.ymin ≤ r.ymax
/-- Specification: minimum not above maximum on each axis. -/
def Box3.Valid (b : Box3 K) : Prop := b.xmin ≤ b.xmax ∧ b.ymin ≤ b.ymax ∧ b.zmin ≤ b.zmax
/-- Specification: inclusion of boxes as sets. -/
def Box3.Subset (a b : Box3 K) : Prop := ∀ p, a.Mem p → b.Mem p
end Spec

section
variable {K : Type*} [Field K] [LinearOrder K]

theorem listMin_le (a : K) (l : List K) : listMin a l ≤ a ∧ ∀ x ∈ l, listMin a l ≤ x := by
  unfold listMin
  induction l generalizing a with
  | nil => simp
  | cons b l ih =>
    obtain ⟨h1, h2⟩ := ih (min a b)
    refine ⟨h1.trans (min_le_left _ _), ?_⟩
    intro x hx
    rcases List.mem_cons.1 hx with rfl | hx
    · exact h1.trans (min_le_right _ _)
    · exact h2 x hx
theorem listMin_mem (a : K) (l : List K) : listMin a l ∈ a :: l := by
  unfold listMin
  induction l generalizing a with
  | nil => simp
  | cons b l ih =>
    have := ih (min a b)
    simp only [List.foldl_cons, List.mem_cons] at *
    rcases this with h | h
    · rcases le_total a b with h' | h'
      · left; rw [h, min_eq_left h']
      · right; left; rw [h, min_eq_right h']
    · exact Or.inr (Or.inr h)
theorem le_listMax (a : K) (l : List K) : a ≤ listMax a l ∧ ∀ x ∈ l, x ≤ listMax a l := by
  unfold listMax
  induction l generalizing a with
  | nil => simp
  | cons b l ih =>
    obtain ⟨h1, h2⟩ := ih (max a b)
    refine ⟨(le_max_left _ _).trans h1, ?_⟩
    intro x hx
    rcases List.mem_cons.1 hx with rfl | hx
    · exact (le_max_right _ _).trans h1
    · exact h2 x hx
theorem listMax_mem (a : K) (l : List K) : listMax a l ∈ a :: l := by
  unfold listMax
  induction l generalizing a with
  | nil => simp
  | cons b l ih =>
    have := ih (max a b)
    simp only [List.foldl_cons, List.mem_cons] at *
    rcases this with h | h
    · rcases le_total a b with h' | h'
      · right; left; rw [h, max_eq_right h']
      · left; rw [h, max_eq_left h']
    · exact Or.inr (Or.inr h)
theorem le_listMin (c a : K) (l : List K) (h : ∀ x ∈ a :: l, c ≤ x) : c ≤ listMin a l := h _ (listMin_mem a l)
theorem listMax_le (c a : K) (l : List K) (h : ∀ x ∈ a :: l, x ≤ c) : listMax a l ≤ c := h _ (listMax_mem a l)

/-- **C14** `BoundingRectangle.from_points`: an error exactly on the empty list; otherwise a valid
rectangle that contains all points and is included in every rectangle containing them. -/
theorem C14_rect_fromPoints (l : List (V2 K)) :
    (l = [] ↔ Rect.fromPoints l = .error .valueError) ∧
    (l ≠ [] → ∃ r, Rect.fromPoints l = .ok r ∧ r.Valid ∧ (∀ p ∈ l, r.Mem p) ∧
      ∀ r' : Rect K, (∀ p ∈ l, r'.Mem p) → ∀ p, r.Mem p → r'.Mem p) := by
  cases l with
  | nil => simp [Rect.fromPoints]
  | cons p ps =>
    refine ⟨by simp [Rect.fromPoints], fun _ => ⟨_, rfl, ?_, ?_, ?_⟩⟩
    · exact ⟨(listMin_le _ _).1.trans (le_listMax _ _).1, (listMin_le _ _).1.trans (le_listMax _ _).1⟩
    · intro q hq
      rcases List.mem_cons.1 hq with rfl | hq
      · exact ⟨(listMin_le _ _).1, (le_listMax _ _).1, (listMin_le _ _).1, (le_listMax _ _).1⟩
      · exact ⟨(listMin_le _ _).2 _ (List.mem_map_of_mem hq), (le_listMax _ _).2 _ (List.mem_map_of_mem hq),
          (listMin_le _ _).2 _ (List.mem_map_of_mem hq), (le_listMax _ _).2 _ (List.mem_map_of_mem hq)⟩
    · intro r' h q ⟨h1, h2, h3, h4⟩
      have hx : ∀ f : V2 K → K, ∀ P : K → Prop, (∀ q ∈ p :: ps, P (f q)) → ∀ x ∈ f p :: ps.map f, P x := by
        intro f P hP x hx
        rw [← List.map_cons] at hx
        obtain ⟨q, hq, rfl⟩ := List.mem_map.1 hx
        exact hP q hq
      refine ⟨le_trans ?_ h1, h2.trans ?_, le_trans ?_ h3, h4.trans ?_⟩
      · exact le_listMin _ _ _ (hx V2.x _ fun q hq => (h q hq).1)
      · exact listMax_le _ _ _ (hx V2.x _ fun q hq => (h q hq).2.1)
      · exact le_listMin _ _ _ (hx V2.y _ fun q hq => (h q hq).2.2.1)
      · exact listMax_le _ _ _ (hx V2.y _ fun q hq => (h q hq).2.2.2)

/-- **C14** `BoundingBox.from_points`: an error exactly on the empty list; otherwise a valid box that
contains all points and is included in every box containing them. -/
theorem C14_box_fromPoints (l : List (V3 K)) :
    (l = [] ↔ Box3.fromPoints l = .error .valueError) ∧
    (l ≠ [] → ∃ r, Box3.fromPoints l = .ok r ∧ r.Valid ∧ (∀ p ∈ l, r.Mem p) ∧
      ∀ r' : Box3 K, (∀ p ∈ l, r'.Mem p) → r.Subset r') := by
  cases l with
  | nil => simp [Box3.fromPoints]
  | cons p ps =>
    refine ⟨by simp [Box3.fromPoints], fun _ => ⟨_, rfl, ?_, ?_, ?_⟩⟩
    · exact ⟨(listMin_le _ _).1.trans (le_listMax _ _).1, (listMin_le _ _).1.trans (le_listMax _ _).1,
        (listMin_le _ _).1.trans (le_listMax _ _).1⟩
    · intro q hq
      rcases List.mem_cons.1 hq with rfl | hq
      · exact ⟨(listMin_le _ _).1, (le_listMax _ _).1, (listMin_le _ _).1, (le_listMax _ _).1,
          (listMin_le _ _).1, (le_listMax _ _).1⟩
      · exact ⟨(listMin_le _ _).2 _ (List.mem_map_of_mem hq), (le_listMax _ _).2 _ (List.mem_map_of_mem hq),
          (listMin_le _ _).2 _ (List.mem_map_of_mem hq), (le_listMax _ _).2 _ (List.mem_map_of_mem hq),
          (listMin_le _ _).2 _ (List.mem_map_of_mem hq), (le_listMax _ _).2 _ (List.mem_map_of_mem hq)⟩
    · intro r' h q ⟨h1, h2, h3, h4, h5, h6⟩
      have hx : ∀ f : V3 K → K, ∀ P : K → Prop, (∀ q ∈ p :: ps, P (f q)) → ∀ x ∈ f p :: ps.map f, P x := by
        intro f P hP x hx
        rw [← List.map_cons] at hx
        obtain ⟨q, hq, rfl⟩ := List.mem_map.1 hx
        exact hP q hq
      refine ⟨le_trans ?_ h1, h2.trans ?_, le_trans ?_ h3, h4.trans ?_, le_trans ?_ h5, h6.trans ?_⟩
      · exact le_listMin _ _ _ (hx V3.x _ fun q hq => (h q hq).1)
      · exact listMax_le _ _ _ (hx V3.x _ fun q hq => (h q hq).2.1)
      · exact le_listMin _ _ _ (hx V3.y _ fun q hq => (h q hq).2.2.1)
      · exact listMax_le _ _ _ (hx V3.y _ fun q hq => (h q hq).2.2.2.1)
      · exact le_listMin _ _ _ (hx V3.z _ fun q hq => (h q hq).2.2.2.2.1)
      · exact listMax_le _ _ _ (hx V3.z _ fun q hq => (h q hq).2.2.2.2.2)

theorem Box3.subset_iff {a b : Box3 K} (ha : a.Valid) : a.Subset b ↔
    b.xmin ≤ a.xmin ∧ a.xmax ≤ b.xmax ∧ b.ymin ≤ a.ymin ∧ a.ymax ≤ b.ymax ∧ b.zmin ≤ a.zmin ∧ a.zmax ≤ b.zmax := by
  constructor
  · intro h
    have h1 := h ⟨a.xmin, a.ymin, a.zmin⟩ ⟨le_rfl, ha.1, le_rfl, ha.2.1, le_rfl, ha.2.2⟩
    have h2 := h ⟨a.xmax, a.ymax, a.zmax⟩ ⟨ha.1, le_rfl, ha.2.1, le_rfl, ha.2.2, le_rfl⟩
    exact ⟨h1.1, h2.2.1, h1.2.2.1, h2.2.2.2.1, h1.2.2.2.2.1, h2.2.2.2.2.2⟩
  · rintro ⟨h1, h2, h3, h4, h5, h6⟩ p ⟨k1, k2, k3, k4, k5, k6⟩
    exact ⟨h1.trans k1, k2.trans h2, h3.trans k3, k4.trans h4, h5.trans k5, k6.trans h6⟩

/-- **C14** `BoundingBox.from_bounding_boxes`: an error exactly on the empty list; otherwise the smallest
box containing all the given (valid) boxes. -/
theorem C14_fromBoundingBoxes (l : List (Box3 K)) (hl : ∀ b ∈ l, b.Valid) :
    (l = [] ↔ Box3.fromBoundingBoxes l = .error .valueError) ∧
    (l ≠ [] → ∃ r, Box3.fromBoundingBoxes l = .ok r ∧ r.Valid ∧ (∀ b ∈ l, b.Subset r) ∧
      ∀ r' : Box3 K, (∀ b ∈ l, b.Subset r') → r.Subset r') := by
  cases l with
  | nil => simp [Box3.fromBoundingBoxes]
  | cons p ps =>
    refine ⟨by simp [Box3.fromBoundingBoxes], fun _ => ⟨_, rfl, ?_, ?_, ?_⟩⟩
    · have hp := hl p List.mem_cons_self
      exact ⟨(listMin_le _ _).1.trans (hp.1.trans (le_listMax _ _).1),
        (listMin_le _ _).1.trans (hp.2.1.trans (le_listMax _ _).1),
        (listMin_le _ _).1.trans (hp.2.2.trans (le_listMax _ _).1)⟩
    · intro q hq
      rw [Box3.subset_iff (hl q hq)]
      rcases List.mem_cons.1 hq with rfl | hq
      · exact ⟨(listMin_le _ _).1, (le_listMax _ _).1, (listMin_le _ _).1, (le_listMax _ _).1,
          (listMin_le _ _).1, (le_listMax _ _).1⟩
      · exact ⟨(listMin_le _ _).2 _ (List.mem_map_of_mem hq), (le_listMax _ _).2 _ (List.mem_map_of_mem hq),
          (listMin_le _ _).2 _ (List.mem_map_of_mem hq), (le_listMax _ _).2 _ (List.mem_map_of_mem hq),
          (listMin_le _ _).2 _ (List.mem_map_of_mem hq), (le_listMax _ _).2 _ (List.mem_map_of_mem hq)⟩
    · intro r' h q ⟨h1, h2, h3, h4, h5, h6⟩
      have h' : ∀ b ∈ p :: ps, r'.xmin ≤ b.xmin ∧ b.xmax ≤ r'.xmax ∧ r'.ymin ≤ b.ymin ∧ b.ymax ≤ r'.ymax ∧
          r'.zmin ≤ b.zmin ∧ b.zmax ≤ r'.zmax := fun b hb => (Box3.subset_iff (hl b hb)).1 (h b hb)
      have hx : ∀ f : Box3 K → K, ∀ P : K → Prop, (∀ q ∈ p :: ps, P (f q)) → ∀ x ∈ f p :: ps.map f, P x := by
        intro f P hP x hx
        rw [← List.map_cons] at hx
        obtain ⟨q, hq, rfl⟩ := List.mem_map.1 hx
        exact hP q hq
      refine ⟨le_trans ?_ h1, h2.trans ?_, le_trans ?_ h3, h4.trans ?_, le_trans ?_ h5, h6.trans ?_⟩
      · exact le_listMin _ _ _ (hx Box3.xmin _ fun q hq => (h' q hq).1)
      · exact listMax_le _ _ _ (hx Box3.xmax _ fun q hq => (h' q hq).2.1)
      · exact le_listMin _ _ _ (hx Box3.ymin _ fun q hq => (h' q hq).2.2.1)
      · exact listMax_le _ _ _ (hx Box3.ymax _ fun q hq => (h' q hq).2.2.2.1)
      · exact le_listMin _ _ _ (hx Box3.zmin _ fun q hq => (h' q hq).2.2.2.2.1)
      · exact listMax_le _ _ _ (hx Box3.zmax _ fun q hq => (h' q hq).2.2.2.2.2)

/-- **C14** `b1 + b2` is the smallest box containing both. -/
theorem C14_add (a b : Box3 K) (ha : a.Valid) (hb : b.Valid) :
    (a.add b).Valid ∧ a.Subset (a.add b) ∧ b.Subset (a.add b) ∧
    ∀ c : Box3 K, a.Subset c → b.Subset c → (a.add b).Subset c := by
  have hv : (a.add b).Valid :=
    ⟨(min_le_left _ _).trans (ha.1.trans (le_max_left _ _)), (min_le_left _ _).trans (ha.2.1.trans (le_max_left _ _)),
      (min_le_left _ _).trans (ha.2.2.trans (le_max_left _ _))⟩
  refine ⟨hv, ?_, ?_, ?_⟩
  · rw [Box3.subset_iff ha]; simp [Box3.add]
  · rw [Box3.subset_iff hb]; simp [Box3.add]
  · intro c h1 h2
    rw [Box3.subset_iff ha] at h1
    rw [Box3.subset_iff hb] at h2
    rw [Box3.subset_iff hv]
    simp only [Box3.add]
    refine ⟨le_min h1.1 h2.1, max_le h1.2.1 h2.2.1, le_min h1.2.2.1 h2.2.2.1, max_le h1.2.2.2.1 h2.2.2.2.1,
      le_min h1.2.2.2.2.1 h2.2.2.2.2.1, max_le h1.2.2.2.2.2 h2.2.2.2.2.2⟩

/-- **C14** the result does not depend on the order of the points, and the order of the boxes. -/
theorem C14_order_independent (l l' : List (V3 K)) (h : l.Perm l') : Box3.fromPoints l = Box3.fromPoints l' := by
  by_cases hl : l = []
  · subst hl; rw [List.Perm.eq_nil h.symm]
  · have hl' : l' ≠ [] := fun e => hl (by subst e; exact List.Perm.eq_nil h)
    obtain ⟨r, e1, v1, m1, i1⟩ := (C14_box_fromPoints l).2 hl
    obtain ⟨r', e2, v2, m2, i2⟩ := (C14_box_fromPoints l').2 hl'
    have s1 := (Box3.subset_iff v1).1 (i1 r' fun p hp => m2 p (h.mem_iff.1 hp))
    have s2 := (Box3.subset_iff v2).1 (i2 r fun p hp => m1 p (h.mem_iff.2 hp))
    rw [e1, e2]
    congr 1
    ext
    · exact le_antisymm s2.1 s1.1
    · exact le_antisymm s1.2.1 s2.2.1
    · exact le_antisymm s2.2.2.1 s1.2.2.1
    · exact le_antisymm s1.2.2.2.1 s2.2.2.2.1
    · exact le_antisymm s2.2.2.2.2.1 s1.2.2.2.2.1
    · exact le_antisymm s1.2.2.2.2.2 s2.2.2.2.2.2

example : Box3.fromPoints [(⟨1, 5, 0⟩ : V3 ℚ), ⟨-2, 3, 4⟩, ⟨0, 9, 2⟩] = .ok ⟨-2, 1, 3, 9, 0, 4⟩ := by decide
example : (⟨0, 1, 0, 1, 0, 1⟩ : Box3 ℚ).Valid := by unfold Box3.Valid; norm_num
end

/-! ## C16 predicates -/
section
variable {K : Type*} [Field K] [LinearOrder K] [IsStrictOrderedRing K]

theorem Box3.isIntersecting_iff (a b : Box3 K) (tol : K) : a.isIntersecting b tol = true ↔
    (b.xmin - tol ≤ a.xmax + tol ∧ a.xmin - tol ≤ b.xmax + tol) ∧
    (b.ymin - tol ≤ a.ymax + tol ∧ a.ymin - tol ≤ b.ymax + tol) ∧
    (b.zmin - tol ≤ a.zmax + tol ∧ a.zmin - tol ≤ b.zmax + tol) := by
  simp only [Box3.isIntersecting]
  split
  · rename_i h
    simp only [Bool.false_eq_true, false_iff]
    rintro ⟨⟨h1, h2⟩, ⟨h3, h4⟩, ⟨h5, h6⟩⟩
    rcases h with h | h | h | h | h | h <;> exact absurd h (by first | exact not_lt.2 ‹_›)
  · rename_i h
    push Not at h
    obtain ⟨h1, h2, h3, h4, h5, h6⟩ := h
    simp [h1, h2, h3, h4, h5, h6]

theorem interval_meet {a b c d : K} (h1 : a ≤ b) (h2 : c ≤ d) (h3 : c ≤ b) (h4 : a ≤ d) :
    ∃ x, a ≤ x ∧ x ≤ b ∧ c ≤ x ∧ x ≤ d :=
  ⟨max a c, le_max_left _ _, max_le h1 h3, le_max_right _ _, max_le h4 h2⟩

/-- **C16** `is_intersecting` with a tolerance `tol ≥ 0`: true iff there is a point of the first box and a
point of the second that differ by at most `2·tol` on every axis. With `tol = 0`: iff they share a point. -/
theorem C16_isIntersecting (a b : Box3 K) (ha : a.Valid) (hb : b.Valid) (tol : K) (ht : 0 ≤ tol) :
    (a.isIntersecting b tol = true ↔ ∃ p q, a.Mem p ∧ b.Mem q ∧
      |p.x - q.x| ≤ 2 * tol ∧ |p.y - q.y| ≤ 2 * tol ∧ |p.z - q.z| ≤ 2 * tol) ∧
    (a.isIntersecting b 0 = true ↔ ∃ p, a.Mem p ∧ b.Mem p) ∧
    a.isIntersecting b tol = b.isIntersecting a tol := by
  have axis : ∀ {l u l' u' : K}, l ≤ u → l' ≤ u' → l' - tol ≤ u + tol → l - tol ≤ u' + tol →
      ∃ x y, l ≤ x ∧ x ≤ u ∧ l' ≤ y ∧ y ≤ u' ∧ |x - y| ≤ 2 * tol := by
    intro l u l' u' h1 h2 h3 h4
    by_cases c1 : u < l'
    · exact ⟨u, l', h1, le_rfl, le_rfl, h2, abs_le.2 ⟨by linarith, by linarith⟩⟩
    · by_cases c2 : u' < l
      · exact ⟨l, u', le_rfl, h1, h2, le_rfl, abs_le.2 ⟨by linarith, by linarith⟩⟩
      · obtain ⟨x, p1, p2, p3, p4⟩ := interval_meet h1 h2 (not_lt.1 c1) (not_lt.1 c2)
        exact ⟨x, x, p1, p2, p3, p4, by simp; linarith⟩
  refine ⟨?_, ?_, ?_⟩
  · rw [Box3.isIntersecting_iff]
    constructor
    · rintro ⟨⟨h1, h2⟩, ⟨h3, h4⟩, ⟨h5, h6⟩⟩
      obtain ⟨x, x', a1, a2, a3, a4, a5⟩ := axis ha.1 hb.1 h1 h2
      obtain ⟨y, y', b1, b2, b3, b4, b5⟩ := axis ha.2.1 hb.2.1 h3 h4
      obtain ⟨z, z', c1, c2, c3, c4, c5⟩ := axis ha.2.2 hb.2.2 h5 h6
      exact ⟨⟨x, y, z⟩, ⟨x', y', z'⟩, ⟨a1, a2, b1, b2, c1, c2⟩, ⟨a3, a4, b3, b4, c3, c4⟩, a5, b5, c5⟩
    · rintro ⟨p, q, ⟨a1, a2, a3, a4, a5, a6⟩, ⟨b1, b2, b3, b4, b5, b6⟩, h1, h2, h3⟩
      rw [abs_le] at h1 h2 h3
      refine ⟨⟨?_, ?_⟩, ⟨?_, ?_⟩, ⟨?_, ?_⟩⟩ <;> linarith
  · rw [Box3.isIntersecting_iff]
    simp only [sub_zero, add_zero]
    constructor
    · rintro ⟨⟨h1, h2⟩, ⟨h3, h4⟩, ⟨h5, h6⟩⟩
      obtain ⟨x, a1, a2, a3, a4⟩ := interval_meet ha.1 hb.1 h1 h2
      obtain ⟨y, b1, b2, b3, b4⟩ := interval_meet ha.2.1 hb.2.1 h3 h4
      obtain ⟨z, c1, c2, c3, c4⟩ := interval_meet ha.2.2 hb.2.2 h5 h6
      exact ⟨⟨x, y, z⟩, ⟨a1, a2, b1, b2, c1, c2⟩, ⟨a3, a4, b3, b4, c3, c4⟩⟩
    · rintro ⟨p, ⟨a1, a2, a3, a4, a5, a6⟩, ⟨b1, b2, b3, b4, b5, b6⟩⟩
      exact ⟨⟨b1.trans a2, a1.trans b2⟩, ⟨b3.trans a4, a3.trans b4⟩, ⟨b5.trans a6, a5.trans b6⟩⟩
  · rw [Bool.eq_iff_iff, Box3.isIntersecting_iff, Box3.isIntersecting_iff]
    tauto
/-- **C16** a larger tolerance never turns an intersection into a non-intersection. -/
theorem C16_isIntersecting_mono (a b : Box3 K) (t t' : K) (h : t ≤ t') (hi : a.isIntersecting b t = true) :
    a.isIntersecting b t' = true := by
  rw [Box3.isIntersecting_iff] at *
  obtain ⟨⟨h1, h2⟩, ⟨h3, h4⟩, ⟨h5, h6⟩⟩ := hi
  refine ⟨⟨?_, ?_⟩, ⟨?_, ?_⟩, ⟨?_, ?_⟩⟩ <;> linarith

/-- **C16** `BoundingRectangle.is_intersecting`: true iff the open interiors meet (for rectangles with
non-empty interior). -/
theorem C16_rect_isIntersecting (r s : Rect K) (hr : r.xmin < r.xmax ∧ r.ymin < r.ymax)
    (hs : s.xmin < s.xmax ∧ s.ymin < s.ymax) :
    (r.isIntersecting s = true ↔ ∃ p, r.pointBelongs p = true ∧ s.pointBelongs p = true) ∧
    (∀ p, r.pointBelongs p = true ↔ (r.xmin < p.x ∧ p.x < r.xmax ∧ r.ymin < p.y ∧ p.y < r.ymax)) ∧
    r.isIntersecting s = s.isIntersecting r := by
  have hb : ∀ (r : Rect K) (p), r.pointBelongs p = true ↔ (r.xmin < p.x ∧ p.x < r.xmax ∧ r.ymin < p.y ∧ p.y < r.ymax) := by
    intro r p; simp [Rect.pointBelongs, and_assoc]
  refine ⟨?_, hb r, ?_⟩
  · simp only [hb]
    have key : ∀ {a b c d : K}, a < b → c < d → a < d → c < b → ∃ x, a < x ∧ x < b ∧ c < x ∧ x < d := by
      intro a b c d h1 h2 h3 h4
      have h := max_lt (lt_min h1 h3) (lt_min h4 h2)
      obtain ⟨x, p1, p2⟩ := exists_between h
      exact ⟨x, (le_max_left _ _).trans_lt p1, p2.trans_le (min_le_left _ _),
        (le_max_right _ _).trans_lt p1, p2.trans_le (min_le_right _ _)⟩
    simp only [Rect.isIntersecting, Bool.and_eq_true, decide_eq_true_eq]
    constructor
    · rintro ⟨⟨⟨h1, h2⟩, h3⟩, h4⟩
      obtain ⟨x, a1, a2, a3, a4⟩ := key hr.1 hs.1 h1 h2
      obtain ⟨y, b1, b2, b3, b4⟩ := key hr.2 hs.2 h3 h4
      exact ⟨⟨x, y⟩, ⟨a1, a2, b1, b2⟩, ⟨a3, a4, b3, b4⟩⟩
    · rintro ⟨p, ⟨a1, a2, a3, a4⟩, ⟨b1, b2, b3, b4⟩⟩
      exact ⟨⟨⟨a1.trans b2, b1.trans a2⟩, a3.trans b4⟩, b3.trans a4⟩
  · rw [Bool.eq_iff_iff]
    simp only [Rect.isIntersecting, Bool.and_eq_true, decide_eq_true_eq]
    tauto

/-- **C16** `is_inside_bbox`: true iff every point of the first box is a point of the second up to `1e-6`
on each axis; and this is what `point_belongs` tests. -/
theorem C16_isInside (a b : Box3 K) (ha : a.Valid) :
    (a.isInside b = true ↔ ∀ p, a.Mem p → b.pointBelongs p = true) ∧
    (∀ p tol, b.pointBelongs p tol = true ↔
      b.xmin - tol ≤ p.x ∧ p.x ≤ b.xmax + tol ∧ b.ymin - tol ≤ p.y ∧ p.y ≤ b.ymax + tol ∧
      b.zmin - tol ≤ p.z ∧ p.z ≤ b.zmax + tol) ∧
    (a.Subset b → a.isInside b = true) := by
  have hp : ∀ p tol, b.pointBelongs p tol = true ↔
      b.xmin - tol ≤ p.x ∧ p.x ≤ b.xmax + tol ∧ b.ymin - tol ≤ p.y ∧ p.y ≤ b.ymax + tol ∧
      b.zmin - tol ≤ p.z ∧ p.z ≤ b.zmax + tol := by
    intro p tol; simp [Box3.pointBelongs, and_assoc]
  have hi : a.isInside b = true ↔ ∀ p, a.Mem p → b.pointBelongs p = true := by
    simp only [hp]
    simp only [Box3.isInside, Bool.and_eq_true, decide_eq_true_eq, and_assoc]
    constructor
    · rintro ⟨h1, h2, h3, h4, h5, h6⟩ p ⟨k1, k2, k3, k4, k5, k6⟩
      exact ⟨h1.le.trans k1, k2.trans h2, h3.le.trans k3, k4.trans h4, h5.le.trans k5, k6.trans h6⟩
    · intro h
      have h1 := h ⟨a.xmin, a.ymin, a.zmin⟩ ⟨le_rfl, ha.1, le_rfl, ha.2.1, le_rfl, ha.2.2⟩
      have h2 := h ⟨a.xmax, a.ymax, a.zmax⟩ ⟨ha.1, le_rfl, ha.2.1, le_rfl, ha.2.2, le_rfl⟩
      exact ⟨h1.1, h2.2.1, h1.2.2.1, h2.2.2.2.1, h1.2.2.2.2.1, h2.2.2.2.2.2⟩
  refine ⟨hi, hp, fun h => ?_⟩
  rw [hi]
  intro p hpm
  rw [hp]
  obtain ⟨k1, k2, k3, k4, k5, k6⟩ := h p hpm
  have ht : (0 : K) ≤ 1 / 10 ^ 6 := by positivity
  exact ⟨by linarith, by linarith, by linarith, by linarith, by linarith, by linarith⟩

/-- **C16**, full statement for the volume: it is the volume of the common box, and 0 if there is none. -/
def C16_volume_full_statement : Prop := ∀ a b : Box3 ℚ, a.Valid → b.Valid →
  (∀ c : Box3 ℚ, c.Valid → (∀ p, c.Mem p ↔ a.Mem p ∧ b.Mem p) → a.intersectionVolume b = c.volume) ∧
  ((¬ ∃ p, a.Mem p ∧ b.Mem p) → a.intersectionVolume b = 0)

/-- **C16** fails because of the tolerances: disjoint boxes one micrometre apart have a *negative*
intersection volume. -/
theorem C16_volume_counterexample : ¬ C16_volume_full_statement := by
  intro h
  have := (h ⟨0, 1, 0, 1, 0, 1⟩ ⟨1 + 1 / 10 ^ 6, 2, 0, 1, 0, 2⟩ (by unfold Box3.Valid; norm_num)
    (by unfold Box3.Valid; norm_num)).2 (by
      rintro ⟨p, ⟨h1, h2, -⟩, ⟨h3, -⟩⟩
      norm_num at *
      linarith)
  revert this
  decide +kernel

theorem Box3.mem_inter (a b : Box3 K) (p : V3 K) :
    (⟨max a.xmin b.xmin, min a.xmax b.xmax, max a.ymin b.ymin, min a.ymax b.ymax,
      max a.zmin b.zmin, min a.zmax b.zmax⟩ : Box3 K).Mem p ↔ a.Mem p ∧ b.Mem p := by
  simp only [Box3.Mem, max_le_iff, le_min_iff]
  tauto

/-- **C16** the true part for the volume: for boxes sharing a point, and such that whenever one is inside
the other up to the tolerance it is inside exactly, the intersection volume is that of the common box;
for boxes further apart than the tolerance it is 0. -/
theorem C16_intersectionVolume_partial (a b : Box3 K) (ha : a.Valid) (hb : b.Valid)
    (h1 : a.isInside b = true → a.Subset b) (h2 : b.isInside a = true → b.Subset a) :
    (∀ c : Box3 K, c.Valid → (∀ p, c.Mem p ↔ a.Mem p ∧ b.Mem p) → a.intersectionVolume b = c.volume) ∧
    (a.isIntersecting b = false → a.intersectionVolume b = 0) := by
  constructor
  · intro c hc hm
    have ht : (0 : K) ≤ 1 / 10 ^ 6 := by positivity
    have hmem : c.Mem ⟨c.xmin, c.ymin, c.zmin⟩ := ⟨le_rfl, hc.1, le_rfl, hc.2.1, le_rfl, hc.2.2⟩
    have hint : a.isIntersecting b = true :=
      C16_isIntersecting_mono a b 0 _ ht (((C16_isIntersecting a b ha hb 0 le_rfl).2.1).2 ⟨_, (hm _).1 hmem⟩)
    -- the common box
    have hcc : c = ⟨max a.xmin b.xmin, min a.xmax b.xmax, max a.ymin b.ymin, min a.ymax b.ymax,
        max a.zmin b.zmin, min a.zmax b.zmax⟩ := by
      have e : ∀ p, c.Mem p ↔ (⟨max a.xmin b.xmin, min a.xmax b.xmax, max a.ymin b.ymin, min a.ymax b.ymax,
        max a.zmin b.zmin, min a.zmax b.zmax⟩ : Box3 K).Mem p := fun p => by rw [hm, Box3.mem_inter]
      have hm1 := (e _).1 hmem
      have hd : (⟨max a.xmin b.xmin, min a.xmax b.xmax, max a.ymin b.ymin, min a.ymax b.ymax,
        max a.zmin b.zmin, min a.zmax b.zmax⟩ : Box3 K).Valid :=
        ⟨hm1.1.trans hm1.2.1, hm1.2.2.1.trans hm1.2.2.2.1, hm1.2.2.2.2.1.trans hm1.2.2.2.2.2⟩
      have s1 := (Box3.subset_iff hc).1 fun p hp => (e p).1 hp
      have s2 := (Box3.subset_iff hd).1 fun p hp => (e p).2 hp
      ext
      · exact le_antisymm s2.1 s1.1
      · exact le_antisymm s1.2.1 s2.2.1
      · exact le_antisymm s2.2.2.1 s1.2.2.1
      · exact le_antisymm s1.2.2.2.1 s2.2.2.2.1
      · exact le_antisymm s2.2.2.2.2.1 s1.2.2.2.2.1
      · exact le_antisymm s1.2.2.2.2.2 s2.2.2.2.2.2
    unfold Box3.intersectionVolume
    rw [if_neg (by rw [hint]; simp)]
    have hvol : ∀ u v : Box3 K, u.Valid → v.Valid → u.Subset v → u.volume ≤ v.volume := by
      intro u v hu hv huv
      obtain ⟨k1, k2, k3, k4, k5, k6⟩ := (Box3.subset_iff hu).1 huv
      unfold Box3.volume
      have q1 := sub_nonneg.2 hu.1
      have q2 := sub_nonneg.2 hu.2.1
      have q3 := sub_nonneg.2 hu.2.2
      apply mul_le_mul _ (by linarith) q3 _
      · exact mul_le_mul (by linarith) (by linarith) q2 (by linarith)
      · exact mul_nonneg (by linarith) (by linarith)
    split
    · rename_i hins
      simp only [Bool.or_eq_true] at hins
      rcases hins with hins | hins
      · have hs := h1 hins
        rw [min_eq_left (hvol a b ha hb hs)]
        obtain ⟨k1, k2, k3, k4, k5, k6⟩ := (Box3.subset_iff ha).1 hs
        rw [hcc]
        simp [Box3.volume, max_eq_left k1, min_eq_left k2, max_eq_left k3, min_eq_left k4, max_eq_left k5, min_eq_left k6]
      · have hs := h2 hins
        rw [min_eq_right (hvol b a hb ha hs)]
        obtain ⟨k1, k2, k3, k4, k5, k6⟩ := (Box3.subset_iff hb).1 hs
        rw [hcc]
        simp [Box3.volume, max_eq_right k1, min_eq_right k2, max_eq_right k3, min_eq_right k4, max_eq_right k5, min_eq_right k6]
    · rw [hcc]; rfl
  · intro h
    unfold Box3.intersectionVolume
    rw [if_pos (by rw [h]; simp)]

example : (⟨0, 2, 0, 2, 0, 2⟩ : Box3 ℚ).intersectionVolume ⟨1, 3, 1, 3, 1, 3⟩ = 1 := by decide +kernel

/-- **C16** `intersection_area` (its overlap test is strict): for rectangles whose interiors meet, and when
one inside the other up to the tolerance is inside exactly, it is the area of the common rectangle; it
is 0 when the interiors do not meet. -/
theorem C16_intersectionArea_partial (a b : Rect K) (ha : a.Valid) (hb : b.Valid)
    (h1 : a.isInside b = true → ∀ p, a.Mem p → b.Mem p) (h2 : b.isInside a = true → ∀ p, b.Mem p → a.Mem p) :
    (a.isIntersecting b = false → a.intersectionArea b = 0) ∧
    (a.isIntersecting b = true → ∃ c : Rect K, c.Valid ∧ (∀ p, c.Mem p ↔ a.Mem p ∧ b.Mem p) ∧
      a.intersectionArea b = (c.xmax - c.xmin) * (c.ymax - c.ymin)) := by
  have sub : ∀ u v : Rect K, u.Valid → (∀ p, u.Mem p → v.Mem p) →
      v.xmin ≤ u.xmin ∧ u.xmax ≤ v.xmax ∧ v.ymin ≤ u.ymin ∧ u.ymax ≤ v.ymax := by
    intro u v hu h
    have k1 := h ⟨u.xmin, u.ymin⟩ ⟨le_rfl, hu.1, le_rfl, hu.2⟩
    have k2 := h ⟨u.xmax, u.ymax⟩ ⟨hu.1, le_rfl, hu.2, le_rfl⟩
    exact ⟨k1.1, k2.2.1, k1.2.2.1, k2.2.2.2⟩
  have hvol : ∀ u v : Rect K, u.Valid → v.Valid → (∀ p, u.Mem p → v.Mem p) → u.area ≤ v.area := by
    intro u v hu hv huv
    obtain ⟨k1, k2, k3, k4⟩ := sub u v hu huv
    unfold Rect.area
    have q1 := sub_nonneg.2 hu.1
    have q2 := sub_nonneg.2 hu.2
    exact mul_le_mul (by linarith) (by linarith) q2 (by linarith)
  constructor
  · intro h
    unfold Rect.intersectionArea
    rw [if_pos (by simp [h])]
  · intro h
    have hh := h
    simp only [Rect.isIntersecting, Bool.and_eq_true, decide_eq_true_eq] at hh
    obtain ⟨⟨⟨k1, k2⟩, k3⟩, k4⟩ := hh
    refine ⟨⟨max a.xmin b.xmin, min a.xmax b.xmax, max a.ymin b.ymin, min a.ymax b.ymax⟩, ?_, ?_, ?_⟩
    · exact ⟨max_le (le_min ha.1 k1.le) (le_min k2.le hb.1), max_le (le_min ha.2 k3.le) (le_min k4.le hb.2)⟩
    · intro p
      simp only [Rect.Mem, max_le_iff, le_min_iff]; tauto
    · unfold Rect.intersectionArea
      rw [if_neg (by simp [h])]
      split
      · rename_i hins
        simp only [Bool.or_eq_true] at hins
        rcases hins with hins | hins
        · have hs := h1 hins
          rw [min_eq_left (hvol a b ha hb hs)]
          obtain ⟨k1, k2, k3, k4⟩ := sub a b ha hs
          simp [Rect.area, max_eq_left k1, min_eq_left k2, max_eq_left k3, min_eq_left k4]
        · have hs := h2 hins
          rw [min_eq_right (hvol b a hb ha hs)]
          obtain ⟨k1, k2, k3, k4⟩ := sub b a hb hs
          simp [Rect.area, max_eq_right k1, min_eq_right k2, max_eq_right k3, min_eq_right k4]
      · rfl
/-- **C16** what is missing for the area: a rectangle that sticks out by less than `1e-6` counts as inside. -/
theorem C16_area_counterexample : ∃ a b : Rect ℚ, a.Valid ∧ b.Valid ∧
    (∀ p, (⟨0, 1, 0, 1⟩ : Rect ℚ).Mem p ↔ a.Mem p ∧ b.Mem p) ∧ a.intersectionArea b ≠ 1 := by
  refine ⟨⟨0, 1 + 1 / 10 ^ 6, 0, 1⟩, ⟨0, 1, 0, 3⟩, by unfold Rect.Valid; norm_num, by unfold Rect.Valid; norm_num, ?_, by decide +kernel⟩
  intro p
  simp only [Rect.Mem]
  constructor
  · rintro ⟨h1, h2, h3, h4⟩; norm_num; exact ⟨⟨h1, by linarith, h3, h4⟩, h1, h2, h3, by linarith⟩
  · rintro ⟨⟨h1, h2, h3, h4⟩, h5, h6, h7, h8⟩; exact ⟨h1, h6, h3, h4⟩
example : (⟨0, 2, 0, 2⟩ : Rect ℚ).intersectionArea ⟨1, 3, 1, 3⟩ = 1 ∧
    (⟨0, 2, 0, 2⟩ : Rect ℚ).isInside ⟨1, 3, 1, 3⟩ = false ∧
    (⟨1, 3, 1, 3⟩ : Rect ℚ).isInside ⟨0, 2, 0, 2⟩ = false := by decide +kernel

/-- **C16** `scale`: same centre and every size multiplied by the factor. -/
theorem C16_scale (b : Box3 K) (k : K) : (b.scale k).center = b.center ∧
    (b.scale k).xmax - (b.scale k).xmin = k * (b.xmax - b.xmin) ∧
    (b.scale k).ymax - (b.scale k).ymin = k * (b.ymax - b.ymin) ∧
    (b.scale k).zmax - (b.scale k).zmin = k * (b.zmax - b.zmin) := by
  refine ⟨?_, ?_, ?_, ?_⟩
  · ext <;> simp [Box3.scale, Box3.center, Box3.size] <;> ring
  all_goals simp [Box3.scale, Box3.size]; ring
end

/-! ## C17 octree -/
section
variable {K : Type*} [Field K] [LinearOrder K] [IsStrictOrderedRing K]

theorem Box3.octree_eq (b : Box3 K) : b.octree =
    let mx := (b.xmin + b.xmax) / 2
    let my := (b.ymin + b.ymax) / 2
    let mz := (b.zmin + b.zmax) / 2
    [⟨b.xmin, mx, b.ymin, my, b.zmin, mz⟩, ⟨mx, b.xmax, b.ymin, my, b.zmin, mz⟩,
     ⟨b.xmin, mx, my, b.ymax, b.zmin, mz⟩, ⟨mx, b.xmax, my, b.ymax, b.zmin, mz⟩,
     ⟨b.xmin, mx, b.ymin, my, mz, b.zmax⟩, ⟨mx, b.xmax, b.ymin, my, mz, b.zmax⟩,
     ⟨b.xmin, mx, my, b.ymax, mz, b.zmax⟩, ⟨mx, b.xmax, my, b.ymax, mz, b.zmax⟩] := by
  simp only [Box3.octree, Box3.getPointsInsideBbox, Box3.center, Box3.size, List.range_succ, List.range_zero,
    List.nil_append, List.flatMap_cons, List.flatMap_nil, List.map_append, List.map_cons, List.map_nil,
    List.append_nil, List.cons_append, List.map_nil]
  simp only [List.cons.injEq, Box3.mk.injEq, V3.add_x, V3.add_y, V3.add_z, V3.neg_x, V3.neg_y, V3.neg_z, and_true]
  push_cast
  refine ⟨⟨?_, ?_, ?_, ?_, ?_, ?_⟩, ⟨?_, ?_, ?_, ?_, ?_, ?_⟩, ⟨?_, ?_, ?_, ?_, ?_, ?_⟩, ⟨?_, ?_, ?_, ?_, ?_, ?_⟩,
    ⟨?_, ?_, ?_, ?_, ?_, ?_⟩, ⟨?_, ?_, ?_, ?_, ?_, ?_⟩, ⟨?_, ?_, ?_, ?_, ?_, ?_⟩, ⟨?_, ?_, ?_, ?_, ?_, ?_⟩⟩ <;> ring

/-- **C17** The octree of a valid box: eight valid boxes, each included in the box, covering it, with
pairwise disjoint interiors, and volumes adding up to the volume. -/
theorem C17_octree_partition (b : Box3 K) (hb : b.Valid) :
    b.octree.length = 8 ∧
    (∀ o ∈ b.octree, o.Valid ∧ o.Subset b) ∧
    (∀ p, b.Mem p → ∃ o ∈ b.octree, o.Mem p) ∧
    (b.octree.Pairwise fun o o' => ∀ p, ¬ (o.Interior p ∧ o'.Interior p)) ∧
    (b.octree.map Box3.volume).sum = b.volume := by
  obtain ⟨hx, hy, hz⟩ := hb
  rw [Box3.octree_eq]
  dsimp only
  obtain ⟨mx, hmx⟩ : ∃ m, m = (b.xmin + b.xmax) / 2 := ⟨_, rfl⟩
  obtain ⟨my, hmy⟩ : ∃ m, m = (b.ymin + b.ymax) / 2 := ⟨_, rfl⟩
  obtain ⟨mz, hmz⟩ : ∃ m, m = (b.zmin + b.zmax) / 2 := ⟨_, rfl⟩
  have x1 : b.xmin ≤ mx := by rw [hmx]; linarith
  have x2 : mx ≤ b.xmax := by rw [hmx]; linarith
  have y1 : b.ymin ≤ my := by rw [hmy]; linarith
  have y2 : my ≤ b.ymax := by rw [hmy]; linarith
  have z1 : b.zmin ≤ mz := by rw [hmz]; linarith
  have z2 : mz ≤ b.zmax := by rw [hmz]; linarith
  rw [← hmx, ← hmy, ← hmz]
  refine ⟨rfl, ?_, ?_, ?_, ?_⟩
  · intro o ho
    have hv : o.Valid := by
      simp only [List.mem_cons, List.not_mem_nil, or_false] at ho
      rcases ho with rfl | rfl | rfl | rfl | rfl | rfl | rfl | rfl <;> exact ⟨by assumption, by assumption, by assumption⟩
    refine ⟨hv, ?_⟩
    rw [Box3.subset_iff hv]
    simp only [List.mem_cons, List.not_mem_nil, or_false] at ho
    rcases ho with rfl | rfl | rfl | rfl | rfl | rfl | rfl | rfl <;>
      exact ⟨by first | assumption | exact le_rfl, by first | assumption | exact le_rfl, by first | assumption | exact le_rfl,
        by first | assumption | exact le_rfl, by first | assumption | exact le_rfl, by first | assumption | exact le_rfl⟩
  · rintro p ⟨h1, h2, h3, h4, h5, h6⟩
    simp only [List.mem_cons, List.not_mem_nil, or_false, exists_eq_or_imp, exists_eq_left, Box3.Mem]
    rcases le_total p.x mx with a | a <;> rcases le_total p.y my with c | c <;> rcases le_total p.z mz with d | d
    · exact Or.inl ⟨h1, a, h3, c, h5, d⟩
    · exact Or.inr (Or.inr (Or.inr (Or.inr (Or.inl ⟨h1, a, h3, c, d, h6⟩))))
    · exact Or.inr (Or.inr (Or.inl ⟨h1, a, c, h4, h5, d⟩))
    · exact Or.inr (Or.inr (Or.inr (Or.inr (Or.inr (Or.inr (Or.inl ⟨h1, a, c, h4, d, h6⟩))))))
    · exact Or.inr (Or.inl ⟨a, h2, h3, c, h5, d⟩)
    · exact Or.inr (Or.inr (Or.inr (Or.inr (Or.inr (Or.inl ⟨a, h2, h3, c, d, h6⟩)))))
    · exact Or.inr (Or.inr (Or.inr (Or.inl ⟨a, h2, c, h4, h5, d⟩)))
    · exact Or.inr (Or.inr (Or.inr (Or.inr (Or.inr (Or.inr (Or.inr (⟨a, h2, c, h4, d, h6⟩)))))))
  · simp only [List.pairwise_cons, List.mem_cons, List.not_mem_nil, or_false, forall_eq_or_imp, forall_eq,
      Box3.Interior]
    refine ⟨?_, ?_, ?_, ?_, ?_, ?_, ?_, ?_, ?_⟩ <;> (try simp only [List.Pairwise.nil, IsEmpty.forall_iff, implies_true]) <;>
      (try refine ⟨?_, ?_, ?_, ?_, ?_, ?_, ?_⟩) <;> (try refine ⟨?_, ?_, ?_, ?_, ?_, ?_⟩) <;>
      (try refine ⟨?_, ?_, ?_, ?_, ?_⟩) <;> (try refine ⟨?_, ?_, ?_, ?_⟩) <;> (try refine ⟨?_, ?_, ?_⟩) <;>
      (try refine ⟨?_, ?_⟩) <;> rintro p ⟨⟨q1, q2, q3, q4, q5, q6⟩, w1, w2, w3, w4, w5, w6⟩ <;> linarith
  · simp only [List.map_cons, List.map_nil, List.sum_cons, List.sum_nil, Box3.volume]
    ring
example : (⟨0, 2, 0, 4, -1, 1⟩ : Box3 ℚ).octree.length = 8 := by decide
end
end Volmdlr
