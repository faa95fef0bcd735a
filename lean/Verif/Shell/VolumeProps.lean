import Verif.Shell.Model
import Verif.Tri.AreaProps
import Verif.BBox.Props
import Mathlib.Algebra.BigOperators.Group.List.Basic
import Mathlib.Algebra.Order.BigOperators.Group.List

/-!
# Volume of a closed shell (C103)
-/

namespace Volmdlr.Shells

section
variable {K : Type*} [Field K] [LinearOrder K] [IsStrictOrderedRing K]

/-- Six times the signed volume of the tetrahedron from `o` to a triangle (specification). -/
def det (o : V3 K) (t : V3 K × V3 K × V3 K) : K := V3.dot (V3.cross (t.1 - o) (t.2.1 - o)) (t.2.2 - o)

/-- The signed volume enclosed by the triangles, seen from `o` (specification). -/
def signedVolume (o : V3 K) (tris : List (V3 K × V3 K × V3 K)) : K := (tris.map (det o)).sum / 6

/-- The sides of the triangles, with the way in which they are run (specification). -/
def sides (tris : List (V3 K × V3 K × V3 K)) : List (V3 K × V3 K) := tris.flatMap fun t => [(t.1, t.2.1), (t.2.1, t.2.2), (t.2.2, t.1)]

/-- A closed surface with an orientation: every side is run as many times one way as the other (specification). -/
def ClosedSurface (tris : List (V3 K × V3 K × V3 K)) : Prop := ((sides tris).map Prod.swap).Perm (sides tris)

lemma antisym_sum {α : Type*} (f : α × α → K) (hf : ∀ p, f p.swap = -f p) (l : List (α × α)) (h : (l.map Prod.swap).Perm l) : (l.map f).sum = 0 := by
  have e := (h.map f).sum_eq
  rw [List.map_map] at e
  have : (l.map (f ∘ Prod.swap)).sum = -(l.map f).sum := by
    clear h e
    induction l with
    | nil => simp
    | cons a l ih => simp only [List.map_cons, List.sum_cons, ih, Function.comp, hf]; ring
  rw [this] at e
  linarith

lemma det_shift (o o' : V3 K) (t : V3 K × V3 K × V3 K) :
    det o t = det o' t + (V3.dot (o' - o) (V3.cross (t.1 - o') (t.2.1 - o')) + V3.dot (o' - o) (V3.cross (t.2.1 - o') (t.2.2 - o')) +
      V3.dot (o' - o) (V3.cross (t.2.2 - o') (t.1 - o'))) := by
  simp only [det, V3.dot, V3.cross, V3.sub_x, V3.sub_y, V3.sub_z]; ring

/-- C103: the signed volume enclosed by a closed surface does not depend on the point from which it is measured (it is a number of the surface). -/
theorem C103_signed_volume (tris : List (V3 K × V3 K × V3 K)) (h : ClosedSurface tris) (o o' : V3 K) : signedVolume o tris = signedVolume o' tris := by
  unfold signedVolume
  congr 1
  have hz := antisym_sum (fun p : V3 K × V3 K => V3.dot (o' - o) (V3.cross (p.1 - o') (p.2 - o')))
    (fun p => by simp only [Prod.fst_swap, Prod.snd_swap, V3.dot, V3.cross, V3.sub_x, V3.sub_y, V3.sub_z]; ring) (sides tris) h
  have key : ∀ l : List (V3 K × V3 K × V3 K), (l.map (det o)).sum = (l.map (det o')).sum +
      ((sides l).map (fun p : V3 K × V3 K => V3.dot (o' - o) (V3.cross (p.1 - o') (p.2 - o')))).sum := by
    intro l
    induction l with
    | nil => simp [sides]
    | cons t l ih =>
      have e : sides (t :: l) = [(t.1, t.2.1), (t.2.1, t.2.2), (t.2.2, t.1)] ++ sides l := by simp [sides]
      rw [e, List.map_append, List.sum_append, List.map_cons, List.map_cons, List.sum_cons, List.sum_cons, ih, det_shift o o' t]
      simp only [List.map_cons, List.map_nil, List.sum_cons, List.sum_nil]
      ring
  rw [key tris, hz, add_zero]

lemma tetra_eq (c : V3 K) (t : V3 K × V3 K × V3 K) : tetraVolume c t = |det c t| / 6 := by
  unfold tetraVolume det
  simp only [V3.dot, V3.cross, V3.sub_x, V3.sub_y, V3.sub_z]
  rw [div_mul_eq_mul_div, one_mul]
  congr 2
  ring

lemma foldl_add (f : V3 K × V3 K × V3 K → K) (l : List (V3 K × V3 K × V3 K)) (a : K) : l.foldl (fun v t => v + f t) a = a + (l.map f).sum := by
  induction l generalizing a with
  | nil => simp
  | cons t l ih => rw [List.foldl_cons, ih, List.map_cons, List.sum_cons]; ring

lemma volume_eq (box : Box3 K) (tris : List (V3 K × V3 K × V3 K)) : volume box tris = (tris.map fun t => |det (boxCenter box) t|).sum / 6 := by
  unfold volume
  rw [foldl_add, zero_add]
  have e : (tris.map fun t => tetraVolume (boxCenter box) t).sum = (tris.map fun t => |det (boxCenter box) t|).sum / 6 := by
    induction tris with
    | nil => simp
    | cons t l ih => rw [List.map_cons, List.map_cons, List.sum_cons, List.sum_cons, ih, tetra_eq]; ring
  rw [e, abs_of_nonneg]
  refine div_nonneg (List.sum_nonneg ?_) (by norm_num)
  intro x hx
  obtain ⟨t, -, rfl⟩ := List.mem_map.1 hx
  exact abs_nonneg _

lemma sum_abs_spec (l : List K) : |l.sum| ≤ (l.map abs).sum ∧ ((l.map abs).sum = |l.sum| ↔ (∀ x ∈ l, 0 ≤ x) ∨ ∀ x ∈ l, x ≤ 0) := by
  have h1 : ∀ l : List K, l.sum ≤ (l.map abs).sum ∧ ((l.map abs).sum = l.sum ↔ ∀ x ∈ l, 0 ≤ x) := by
    intro l
    induction l with
    | nil => simp
    | cons a l ih =>
      simp only [List.map_cons, List.sum_cons, List.forall_mem_cons]
      refine ⟨by linarith [le_abs_self a, ih.1], ?_⟩
      constructor
      · intro h
        have : |a| = a := by linarith [le_abs_self a, ih.1]
        exact ⟨abs_eq_self.1 this, ih.2.1 (by linarith)⟩
      · rintro ⟨h, h'⟩
        rw [abs_of_nonneg h, ih.2.2 h']
  have h2 : ∀ l : List K, -l.sum ≤ (l.map abs).sum ∧ ((l.map abs).sum = -l.sum ↔ ∀ x ∈ l, x ≤ 0) := by
    intro l
    have := h1 (l.map Neg.neg)
    rw [List.map_map, ← List.sum_neg] at this
    have e : (abs ∘ Neg.neg : K → K) = abs := by funext x; simp
    rw [e] at this
    refine ⟨this.1, this.2.trans ?_⟩
    simp only [List.forall_mem_map, Left.nonneg_neg_iff]
  refine ⟨abs_le.2 ⟨by linarith [(h2 l).1], (h1 l).1⟩, ?_⟩
  constructor
  · intro h
    rcases abs_choice l.sum with e | e <;> rw [e] at h
    · exact Or.inl ((h1 l).2.1 h)
    · exact Or.inr ((h2 l).2.1 h)
  · rintro (h | h)
    · rw [(h1 l).2.2 h, abs_of_nonneg (List.sum_nonneg h)]
    · rw [(h2 l).2.2 h, abs_of_nonpos]
      have : 0 ≤ -l.sum := by rw [← (h2 l).2.2 h]; exact List.sum_nonneg (by intro x hx; obtain ⟨y, -, rfl⟩ := List.mem_map.1 hx; exact abs_nonneg _)
      linarith

/-- C103: `volume` is never less than the volume enclosed by a closed surface, and is that volume exactly when, seen from the center of the bounding box,
all the triangles are run the same way.  Missing: the other surfaces, see `C103_volume_counterexample`. -/
theorem C103_volume_partial (box : Box3 K) (tris : List (V3 K × V3 K × V3 K)) (h : ClosedSurface tris) (o : V3 K) :
    |signedVolume o tris| ≤ volume box tris ∧
    (volume box tris = |signedVolume o tris| ↔ (∀ t ∈ tris, 0 ≤ det (boxCenter box) t) ∨ ∀ t ∈ tris, det (boxCenter box) t ≤ 0) := by
  rw [C103_signed_volume tris h o (boxCenter box), volume_eq]
  unfold signedVolume
  obtain ⟨k1, k2⟩ := sum_abs_spec (tris.map (det (boxCenter box)))
  rw [List.map_map] at k1 k2
  simp only [List.forall_mem_map] at k2
  have e : (abs ∘ det (boxCenter box) : V3 K × V3 K × V3 K → K) = fun t => |det (boxCenter box) t| := rfl
  rw [e] at k1 k2
  rw [abs_div, abs_of_pos (show (0 : K) < 6 by norm_num)]
  refine ⟨by gcongr, ?_⟩
  rw [← k2, div_left_inj' (by norm_num)]

/-- C103: neither the order of the triangles nor the way in which each of them is run changes the volume. -/
theorem C103_order (box : Box3 K) (tris tris' : List (V3 K × V3 K × V3 K)) (h : tris.Perm tris') (rev : V3 K × V3 K × V3 K → Bool) :
    volume box (tris'.map fun t => if rev t then (t.2.2, t.2.1, t.1) else t) = volume box tris := by
  rw [volume_eq, volume_eq, List.map_map]
  congr 1
  rw [(h.map fun t => |det (boxCenter box) t|).sum_eq]
  congr 1
  apply List.map_congr_left
  intro t _
  simp only [Function.comp]
  cases rev t
  · simp
  · simp only [if_true]
    have : det (boxCenter box) (t.2.2, t.2.1, t.1) = -det (boxCenter box) t := by
      simp only [det, V3.dot, V3.cross, V3.sub_x, V3.sub_y, V3.sub_z]; ring
    rw [this, abs_neg]

/-! ## Movements -/

lemma listMin_add (a d : K) (l : List K) : listMin (a + d) (l.map (· + d)) = listMin a l + d := by
  unfold listMin
  induction l generalizing a with
  | nil => rfl
  | cons b l ih => rw [List.map_cons, List.foldl_cons, List.foldl_cons, min_add_add_right, ih]

lemma listMax_add (a d : K) (l : List K) : listMax (a + d) (l.map (· + d)) = listMax a l + d := by
  unfold listMax
  induction l generalizing a with
  | nil => rfl
  | cons b l ih => rw [List.map_cons, List.foldl_cons, List.foldl_cons, max_add_add_right, ih]

/-- A triangle moved by a vector. -/
def moved (d : V3 K) (t : V3 K × V3 K × V3 K) : V3 K × V3 K × V3 K := (V3.translation t.1 d, V3.translation t.2.1 d, V3.translation t.2.2 d)

/-- C103: moving a triangle shell by any vector keeps its volume; only the empty shell has none. -/
theorem C103_translation (tris : List (V3 K × V3 K × V3 K)) (d : V3 K) :
    triangleShellVolume (tris.map (moved d)) = triangleShellVolume tris ∧ (tris ≠ [] → ∃ v, triangleShellVolume tris = .ok v ∧ 0 ≤ v) := by
  constructor
  · unfold triangleShellVolume triangleShellBox
    have e : (tris.map (moved d)).flatMap (fun t => [t.1, t.2.1, t.2.2]) = (tris.flatMap fun t => [t.1, t.2.1, t.2.2]).map fun p => V3.translation p d := by
      rw [List.flatMap_map, List.map_flatMap]; rfl
    rw [e]
    cases hp : tris.flatMap fun t => [t.1, t.2.1, t.2.2] with
    | nil => rfl
    | cons p ps =>
      rw [List.map_cons]
      simp only [Box3.fromPoints, Except.map]
      congr 1
      rw [List.map_map, List.map_map, List.map_map]
      have ex : (ps.map (V3.x ∘ fun p => V3.translation p d)) = (ps.map V3.x).map (· + d.x) := by rw [List.map_map]; rfl
      have ey : (ps.map (V3.y ∘ fun p => V3.translation p d)) = (ps.map V3.y).map (· + d.y) := by rw [List.map_map]; rfl
      have ez : (ps.map (V3.z ∘ fun p => V3.translation p d)) = (ps.map V3.z).map (· + d.z) := by rw [List.map_map]; rfl
      rw [ex, ey, ez]
      simp only [show (V3.translation p d).x = p.x + d.x from rfl, show (V3.translation p d).y = p.y + d.y from rfl,
        show (V3.translation p d).z = p.z + d.z from rfl, listMin_add, listMax_add]
      rw [volume_eq, volume_eq, List.map_map]
      congr 2
      apply List.map_congr_left
      intro t _
      simp only [Function.comp]
      congr 1
      simp only [det, moved, boxCenter, V3.translation, V3.dot, V3.cross, V3.sub_x, V3.sub_y, V3.sub_z, V3.add_x, V3.add_y, V3.add_z]
      ring
  · intro hne
    obtain ⟨t, l, rfl⟩ := List.exists_cons_of_ne_nil hne
    unfold triangleShellVolume triangleShellBox
    rw [List.flatMap_cons]
    exact ⟨_, rfl, abs_nonneg _⟩

/-- Full statement: the volume of a closed triangle shell is the volume its triangles enclose. -/
def C103_volume_full_statement (K : Type*) [Field K] [LinearOrder K] [IsStrictOrderedRing K] : Prop :=
  ∀ tris : List (V3 K × V3 K × V3 K), tris ≠ [] → ClosedSurface tris → triangleShellVolume tris = .ok |signedVolume ⟨0, 0, 0⟩ tris|

end

/-- The corner of a cube: a tetrahedron of three orthogonal sides. -/
def corner : List (V3 ℚ × V3 ℚ × V3 ℚ) :=
  [(⟨0, 0, 0⟩, ⟨0, 1, 0⟩, ⟨1, 0, 0⟩), (⟨0, 0, 0⟩, ⟨0, 0, 1⟩, ⟨0, 1, 0⟩), (⟨0, 0, 0⟩, ⟨1, 0, 0⟩, ⟨0, 0, 1⟩), (⟨1, 0, 0⟩, ⟨0, 1, 0⟩, ⟨0, 0, 1⟩)]

lemma corner_closed : ClosedSurface corner := by unfold ClosedSurface; decide +kernel

/-- C103: the tetrahedron of corners (0, 0, 0), (1, 0, 0), (0, 1, 0) and (0, 0, 1), which is convex, has a volume of one sixth; `volume` gives one third:
the center of its bounding box is outside. -/
theorem C103_volume_counterexample : ¬C103_volume_full_statement ℚ := by
  intro h
  have h1 := h corner (by decide) corner_closed
  have h2 : triangleShellVolume corner = .ok (1 / 3) := by decide +kernel
  have h3 : |signedVolume ⟨0, 0, 0⟩ corner| = 1 / 6 := by decide +kernel
  rw [h2, h3] at h1
  exact absurd (Except.ok.inj h1) (by norm_num)

/-- A square pyramid. -/
def pyramid : List (V3 ℚ × V3 ℚ × V3 ℚ) :=
  [(⟨-1, -1, 0⟩, ⟨-1, 1, 0⟩, ⟨1, 1, 0⟩), (⟨-1, -1, 0⟩, ⟨1, 1, 0⟩, ⟨1, -1, 0⟩), (⟨-1, -1, 0⟩, ⟨1, -1, 0⟩, ⟨0, 0, 3⟩), (⟨1, -1, 0⟩, ⟨1, 1, 0⟩, ⟨0, 0, 3⟩),
   (⟨1, 1, 0⟩, ⟨-1, 1, 0⟩, ⟨0, 0, 3⟩), (⟨-1, 1, 0⟩, ⟨-1, -1, 0⟩, ⟨0, 0, 3⟩)]

/-- Non-vacuity: a closed surface whose triangles are all run the same way, seen from the center of its box; its volume is four. -/
example : ClosedSurface pyramid ∧ (∀ t ∈ pyramid, 0 ≤ det (boxCenter ⟨-1, 1, -1, 1, 0, 3⟩) t) ∧ triangleShellVolume pyramid = .ok 4 := by
  refine ⟨?_, ?_, ?_⟩
  · unfold ClosedSurface; decide +kernel
  · decide +kernel
  · decide +kernel

/-! ## Boxes -/

open Triangles in
lemma face_abs (n p : V3 ℝ) (t : Tri) (c : V3 ℝ) (hn : V3.dot n n = 1) (h1 : V3.dot n (t.1 - p) = 0) (h2 : V3.dot n (t.2.1 - p) = 0)
    (h3 : V3.dot n (t.2.2 - p) = 0) : |det c t| = 2 * area t * |V3.dot n (p - c)| := by
  -- the cross product is along n
  obtain ⟨k, hk⟩ : ∃ k, k = V3.dot n (areaVector t) := ⟨_, rfl⟩
  have hx : areaVector t = V3.smul k n := by
    have e : V3.cross n (areaVector t) = ⟨0, 0, 0⟩ := by
      have a : V3.dot n (t.2.1 - t.1) = 0 := by simp only [V3.dot, V3.sub_x, V3.sub_y, V3.sub_z] at *; linarith
      have b : V3.dot n (t.2.2 - t.1) = 0 := by simp only [V3.dot, V3.sub_x, V3.sub_y, V3.sub_z] at *; linarith
      unfold areaVector
      generalize t.2.1 - t.1 = u at a
      generalize t.2.2 - t.1 = v at b
      simp only [V3.dot] at a b
      ext <;> simp only [V3.cross]
      · linear_combination u.x * b - v.x * a
      · linear_combination u.y * b - v.y * a
      · linear_combination u.z * b - v.z * a
    generalize areaVector t = w at *
    have x := congrArg V3.x e
    have y := congrArg V3.y e
    have z := congrArg V3.z e
    simp only [V3.cross, V3.dot] at x y z hn hk
    ext <;> simp only [V3.smul_x, V3.smul_y, V3.smul_z] <;> rw [hk]
    · linear_combination -w.x * hn + n.z * y - n.y * z
    · linear_combination -w.y * hn - n.z * x + n.x * z
    · linear_combination -w.z * hn + n.y * x - n.x * y
  have hd : det c t = V3.dot (areaVector t) (t.1 - c) := by
    simp only [det, areaVector, V3.dot, V3.cross, V3.sub_x, V3.sub_y, V3.sub_z]; ring
  have ha : 2 * area t = |k| := by
    have : V3.norm (areaVector t) = |k| := by
      refine (sq_eq_sq₀ (V3.norm_nonneg _) (abs_nonneg _)).1 ?_
      rw [V3.norm_pow_two, hx, sq_abs]
      simp only [V3.dot, V3.smul_x, V3.smul_y, V3.smul_z] at *
      linear_combination k ^ 2 * hn
    rw [C99_area]
    change 2 * (V3.norm (areaVector t) / 2) = _
    rw [this]; ring
  rw [hd, ha, hx, ← abs_mul]
  congr 1
  simp only [V3.dot, V3.smul_x, V3.smul_y, V3.smul_z, V3.sub_x, V3.sub_y, V3.sub_z] at *
  linear_combination k * h1

/-- A list of triangles of a plane, orthogonal to the unit vector `n` and through `p`, of total area `s` (specification). -/
def Tiles (l : List Triangles.Tri) (n p : V3 ℝ) (s : ℝ) : Prop :=
  (∀ t ∈ l, V3.dot n (t.1 - p) = 0 ∧ V3.dot n (t.2.1 - p) = 0 ∧ V3.dot n (t.2.2 - p) = 0) ∧ (l.map Triangles.area).sum = s

lemma tiles_sum {l : List Triangles.Tri} {n p : V3 ℝ} {s : ℝ} (hn : V3.dot n n = 1) (h : Tiles l n p s) (c : V3 ℝ) :
    (l.map fun t => |det c t|).sum = 2 * s * |V3.dot n (p - c)| := by
  rw [← h.2]
  have h1 := h.1
  clear h
  induction l with
  | nil => simp
  | cons t l ih =>
    simp only [List.map_cons, List.sum_cons]
    rw [ih (fun u hu => h1 u (List.mem_cons_of_mem _ hu))]
    obtain ⟨a, b, d⟩ := h1 t List.mem_cons_self
    rw [face_abs n p t c hn a b d]
    ring

/-- C103: whatever the triangles into which the six faces of a box are cut, the volume is the product of the three lengths. -/
theorem C103_box (b : Box3 ℝ) (hx : b.xmin ≤ b.xmax) (hy : b.ymin ≤ b.ymax) (hz : b.zmin ≤ b.zmax) (l1 l2 l3 l4 l5 l6 : List Triangles.Tri)
    (h1 : Tiles l1 ⟨1, 0, 0⟩ ⟨b.xmin, b.ymin, b.zmin⟩ ((b.ymax - b.ymin) * (b.zmax - b.zmin)))
    (h2 : Tiles l2 ⟨1, 0, 0⟩ ⟨b.xmax, b.ymin, b.zmin⟩ ((b.ymax - b.ymin) * (b.zmax - b.zmin)))
    (h3 : Tiles l3 ⟨0, 1, 0⟩ ⟨b.xmin, b.ymin, b.zmin⟩ ((b.xmax - b.xmin) * (b.zmax - b.zmin)))
    (h4 : Tiles l4 ⟨0, 1, 0⟩ ⟨b.xmin, b.ymax, b.zmin⟩ ((b.xmax - b.xmin) * (b.zmax - b.zmin)))
    (h5 : Tiles l5 ⟨0, 0, 1⟩ ⟨b.xmin, b.ymin, b.zmin⟩ ((b.xmax - b.xmin) * (b.ymax - b.ymin)))
    (h6 : Tiles l6 ⟨0, 0, 1⟩ ⟨b.xmin, b.ymin, b.zmax⟩ ((b.xmax - b.xmin) * (b.ymax - b.ymin))) :
    volume b (l1 ++ l2 ++ l3 ++ l4 ++ l5 ++ l6) = (b.xmax - b.xmin) * (b.ymax - b.ymin) * (b.zmax - b.zmin) := by
  rw [volume_eq]
  simp only [List.map_append, List.sum_append]
  rw [tiles_sum (by simp [V3.dot]) h1, tiles_sum (by simp [V3.dot]) h2, tiles_sum (by simp [V3.dot]) h3, tiles_sum (by simp [V3.dot]) h4,
    tiles_sum (by simp [V3.dot]) h5, tiles_sum (by simp [V3.dot]) h6]
  simp only [V3.dot, boxCenter, V3.sub_x, V3.sub_y, V3.sub_z, zero_mul, one_mul, zero_add, add_zero]
  have e1 : |b.xmin - 1 / 2 * (b.xmin + b.xmax)| = (b.xmax - b.xmin) / 2 := by rw [abs_of_nonpos (by linarith)]; ring
  have e2 : |b.xmax - 1 / 2 * (b.xmin + b.xmax)| = (b.xmax - b.xmin) / 2 := by rw [abs_of_nonneg (by linarith)]; ring
  have e3 : |b.ymin - 1 / 2 * (b.ymin + b.ymax)| = (b.ymax - b.ymin) / 2 := by rw [abs_of_nonpos (by linarith)]; ring
  have e4 : |b.ymax - 1 / 2 * (b.ymin + b.ymax)| = (b.ymax - b.ymin) / 2 := by rw [abs_of_nonneg (by linarith)]; ring
  have e5 : |b.zmin - 1 / 2 * (b.zmin + b.zmax)| = (b.zmax - b.zmin) / 2 := by rw [abs_of_nonpos (by linarith)]; ring
  have e6 : |b.zmax - 1 / 2 * (b.zmin + b.zmax)| = (b.zmax - b.zmin) / 2 := by rw [abs_of_nonneg (by linarith)]; ring
  rw [e1, e2, e3, e4, e5, e6]
  ring

/-- Non-vacuity of `Tiles`: the face `x = 0` of the box of sides one, two and four, cut along a diagonal. -/
example : Tiles [(⟨0, 0, 0⟩, ⟨0, 2, 0⟩, ⟨0, 2, 4⟩), (⟨0, 0, 0⟩, ⟨0, 2, 4⟩, ⟨0, 0, 4⟩)] ⟨1, 0, 0⟩ ⟨0, 0, 0⟩ ((2 - 0) * (4 - 0)) := by
  constructor
  · simp [V3.dot]
  · simp only [List.map_cons, List.map_nil, List.sum_cons, List.sum_nil, Triangles.C99_area]
    have a1 : V3.cross ((⟨0, 2, 0⟩ : V3 ℝ) - ⟨0, 0, 0⟩) ((⟨0, 2, 4⟩ : V3 ℝ) - ⟨0, 0, 0⟩) = ⟨8, 0, 0⟩ := by ext <;> simp [V3.cross] <;> norm_num
    have a2 : V3.cross ((⟨0, 2, 4⟩ : V3 ℝ) - ⟨0, 0, 0⟩) ((⟨0, 0, 4⟩ : V3 ℝ) - ⟨0, 0, 0⟩) = ⟨8, 0, 0⟩ := by ext <;> simp [V3.cross] <;> norm_num
    rw [a1, a2]
    have : V3.norm (⟨8, 0, 0⟩ : V3 ℝ) = 8 := by
      unfold V3.norm
      rw [show (8 : ℝ) * 8 + 0 * 0 + 0 * 0 = 8 ^ 2 by norm_num, Real.sqrt_sq (by norm_num)]
    rw [this]; norm_num

end Volmdlr.Shells
