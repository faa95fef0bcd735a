import Verif.Mesh.Model
import Mathlib.Tactic.Ring
import Mathlib.Tactic.Linarith
import Mathlib.Algebra.Order.BigOperators.Group.List
import Mathlib.Data.List.GetD

/-!
# C29–C32: meshes

Specification vocabulary: a mesh is *valid* when every triangle index is in range, its *geometric triangles*
are the triples of vertex rows.
-/

namespace Volmdlr
section
variable {K : Type*} [Field K] [LinearOrder K]

/-! ### specification -/

/-- Every triangle refers to existing vertices. -/
def Mesh.Valid (m : Mesh K) : Prop :=
  ∀ t ∈ m.triangles, t.1 < m.vertices.length ∧ t.2.1 < m.vertices.length ∧ t.2.2 < m.vertices.length

/-- The row of vertex `i`. -/
def Mesh.row (m : Mesh K) (i : ℕ) : List K := m.vertices.getD i []

/-- The geometric triangles, in order. -/
def Mesh.geom (m : Mesh K) : List (List K × List K × List K) :=
  m.triangles.map fun t => (m.row t.1, m.row t.2.1, m.row t.2.2)

/-- Two geometric triangles with the same three corners, in any order. -/
def SameTri (s t : List K × List K × List K) : Prop := [s.1, s.2.1, s.2.2].Perm [t.1, t.2.1, t.2.2]

/-- Three pairwise different corners. -/
def NonDegenerate (t : List K × List K × List K) : Prop := t.1 ≠ t.2.1 ∧ t.2.1 ≠ t.2.2 ∧ t.1 ≠ t.2.2

/-- The model of `triangles_vertices` agrees with `geom` on valid meshes. -/
theorem trianglesVertices_eq (m : Mesh K) (h : m.Valid) :
    m.trianglesVertices = m.geom.map fun g => (some g.1, some g.2.1, some g.2.2) := by
  unfold Mesh.trianglesVertices Mesh.geom
  rw [List.map_map]
  apply List.map_congr_left
  intro t ht
  obtain ⟨a, b, c⟩ := h t ht
  simp [Mesh.row, List.getD, a, b, c]

/-! ### `np.unique` -/

section unique
variable {α : Type*} [LinearOrder α]

theorem npUnique_nil : npUnique ([] : List α) = [] := rfl
theorem npUnique_cons (a : α) (l : List α) :
    npUnique (a :: l) = if a ∈ npUnique l then npUnique l else (npUnique l).orderedInsert (· ≤ ·) a := rfl

theorem mem_npUnique (a : α) (l : List α) : a ∈ npUnique l ↔ a ∈ l := by
  induction l with
  | nil => simp [npUnique_nil]
  | cons b l ih =>
    rw [npUnique_cons]
    split_ifs with h
    · rw [ih, List.mem_cons]
      constructor
      · exact Or.inr
      · rintro (rfl | h')
        · exact ih.1 h
        · exact h'
    · rw [List.mem_orderedInsert, ih, List.mem_cons]

theorem npUnique_sorted (l : List α) : (npUnique l).Pairwise (· < ·) := by
  induction l with
  | nil => simp [npUnique_nil]
  | cons b l ih =>
    rw [npUnique_cons]
    split_ifs with h
    · exact ih
    · have hs : ((npUnique l).orderedInsert (· ≤ ·) b).Pairwise (· ≤ ·) :=
        List.Pairwise.orderedInsert b _ (ih.imp le_of_lt)
      have hn : ((npUnique l).orderedInsert (· ≤ ·) b).Nodup := by
        rw [(List.perm_orderedInsert (· ≤ ·) b (npUnique l)).nodup_iff, List.nodup_cons]
        exact ⟨h, ih.imp ne_of_lt⟩
      exact (hs.and hn).imp fun ⟨h1, h2⟩ => lt_of_le_of_ne h1 h2

theorem npUnique_nodup (l : List α) : (npUnique l).Nodup := (npUnique_sorted l).imp ne_of_lt

theorem npUnique_of_sorted (l : List α) (h : l.Pairwise (· < ·)) : npUnique l = l := by
  have hp : (npUnique l).Perm l := by
    rw [List.perm_ext_iff_of_nodup (npUnique_nodup l) (h.imp ne_of_lt)]
    intro a; exact mem_npUnique a l
  exact hp.eq_of_pairwise (fun a b _ _ h1 h2 => absurd (h1.trans h2) (lt_irrefl _)) (npUnique_sorted l) h

end unique

theorem idxOf_getD (l : List (List K)) (hl : l.Nodup) (i : ℕ) (hi : i < l.length) : l.idxOf (l.getD i []) = i := by
  rw [List.getD_eq_getElem l [] hi]
  exact hl.idxOf_getElem i hi

theorem getD_idxOf (l : List (List K)) (a : List K) (ha : a ∈ l) : l.getD (l.idxOf a) [] = a := by
  rw [List.getD_eq_getElem l [] (List.idxOf_lt_length_of_mem ha)]
  exact List.getElem_idxOf _

theorem row_mem (m : Mesh K) (i : ℕ) (hi : i < m.vertices.length) : m.row i ∈ m.vertices := by
  unfold Mesh.row; rw [List.getD_eq_getElem _ _ hi]; exact List.getElem_mem hi

/-! ### C30: `merge_vertices` -/

/-- **C30** `merge_vertices` keeps validity and every geometric triangle, in order. -/
theorem C30_merge_vertices_geom (m : Mesh K) (h : m.Valid) :
    m.mergeVertices.Valid ∧ m.mergeVertices.geom = m.geom := by
  have key : ∀ i, i < m.vertices.length → m.row i ∈ npUnique m.vertices :=
    fun i hi => (mem_npUnique _ _).2 (row_mem m i hi)
  constructor
  · intro t ht
    unfold Mesh.mergeVertices at ht ⊢
    dsimp only at ht ⊢
    obtain ⟨s, hs, rfl⟩ := List.mem_map.1 ht
    obtain ⟨a, b, c⟩ := h s hs
    exact ⟨List.idxOf_lt_length_of_mem (key _ a), List.idxOf_lt_length_of_mem (key _ b),
      List.idxOf_lt_length_of_mem (key _ c)⟩
  · unfold Mesh.mergeVertices Mesh.geom
    dsimp only
    rw [List.map_map]
    apply List.map_congr_left
    intro t ht
    obtain ⟨a, b, c⟩ := h t ht
    dsimp only [Function.comp, Mesh.row]
    have k1 := getD_idxOf _ _ (key _ a)
    have k2 := getD_idxOf _ _ (key _ b)
    have k3 := getD_idxOf _ _ (key _ c)
    unfold Mesh.row at k1 k2 k3
    rw [k1, k2, k3]

/-- **C30** after `merge_vertices` there is no duplicate vertex, and the vertices are the same. -/
theorem C30_merge_vertices_nodup (m : Mesh K) :
    m.mergeVertices.vertices.Nodup ∧ (∀ v, v ∈ m.mergeVertices.vertices ↔ v ∈ m.vertices) :=
  ⟨npUnique_nodup _, fun v => mem_npUnique v _⟩

/-- **C30** `merge_vertices` is idempotent on valid meshes. -/
theorem C30_merge_vertices_idem (m : Mesh K) (h : m.Valid) :
    m.mergeVertices.mergeVertices = m.mergeVertices := by
  have hv := (C30_merge_vertices_geom m h).1
  set u := m.mergeVertices with hu
  have e : npUnique u.vertices = u.vertices := npUnique_of_sorted _ (by rw [hu]; exact npUnique_sorted _)
  have hn : u.vertices.Nodup := by rw [hu]; exact npUnique_nodup _
  rw [Mesh.mergeVertices]
  dsimp only
  rw [e]
  have : u.triangles.map (fun t => (u.vertices.idxOf (u.vertices.getD t.1 []), u.vertices.idxOf (u.vertices.getD t.2.1 []),
      u.vertices.idxOf (u.vertices.getD t.2.2 []))) = u.triangles := by
    conv_rhs => rw [← List.map_id u.triangles]
    apply List.map_congr_left
    intro t ht
    obtain ⟨a, b, c⟩ := hv t ht
    rw [idxOf_getD _ hn _ a, idxOf_getD _ hn _ b, idxOf_getD _ hn _ c]; rfl
  rw [this]

/-- A square cut in two triangles without shared vertices. -/
def exampleMesh : Mesh ℚ :=
  ⟨[[0, 0, 0], [1, 0, 0], [1, 1, 0], [0, 0, 0], [1, 1, 0], [0, 1, 0]], [(0, 1, 2), (3, 4, 5), (2, 0, 1), (0, 3, 1)]⟩

theorem exampleMesh_valid : exampleMesh.Valid := by
  intro t ht
  revert t
  decide +kernel

example : exampleMesh.mergeVertices =
    ⟨[[0, 0, 0], [0, 1, 0], [1, 0, 0], [1, 1, 0]], [(0, 2, 3), (0, 3, 1), (3, 0, 2), (0, 0, 2)]⟩ := by decide +kernel

/-! ### C30: `merge_triangles` -/

theorem sortTri_perm (t : ℕ × ℕ × ℕ) : (sortTri t).Perm [t.1, t.2.1, t.2.2] := List.perm_insertionSort _ _

theorem sortTri_eq_iff (s t : ℕ × ℕ × ℕ) : sortTri s = sortTri t ↔ [s.1, s.2.1, s.2.2].Perm [t.1, t.2.1, t.2.2] := by
  constructor
  · intro h
    exact (sortTri_perm s).symm.trans (h ▸ sortTri_perm t)
  · intro h
    have hp : (sortTri s).Perm (sortTri t) := (sortTri_perm s).trans (h.trans (sortTri_perm t).symm)
    exact hp.eq_of_pairwise (fun a b _ _ h1 h2 => le_antisymm h1 h2)
      (List.pairwise_insertionSort _ _) (List.pairwise_insertionSort _ _)

theorem mergeTriangles_get (m : Mesh K) (s : List ℕ) (hs : s ∈ m.triangles.map sortTri) :
    m.triangles.getD ((m.triangles.map sortTri).idxOf s) (0, 0, 0) ∈ m.triangles ∧
    sortTri (m.triangles.getD ((m.triangles.map sortTri).idxOf s) (0, 0, 0)) = s := by
  have hl := List.idxOf_lt_length_of_mem hs
  have hl' := hl
  rw [List.length_map] at hl'
  rw [List.getD_eq_getElem _ _ hl']
  refine ⟨List.getElem_mem _, ?_⟩
  have := List.getElem_idxOf hl
  rwa [List.getElem_map] at this

/-- **C30** `merge_triangles` only drops triangles, keeps one for every set of three corners that occurs, and
leaves no two triangles with the same corners. -/
theorem C30_merge_triangles (m : Mesh K) :
    m.mergeTriangles.vertices = m.vertices ∧
    (∀ t ∈ m.mergeTriangles.triangles, t ∈ m.triangles) ∧
    (∀ t ∈ m.triangles, ∃ s ∈ m.mergeTriangles.triangles, [s.1, s.2.1, s.2.2].Perm [t.1, t.2.1, t.2.2]) ∧
    m.mergeTriangles.triangles.Pairwise (fun s t => ¬ [s.1, s.2.1, s.2.2].Perm [t.1, t.2.1, t.2.2]) := by
  refine ⟨rfl, ?_, ?_, ?_⟩
  · intro t ht
    unfold Mesh.mergeTriangles at ht
    obtain ⟨s, hs, rfl⟩ := List.mem_map.1 ht
    exact (mergeTriangles_get m s ((mem_npUnique _ _).1 hs)).1
  · intro t ht
    have hm : sortTri t ∈ m.triangles.map sortTri := List.mem_map_of_mem ht
    refine ⟨m.triangles.getD ((m.triangles.map sortTri).idxOf (sortTri t)) (0, 0, 0), ?_, ?_⟩
    · unfold Mesh.mergeTriangles
      exact List.mem_map.2 ⟨sortTri t, (mem_npUnique _ _).2 hm, rfl⟩
    · rw [← sortTri_eq_iff]; exact (mergeTriangles_get m _ hm).2
  · unfold Mesh.mergeTriangles
    dsimp only
    rw [List.pairwise_map]
    have := npUnique_sorted (m.triangles.map sortTri)
    refine List.Pairwise.imp_of_mem ?_ this
    intro a b ha hb hab
    rw [← sortTri_eq_iff, (mergeTriangles_get m a ((mem_npUnique _ _).1 ha)).2,
      (mergeTriangles_get m b ((mem_npUnique _ _).1 hb)).2]
    exact ne_of_lt hab

/-- **C30** the geometric reading: same geometric triangles up to the order of the corners, mesh still valid. -/
theorem C30_merge_triangles_geom (m : Mesh K) (h : m.Valid) :
    m.mergeTriangles.Valid ∧ (∀ g ∈ m.mergeTriangles.geom, g ∈ m.geom) ∧
    ∀ g ∈ m.geom, ∃ g' ∈ m.mergeTriangles.geom, SameTri g' g := by
  obtain ⟨e, h1, h2, -⟩ := C30_merge_triangles m
  have er : ∀ i, m.mergeTriangles.row i = m.row i := fun i => rfl
  refine ⟨fun t ht => h t (h1 t ht), ?_, ?_⟩
  · intro g hg
    obtain ⟨t, ht, rfl⟩ := List.mem_map.1 hg
    exact List.mem_map.2 ⟨t, h1 t ht, rfl⟩
  · intro g hg
    obtain ⟨t, ht, rfl⟩ := List.mem_map.1 hg
    obtain ⟨s, hs, hp⟩ := h2 t ht
    refine ⟨_, List.mem_map.2 ⟨s, hs, rfl⟩, ?_⟩
    exact hp.map m.row

/-- **C30** `merge_triangles` is idempotent. -/
theorem C30_merge_triangles_idem (m : Mesh K) : m.mergeTriangles.mergeTriangles = m.mergeTriangles := by
  have e : m.mergeTriangles.triangles.map sortTri = npUnique (m.triangles.map sortTri) := by
    unfold Mesh.mergeTriangles
    dsimp only
    rw [List.map_map]
    conv_rhs => rw [← List.map_id (npUnique _)]
    apply List.map_congr_left
    intro s hs
    exact (mergeTriangles_get m s ((mem_npUnique _ _).1 hs)).2
  have e2 : npUnique (m.mergeTriangles.triangles.map sortTri) = m.mergeTriangles.triangles.map sortTri :=
    npUnique_of_sorted _ (by rw [e]; exact npUnique_sorted _)
  have hn : (m.mergeTriangles.triangles.map sortTri).Nodup := by rw [e]; exact npUnique_nodup _
  generalize m.mergeTriangles = u at *
  rw [Mesh.mergeTriangles, e2, List.map_map]
  have : u.triangles.map ((fun s => u.triangles.getD ((u.triangles.map sortTri).idxOf s) (0, 0, 0)) ∘ sortTri) =
      u.triangles := by
    apply List.ext_getElem (by simp)
    intro i h1 h2
    rw [List.getElem_map]
    dsimp only [Function.comp]
    have h3 : i < (u.triangles.map sortTri).length := by simpa using h2
    have := hn.idxOf_getElem i h3
    rw [List.getElem_map] at this
    rw [this, List.getD_eq_getElem _ _ h2]
  rw [this]

example : exampleMesh.mergeTriangles.triangles = [(0, 1, 2), (0, 3, 1), (3, 4, 5)] := by decide +kernel

/-! ### C30: `split_shared_vertices` -/

theorem flatMap3_getD {α : Type*} (l : List α) (f g h : α → List K) (i : ℕ) (hi : i < l.length) :
    (l.flatMap fun t => [f t, g t, h t]).getD (3 * i) [] = f l[i] ∧
    (l.flatMap fun t => [f t, g t, h t]).getD (3 * i + 1) [] = g l[i] ∧
    (l.flatMap fun t => [f t, g t, h t]).getD (3 * i + 2) [] = h l[i] := by
  induction l generalizing i with
  | nil => simp at hi
  | cons a l ih =>
    rw [List.flatMap_cons]
    cases i with
    | zero => exact ⟨rfl, rfl, rfl⟩
    | succ i =>
      have := ih i (by simpa using hi)
      exact this

/-- **C30** `split_shared_vertices` keeps every geometric triangle in order, gives a valid mesh in which no two
triangle corners share a vertex, and is idempotent. -/
theorem C30_split (m : Mesh K) :
    m.splitShared.Valid ∧ m.splitShared.geom = m.geom ∧ m.splitShared.vertices.length = 3 * m.triangles.length ∧
    (m.splitShared.triangles.flatMap fun t => [t.1, t.2.1, t.2.2]) = List.range (3 * m.triangles.length) ∧
    m.splitShared.splitShared = m.splitShared := by
  have hlen : m.splitShared.vertices.length = 3 * m.triangles.length := by
    unfold Mesh.splitShared
    dsimp only
    rw [List.length_flatMap]
    simp [mul_comm]
  have hval : m.splitShared.Valid := by
    intro t ht
    rw [hlen]
    unfold Mesh.splitShared at ht
    obtain ⟨i, hi, rfl⟩ := List.mem_map.1 ht
    have := List.mem_range.1 hi
    refine ⟨?_, ?_, ?_⟩ <;> dsimp only <;> omega
  have hgeom : m.splitShared.geom = m.geom := by
    apply List.ext_getElem
    · simp [Mesh.geom, Mesh.splitShared]
    · intro i h1 h2
      have hi : i < m.triangles.length := by simpa [Mesh.geom] using h2
      obtain ⟨a, b, c⟩ := flatMap3_getD m.triangles (fun t => m.vertices.getD t.1 []) (fun t => m.vertices.getD t.2.1 [])
        (fun t => m.vertices.getD t.2.2 []) i hi
      simp only [Mesh.geom, Mesh.row, Mesh.splitShared, List.getElem_map, List.getElem_range, a, b, c]
  have hr : ∀ n : ℕ, (((List.range n).map fun i => (3 * i, 3 * i + 1, 3 * i + 2)).flatMap fun t => [t.1, t.2.1, t.2.2]) =
      List.range (3 * n) := by
    intro n
    induction n with
    | zero => rfl
    | succ n ih =>
      rw [List.range_succ, List.map_append, List.flatMap_append, ih, show 3 * (n + 1) = 3 * n + 1 + 1 + 1 by ring,
        List.range_succ, List.range_succ, List.range_succ]
      simp
  refine ⟨hval, hgeom, hlen, hr _, ?_⟩
  have hg2 : ∀ u : Mesh K, u.splitShared = ⟨u.geom.flatMap fun g => [g.1, g.2.1, g.2.2],
      (List.range u.geom.length).map fun i => (3 * i, 3 * i + 1, 3 * i + 2)⟩ := by
    intro u
    unfold Mesh.splitShared Mesh.geom
    rw [List.flatMap_map, List.length_map]; rfl
  rw [hg2 m.splitShared, hgeom, ← hg2]

example : exampleMesh.splitShared.triangles = [(0, 1, 2), (3, 4, 5), (6, 7, 8), (9, 10, 11)] := by decide +kernel

/-! ### C30: `remove_degenerate_triangles` -/

theorem rowDistSq_pos [IsStrictOrderedRing K] (a b : List K) (h : a.length = b.length) : 0 < rowDistSq a b ↔ a ≠ b := by
  have hnn : ∀ a b : List K, 0 ≤ rowDistSq a b := by
    intro a
    induction a with
    | nil => intro b; simp [rowDistSq]
    | cons x a ih =>
      intro b
      cases b with
      | nil => simp [rowDistSq]
      | cons y b =>
        have := ih b
        simp only [rowDistSq, List.zipWith_cons_cons, List.sum_cons] at this ⊢
        have := sq_nonneg (x - y)
        linarith
  induction a generalizing b with
  | nil =>
    cases b with
    | nil => simp [rowDistSq]
    | cons y b => simp at h
  | cons x a ih =>
    cases b with
    | nil => simp at h
    | cons y b =>
      have h1 := ih b (by simpa using h)
      have h2 := hnn a b
      have e : rowDistSq (x :: a) (y :: b) = (x - y) ^ 2 + rowDistSq a b := by simp [rowDistSq]
      rw [e]
      constructor
      · intro hp heq
        rw [List.cons.injEq] at heq
        obtain ⟨rfl, rfl⟩ := heq
        have h3 := mt h1.1 (not_not.2 rfl)
        rw [sub_self] at hp
        apply h3; linarith
      · intro hne
        by_cases hxy : x = y
        · subst hxy
          have hab : a ≠ b := fun h => hne (by rw [h])
          have := h1.2 hab
          have := sq_nonneg (x - x)
          linarith
        · have : 0 < (x - y) ^ 2 := by
            have := sub_ne_zero.2 hxy
            positivity
          linarith

/-- **C30** `remove_degenerate_triangles` keeps exactly the triangles whose corners are pairwise more than
`sqrt tol` apart, in order; with the default tolerance these are the ones with three different corners. -/
theorem C30_remove_degenerate [IsStrictOrderedRing K] (m : Mesh K) (tol : K) :
    (m.removeDegenerate tol).vertices = m.vertices ∧
    (m.removeDegenerate tol).triangles.Sublist m.triangles ∧
    (m.removeDegenerate tol).geom = m.geom.filter (fun g =>
      tol < rowDistSq g.1 g.2.1 ∧ tol < rowDistSq g.2.1 g.2.2 ∧ tol < rowDistSq g.1 g.2.2) ∧
    (m.Valid → (m.removeDegenerate tol).Valid) ∧
    (m.removeDegenerate tol).removeDegenerate tol = m.removeDegenerate tol := by
  refine ⟨rfl, List.filter_sublist, ?_, ?_, ?_⟩
  · unfold Mesh.removeDegenerate Mesh.geom
    dsimp only
    rw [List.filter_map]
    congr 1
    apply List.filter_congr
    intro t _
    simp [Mesh.row, Bool.and_assoc]
  · intro h t ht; exact h t (List.mem_of_mem_filter ht)
  · unfold Mesh.removeDegenerate
    dsimp only
    rw [List.filter_filter]
    simp

theorem C30_remove_degenerate_default [IsStrictOrderedRing K] (m : Mesh K) (h : m.Valid) (d : ℕ)
    (hd : ∀ v ∈ m.vertices, v.length = d) (g : List K × List K × List K) :
    g ∈ (m.removeDegenerate 0).geom ↔ g ∈ m.geom ∧ NonDegenerate g := by
  rw [(C30_remove_degenerate m 0).2.2.1, List.mem_filter]
  refine and_congr_right fun hg => ?_
  obtain ⟨t, ht, rfl⟩ := List.mem_map.1 hg
  obtain ⟨a, b, c⟩ := h t ht
  have ha := hd _ (row_mem m _ a)
  have hb := hd _ (row_mem m _ b)
  have hc := hd _ (row_mem m _ c)
  simp only [decide_eq_true_eq]
  unfold NonDegenerate
  dsimp only
  rw [rowDistSq_pos _ _ (ha.trans hb.symm), rowDistSq_pos _ _ (hb.trans hc.symm), rowDistSq_pos _ _ (ha.trans hc.symm)]

example : (exampleMesh.removeDegenerate 0).triangles = [(0, 1, 2), (3, 4, 5), (2, 0, 1)] ∧
    ∀ v ∈ exampleMesh.vertices, v.length = 3 := by
  constructor
  · decide +kernel
  · decide +kernel

/-! ### C29: merging -/

theorem geom_nil_of_empty (m : Mesh K) (h : m.Valid) (he : m.vertices.length = 0 ∨ m.triangles.length = 0) :
    m.geom = [] := by
  unfold Mesh.geom
  rw [List.map_eq_nil_iff]
  rcases he with he | he
  · rw [List.eq_nil_iff_forall_not_mem]
    intro t ht
    have := (h t ht).1
    omega
  · exact List.length_eq_zero_iff.1 he

/-- The concatenation done by `merge` before the clean-up. -/
theorem concat_geom (a b : Mesh K) (ha : a.Valid) (hb : b.Valid) :
    let c : Mesh K := ⟨a.vertices ++ b.vertices, a.triangles ++ b.triangles.map fun t =>
      (t.1 + a.vertices.length, t.2.1 + a.vertices.length, t.2.2 + a.vertices.length)⟩
    c.Valid ∧ c.geom = a.geom ++ b.geom := by
  intro c
  constructor
  · intro t ht
    have hc : c.vertices.length = a.vertices.length + b.vertices.length := List.length_append
    rw [hc]
    rcases List.mem_append.1 ht with ht | ht
    · obtain ⟨h1, h2, h3⟩ := ha t ht
      omega
    · obtain ⟨s, hs, rfl⟩ := List.mem_map.1 ht
      obtain ⟨h1, h2, h3⟩ := hb s hs
      dsimp only
      omega
  · unfold Mesh.geom
    rw [List.map_append, List.map_map]
    congr 1
    · apply List.map_congr_left
      intro t ht
      obtain ⟨h1, h2, h3⟩ := ha t ht
      simp only [Mesh.row, c]
      rw [List.getD_append _ _ _ _ h1, List.getD_append _ _ _ _ h2, List.getD_append _ _ _ _ h3]
    · apply List.map_congr_left
      intro t ht
      have e : ∀ i, (a.vertices ++ b.vertices).getD (i + a.vertices.length) [] = b.vertices.getD i [] := by
        intro i
        rw [List.getD_append_right _ _ _ _ (by omega), Nat.add_sub_cancel]
      simp only [Mesh.row, c, Function.comp, e]

/-- **C29** `merge` and `+`, without merging triangles: a valid mesh whose geometric triangles are those of the
first mesh followed by those of the second, with or without vertex merging. -/
theorem C29_merge (a b : Mesh K) (ha : a.Valid) (hb : b.Valid) (mv : Bool) :
    (a.merge b mv false).Valid ∧ (a.merge b mv false).geom = a.geom ++ b.geom := by
  unfold Mesh.merge
  by_cases h1 : a.vertices.length = 0 ∨ a.triangles.length = 0
  · rw [if_pos h1, geom_nil_of_empty a ha h1]; exact ⟨hb, rfl⟩
  by_cases h2 : b.vertices.length = 0 ∨ b.triangles.length = 0
  · rw [if_neg h1, if_pos h2, geom_nil_of_empty b hb h2, List.append_nil]; exact ⟨ha, rfl⟩
  rw [if_neg h1, if_neg h2]
  obtain ⟨v, g⟩ := concat_geom a b ha hb
  cases mv
  · exact ⟨v, g⟩
  · obtain ⟨v', g'⟩ := C30_merge_vertices_geom _ v
    exact ⟨v', g'.trans g⟩

/-- **C29** with triangle merging: the geometric triangles of the result are among those of the operands and
every one of these is still there, up to the order of its corners. -/
theorem C29_merge_triangles (a b : Mesh K) (ha : a.Valid) (hb : b.Valid) (mv : Bool) :
    (a.merge b mv true).Valid ∧ (∀ g ∈ (a.merge b mv true).geom, g ∈ a.geom ++ b.geom) ∧
    ∀ g ∈ a.geom ++ b.geom, ∃ g' ∈ (a.merge b mv true).geom, SameTri g' g := by
  have h := C29_merge a b ha hb mv
  by_cases h1 : a.vertices.length = 0 ∨ a.triangles.length = 0
  · have e : a.merge b mv true = b := by unfold Mesh.merge; rw [if_pos h1]
    rw [e, geom_nil_of_empty a ha h1]
    exact ⟨hb, fun g hg => hg, fun g hg => ⟨g, hg, List.Perm.refl _⟩⟩
  by_cases h2 : b.vertices.length = 0 ∨ b.triangles.length = 0
  · have e : a.merge b mv true = a := by unfold Mesh.merge; rw [if_neg h1, if_pos h2]
    rw [e, geom_nil_of_empty b hb h2, List.append_nil]
    exact ⟨ha, fun g hg => hg, fun g hg => ⟨g, hg, List.Perm.refl _⟩⟩
  · have e : a.merge b mv true = (a.merge b mv false).mergeTriangles := by
      unfold Mesh.merge
      rw [if_neg h1, if_neg h2, if_neg h1, if_neg h2]
      simp
    rw [e, ← h.2]
    exact C30_merge_triangles_geom _ h.1

/-- **C29** `from_meshes` without triangle merging: the concatenation of all geometric triangles. -/
theorem C29_from_meshes (l : List (Mesh K)) (h : ∀ m ∈ l, m.Valid) (mv : Bool) :
    (Mesh.fromMeshes l mv false).Valid ∧ (Mesh.fromMeshes l mv false).geom = l.flatMap Mesh.geom := by
  have key : ∀ (l : List (Mesh K)) (acc : Mesh K), acc.Valid → (∀ m ∈ l, m.Valid) →
      (l.foldl (fun acc m => acc.merge m mv false) acc).Valid ∧
      (l.foldl (fun acc m => acc.merge m mv false) acc).geom = acc.geom ++ l.flatMap Mesh.geom := by
    intro l
    induction l with
    | nil => intro acc ha _; simp [ha]
    | cons m l ih =>
      intro acc ha h
      obtain ⟨v, g⟩ := C29_merge acc m ha (h m (by simp)) mv
      obtain ⟨v2, g2⟩ := ih (acc.merge m mv false) v (fun m hm => h m (by simp [hm]))
      rw [List.foldl_cons]
      refine ⟨v2, ?_⟩
      rw [g2, g, List.flatMap_cons, List.append_assoc]
  have := key l ⟨[], []⟩ (by intro t ht; simp at ht) h
  exact ⟨this.1, this.2⟩

/-- **C29** `from_meshes` with triangle merging keeps every geometric triangle up to the order of its corners and
invents none. -/
theorem C29_from_meshes_triangles (l : List (Mesh K)) (h : ∀ m ∈ l, m.Valid) (mv : Bool) :
    (Mesh.fromMeshes l mv true).Valid ∧ (∀ g ∈ (Mesh.fromMeshes l mv true).geom, g ∈ l.flatMap Mesh.geom) ∧
    ∀ g ∈ l.flatMap Mesh.geom, ∃ g' ∈ (Mesh.fromMeshes l mv true).geom, SameTri g' g := by
  have key : ∀ (l : List (Mesh K)) (acc : Mesh K), acc.Valid → (∀ m ∈ l, m.Valid) →
      (l.foldl (fun acc m => acc.merge m mv true) acc).Valid ∧
      (∀ g ∈ (l.foldl (fun acc m => acc.merge m mv true) acc).geom, g ∈ acc.geom ++ l.flatMap Mesh.geom) ∧
      ∀ g ∈ acc.geom ++ l.flatMap Mesh.geom,
        ∃ g' ∈ (l.foldl (fun acc m => acc.merge m mv true) acc).geom, SameTri g' g := by
    intro l
    induction l with
    | nil => intro acc ha _; exact ⟨ha, by simp, fun g hg => ⟨g, by simpa using hg, List.Perm.refl _⟩⟩
    | cons m l ih =>
      intro acc ha h
      obtain ⟨v, g1, g2⟩ := C29_merge_triangles acc m ha (h m (by simp)) mv
      obtain ⟨v', k1, k2⟩ := ih (acc.merge m mv true) v (fun m hm => h m (by simp [hm]))
      rw [List.foldl_cons]
      refine ⟨v', ?_, ?_⟩
      · intro g hg
        rw [List.flatMap_cons, ← List.append_assoc]
        rcases List.mem_append.1 (k1 g hg) with h | h
        · exact List.mem_append_left _ (g1 g h)
        · exact List.mem_append_right _ h
      · intro g hg
        rw [List.flatMap_cons, ← List.append_assoc] at hg
        rcases List.mem_append.1 hg with h | h
        · obtain ⟨g', hg', hs⟩ := g2 g h
          obtain ⟨g'', hg'', hs'⟩ := k2 g' (List.mem_append_left _ hg')
          exact ⟨g'', hg'', hs'.trans hs⟩
        · exact k2 g (List.mem_append_right _ h)
  exact key l ⟨[], []⟩ (by intro t ht; simp at ht) h

/-- **C29** the result of a merge with vertex merging has no duplicate vertex, when both meshes have triangles. -/
theorem C29_merge_nodup (a b : Mesh K) (mt : Bool) (ha : a.triangles ≠ []) (hb : b.triangles ≠ [])
    (hva : a.Valid) (hvb : b.Valid) : (a.merge b true mt).vertices.Nodup := by
  have key : ∀ m : Mesh K, m.triangles ≠ [] → m.Valid → ¬ (m.vertices.length = 0 ∨ m.triangles.length = 0) := by
    intro m hm hv h
    rcases h with h | h
    · obtain ⟨t, ht⟩ := List.exists_mem_of_ne_nil _ hm
      have := (hv t ht).1
      omega
    · exact hm (List.length_eq_zero_iff.1 h)
  unfold Mesh.merge
  rw [if_neg (key a ha hva), if_neg (key b hb hvb)]
  cases mt
  · exact npUnique_nodup _
  · exact npUnique_nodup _

/-- **C29** `a + b` keeps both meshes as they are: the vertices one after the other (nothing merged) and the
triangles in order; `a | b` of two meshes with triangles has no repeated vertex and no repeated triangle (in any
order of its corners), and the same geometric triangles up to the order of their corners. -/
theorem C29_operators (a b : Mesh K) (ha : a.triangles ≠ []) (hb : b.triangles ≠ []) (hva : a.Valid) (hvb : b.Valid) :
    ((a.add b).vertices = a.vertices ++ b.vertices ∧ (a.add b).geom = a.geom ++ b.geom ∧ (a.add b).Valid) ∧
    ((a.or b).vertices.Nodup ∧ (∀ v, v ∈ (a.or b).vertices ↔ v ∈ a.vertices ∨ v ∈ b.vertices) ∧
      (a.or b).triangles.Pairwise (fun s t => ¬ [s.1, s.2.1, s.2.2].Perm [t.1, t.2.1, t.2.2]) ∧
      (a.or b).Valid ∧ (∀ g ∈ (a.or b).geom, g ∈ a.geom ++ b.geom) ∧
      ∀ g ∈ a.geom ++ b.geom, ∃ g' ∈ (a.or b).geom, SameTri g' g) := by
  have key : ∀ m : Mesh K, m.triangles ≠ [] → m.Valid → ¬ (m.vertices.length = 0 ∨ m.triangles.length = 0) := by
    intro m hm hv h
    rcases h with h | h
    · obtain ⟨t, ht⟩ := List.exists_mem_of_ne_nil _ hm
      have := (hv t ht).1
      omega
    · exact hm (List.length_eq_zero_iff.1 h)
  have h1 := key a ha hva
  have h2 := key b hb hvb
  have hadd := C29_merge a b hva hvb false
  have hor := C29_merge_triangles a b hva hvb true
  refine ⟨⟨?_, hadd.2, hadd.1⟩, C29_merge_nodup a b true ha hb hva hvb, ?_, ?_, hor.1, hor.2.1, hor.2.2⟩
  · unfold Mesh.add Mesh.merge
    rw [if_neg h1, if_neg h2]
    rfl
  · intro v
    unfold Mesh.or Mesh.merge
    rw [if_neg h1, if_neg h2]
    show v ∈ npUnique (a.vertices ++ b.vertices) ↔ _
    rw [mem_npUnique, List.mem_append]
  · unfold Mesh.or Mesh.merge
    rw [if_neg h1, if_neg h2]
    exact (C30_merge_triangles _).2.2.2

/-- The claim that `from_meshes(..., merge_vertices=True)` never leaves duplicate vertices. -/
def C29_dedup_full_statement (K : Type) [Field K] [LinearOrder K] : Prop :=
  ∀ l : List (Mesh K), (∀ m ∈ l, m.Valid) → (Mesh.fromMeshes l true true).vertices.Nodup

/-- **C29** it does when there is only one (non-empty) mesh: the early return skips the clean-up. -/
theorem C29_dedup_counterexample : ¬ C29_dedup_full_statement ℚ := by
  intro h
  have := h [exampleMesh] (by intro m hm; rw [List.mem_singleton.1 hm]; exact exampleMesh_valid)
  revert this
  decide +kernel

example : (exampleMesh.merge exampleMesh true true).triangles.length = 3 ∧ exampleMesh.triangles ≠ [] := by
  decide +kernel

/-- **C29** `check_consistency` answers whether the mesh is valid (it raises without triangles). -/
theorem C29_check (m : Mesh K) :
    (m.checkConsistency = none ↔ m.triangles = []) ∧ (m.checkConsistency = some true → m.Valid) ∧
    (m.triangles ≠ [] → m.Valid → m.checkConsistency = some true) := by
  have key : ∀ (l : List (ℕ × ℕ × ℕ)) (n : ℕ), l ≠ [] →
      ((l.foldr (fun t a => max (max t.1 (max t.2.1 t.2.2)) a) 0) < n ↔ ∀ t ∈ l, t.1 < n ∧ t.2.1 < n ∧ t.2.2 < n) := by
    intro l n hl
    have h0 : ∀ l : List (ℕ × ℕ × ℕ), 0 < n →
        ((l.foldr (fun t a => max (max t.1 (max t.2.1 t.2.2)) a) 0) < n ↔ ∀ t ∈ l, t.1 < n ∧ t.2.1 < n ∧ t.2.2 < n) := by
      intro l hn
      induction l with
      | nil => simp [hn]
      | cons t l ih =>
        rw [List.foldr_cons, max_lt_iff, ih, max_lt_iff, max_lt_iff, List.forall_mem_cons]
    rcases Nat.eq_zero_or_pos n with rfl | hn
    · constructor
      · intro h; omega
      · intro h
        obtain ⟨t, ht⟩ := List.exists_mem_of_ne_nil _ hl
        exact absurd (h t ht).1 (by omega)
    · exact h0 l hn
  unfold Mesh.checkConsistency Mesh.Valid
  cases hm : m.triangles with
  | nil => simp
  | cons t l =>
    have hk := key (t :: l) m.vertices.length (by simp)
    refine ⟨by simp, ?_, ?_⟩
    · intro h
      have : decide (((t :: l).foldr (fun t a => max (max t.1 (max t.2.1 t.2.2)) a) 0) < m.vertices.length) = true :=
        Option.some.inj h
      exact hk.1 (of_decide_eq_true this)
    · intro _ h
      exact congrArg some (decide_eq_true (hk.2 h))
example : exampleMesh.checkConsistency = some true := by decide +kernel

/-! ### C31: border -/

/-- Triangle `t` has both `i` and `j` among its corners. -/
def UsesEdge (i j : ℕ) (t : ℕ × ℕ × ℕ) : Prop :=
  (i = t.1 ∨ i = t.2.1 ∨ i = t.2.2) ∧ (j = t.1 ∨ j = t.2.1 ∨ j = t.2.2)
instance (i j : ℕ) (t : ℕ × ℕ × ℕ) : Decidable (UsesEdge i j t) := by unfold UsesEdge; infer_instance

/-- Three different corners (as indices). -/
def ProperTri (t : ℕ × ℕ × ℕ) : Prop := t.1 ≠ t.2.1 ∧ t.2.1 ≠ t.2.2 ∧ t.1 ≠ t.2.2

theorem edge_count (m : Mesh K) (h : ∀ t ∈ m.triangles, ProperTri t) (i j : ℕ) (hij : i < j) :
    (m.edges.map sortEdge).count [i, j] = m.triangles.countP (fun t => decide (UsesEdge i j t)) := by
  unfold Mesh.edges
  generalize m.triangles = l at h
  induction l with
  | nil => rfl
  | cons t l ih =>
    rw [List.flatMap_cons, List.map_append, List.count_append, ih (fun t ht => h t (by simp [ht])), List.countP_cons,
      add_comm]
    congr 1
    obtain ⟨a, b, c⟩ := t
    obtain ⟨h1, h2, h3⟩ := h (a, b, c) (by simp)
    dsimp only at h1 h2 h3
    simp only [List.map_cons, List.map_nil, sortEdge, List.count_cons, List.count_nil,
      beq_iff_eq, List.cons.injEq, and_true]
    have q1 : (min a b = i ∧ max a b = j) ↔ (i = a ∧ j = b) ∨ (i = b ∧ j = a) := by omega
    have q2 : (min a c = i ∧ max a c = j) ↔ (i = a ∧ j = c) ∨ (i = c ∧ j = a) := by omega
    have q3 : (min b c = i ∧ max b c = j) ↔ (i = b ∧ j = c) ∨ (i = c ∧ j = b) := by omega
    simp only [q1, q2, q3]
    clear q1 q2 q3 ih
    by_cases u : UsesEdge i j (a, b, c)
    · rw [if_pos (decide_eq_true u)]
      have u : (i = a ∨ i = b ∨ i = c) ∧ (j = a ∨ j = b ∨ j = c) := u
      rcases (by omega : (i = a ∧ j = b) ∨ (i = a ∧ j = c) ∨ (i = b ∧ j = a) ∨ (i = b ∧ j = c) ∨ (i = c ∧ j = a) ∨
        (i = c ∧ j = b)) with ⟨rfl, rfl⟩ | ⟨rfl, rfl⟩ | ⟨rfl, rfl⟩ | ⟨rfl, rfl⟩ | ⟨rfl, rfl⟩ | ⟨rfl, rfl⟩ <;>
      simp_all [eq_comm]
    · rw [if_neg (show ¬ (decide (UsesEdge i j (a, b, c)) = true) by simpa using u)]
      have u : ¬ ((i = a ∨ i = b ∨ i = c) ∧ (j = a ∨ j = b ∨ j = c)) := u
      rw [if_neg (by omega), if_neg (by omega), if_neg (by omega)]

/-- **C31** `get_mesh_border` returns exactly the edges that belong to one triangle only, each once. -/
theorem C31_border_partial (m : Mesh K) (h : ∀ t ∈ m.triangles, ProperTri t) :
    m.border.Nodup ∧
    ∀ e : List ℕ, e ∈ m.border ↔ ∃ i j, i < j ∧ e = [i, j] ∧
      m.triangles.countP (fun t => decide (UsesEdge i j t)) = 1 := by
  refine ⟨(npUnique_nodup _).filter _, ?_⟩
  intro e
  unfold Mesh.border
  dsimp only
  rw [List.mem_filter, mem_npUnique, decide_eq_true_eq]
  constructor
  · rintro ⟨he, hc⟩
    obtain ⟨⟨a, b⟩, hab, rfl⟩ := List.mem_map.1 he
    have hne : a ≠ b := by
      unfold Mesh.edges at hab
      obtain ⟨t, ht, hab⟩ := List.mem_flatMap.1 hab
      obtain ⟨h1, h2, h3⟩ := h t ht
      simp only [List.mem_cons, List.not_mem_nil, or_false, Prod.mk.injEq] at hab
      omega
    refine ⟨min a b, max a b, by omega, rfl, ?_⟩
    rw [← edge_count m h _ _ (by omega)]
    exact hc
  · rintro ⟨i, j, hij, rfl, hc⟩
    rw [← edge_count m h i j hij] at hc
    refine ⟨?_, hc⟩
    rw [← List.count_pos_iff]; omega

/-- **C31** a mesh in which every edge of a triangle belongs to at least two of them (in particular a closed
surface) has no border. -/
theorem C31_closed (m : Mesh K) (hp : ∀ t ∈ m.triangles, ProperTri t)
    (h : ∀ t ∈ m.triangles, ∀ i j, i < j → UsesEdge i j t →
      2 ≤ m.triangles.countP (fun t => decide (UsesEdge i j t))) : m.border = [] := by
  rw [List.eq_nil_iff_forall_not_mem]
  intro e he
  obtain ⟨i, j, hij, -, hc⟩ := ((C31_border_partial m hp).2 e).1 he
  obtain ⟨t, ht, hu⟩ := List.countP_pos_iff.1 (show 0 < m.triangles.countP _ by rw [hc]; exact one_pos)
  have := h t ht i j hij (of_decide_eq_true hu)
  omega

/-- The claim without the restriction to triangles with three different corners. -/
def C31_full_statement (K : Type) [Field K] [LinearOrder K] : Prop :=
  ∀ (m : Mesh K) (i j : ℕ), i < j →
    ([i, j] ∈ m.border ↔ m.triangles.countP (fun t => decide (UsesEdge i j t)) = 1)

/-- **C31** a degenerate triangle uses its edge twice and hides it. -/
theorem C31_counterexample : ¬ C31_full_statement ℚ := by
  intro h
  have := h ⟨[[0, 0, 0], [1, 0, 0]], [(0, 0, 1)]⟩ 0 1 (by norm_num)
  revert this
  decide +kernel

/-- A tetrahedron (closed) and a pair of triangles (with border). -/
def exampleTetra : Mesh ℚ :=
  ⟨[[0, 0, 0], [1, 0, 0], [0, 1, 0], [0, 0, 1]], [(0, 1, 2), (0, 3, 1), (1, 3, 2), (2, 3, 0)]⟩
example : (∀ t ∈ exampleTetra.triangles, ProperTri t) ∧ ∀ t ∈ exampleTetra.triangles, ∀ i j, i < j → UsesEdge i j t →
    2 ≤ exampleTetra.triangles.countP (fun t => decide (UsesEdge i j t)) := by
  constructor
  · unfold ProperTri; decide +kernel
  · intro t ht i j hij hu
    have key : ∀ i < 4, ∀ j < 4, ∀ t ∈ exampleTetra.triangles, i < j → UsesEdge i j t →
      2 ≤ exampleTetra.triangles.countP (fun t => decide (UsesEdge i j t)) := by decide +kernel
    have hb : ∀ t ∈ exampleTetra.triangles, t.1 < 4 ∧ t.2.1 < 4 ∧ t.2.2 < 4 := by decide +kernel
    obtain ⟨h1, h2, h3⟩ := hb t ht
    have hu' := hu
    unfold UsesEdge at hu'
    exact key i (by omega) j (by omega) t ht hij hu
example : (∀ t ∈ [(0, 1, 2), (1, 2, 3)], ProperTri t) ∧
    (⟨[], [(0, 1, 2), (1, 2, 3)]⟩ : Mesh ℚ).border = [[0, 1], [0, 2], [1, 3], [2, 3]] := by
  unfold ProperTri
  decide +kernel

/-! ### C32: serialisation -/

/-- All vertices have `d` coordinates. -/
def Mesh.Dim (m : Mesh K) (d : ℕ) : Prop := ∀ v ∈ m.vertices, v.length = d

theorem reshape3_flatMap {α : Type*} (l : List (α × α × α)) :
    reshape3 (l.flatMap fun t => [t.1, t.2.1, t.2.2]) = some l := by
  induction l with
  | nil => rfl
  | cons t l ih =>
    rw [List.flatMap_cons]
    show (reshape3 (l.flatMap fun t => [t.1, t.2.1, t.2.2])).map _ = _
    rw [ih]; rfl

/-- **C32** the round trip through the dictionary gives the same mesh, for every mesh with three coordinates. -/
theorem C32_round_trip_partial (m : Mesh K) (h : m.Dim 3) : Mesh.dictToObject m.toDict = some m := by
  obtain ⟨vs, ts⟩ := m
  have hv : ∃ l : List (K × K × K), vs = l.map fun r => [r.1, r.2.1, r.2.2] := by
    unfold Mesh.Dim at h
    dsimp only at h
    clear ts
    induction vs with
    | nil => exact ⟨[], rfl⟩
    | cons v vs ih =>
      obtain ⟨l, hl⟩ := ih (fun v hv => h v (by simp [hv]))
      have hv := h v (by simp)
      match v, hv with
      | [a, b, c], _ => exact ⟨(a, b, c) :: l, by rw [hl]; rfl⟩
  obtain ⟨l, rfl⟩ := hv
  unfold Mesh.dictToObject Mesh.toDict
  dsimp only
  have : (l.map fun r => [r.1, r.2.1, r.2.2]).flatten = l.flatMap fun t => [t.1, t.2.1, t.2.2] := by
    rw [List.flatMap]
  rw [this, reshape3_flatMap, reshape3_flatMap]

/-- The claim for meshes of both dimensions. -/
def C32_full_statement (K : Type) [Field K] [LinearOrder K] : Prop :=
  ∀ (m : Mesh K) (d : ℕ), (d = 2 ∨ d = 3) → m.Dim d → Mesh.dictToObject m.toDict = some m

/-- **C32** a 2D mesh does not survive: its coordinates are regrouped by three. -/
theorem C32_counterexample : ¬ C32_full_statement ℚ := by
  intro h
  have := h ⟨[[0, 0], [1, 0], [1, 1]], [(0, 1, 2)]⟩ 2 (Or.inl rfl) (by intro v hv; revert v; decide +kernel)
  revert this
  decide +kernel

/-- **C32** precisely: a 2D mesh with at least one vertex never comes back. -/
theorem C32_two_dim (m : Mesh K) (h : m.Dim 2) (hne : m.vertices ≠ []) : Mesh.dictToObject m.toDict ≠ some m := by
  intro hd
  unfold Mesh.dictToObject at hd
  split at hd
  · have hm := Option.some.inj hd
    obtain ⟨v, hv⟩ := List.exists_mem_of_ne_nil _ hne
    have h2 := h v hv
    rw [← hm] at hv
    obtain ⟨r, -, rfl⟩ := List.mem_map.1 hv
    simp at h2
  · exact absurd hd (by simp)

/-- `reshape(-1, 3)` succeeds exactly on multiples of three, and then only groups the numbers. -/
theorem reshape3_spec {α : Type*} : ∀ (n : ℕ) (l : List α), l.length = n →
    ((∃ r, reshape3 l = some r) ↔ 3 ∣ l.length) ∧
    ∀ r, reshape3 l = some r → (r.flatMap fun t => [t.1, t.2.1, t.2.2]) = l := by
  intro n
  induction n using Nat.strong_induction_on with
  | _ n ih =>
    intro l hl
    match l, hl with
    | [], _ => simp [reshape3]
    | [a], _ => simp [reshape3]
    | [a, b], _ => simp [reshape3]
    | a :: b :: c :: l, hl =>
      obtain ⟨h1, h2⟩ := ih l.length (by simp at hl; omega) l rfl
      constructor
      · have e : 3 ∣ (a :: b :: c :: l).length ↔ 3 ∣ l.length := by
          simp only [List.length_cons]; omega
        rw [e, ← h1]
        simp [reshape3]
      · intro r hr
        rw [reshape3, Option.map_eq_some_iff] at hr
        obtain ⟨r', hr', rfl⟩ := hr
        rw [List.flatMap_cons, h2 r' hr']
        rfl

/-- **C32** `dict_to_object` on any dictionary: it raises exactly when one of the two lists is not made of whole
triples, and otherwise gives a mesh with 3 coordinates per vertex, from which `to_dict` gives the same lists back. -/
theorem C32_from_dict (d : MeshDict K) :
    (Mesh.dictToObject d = none ↔ ¬ (3 ∣ d.vertices.length ∧ 3 ∣ d.triangles.length)) ∧
    ∀ m, Mesh.dictToObject d = some m → m.Dim 3 ∧ m.toDict = d := by
  have hv := reshape3_spec _ d.vertices rfl
  have ht := reshape3_spec _ d.triangles rfl
  unfold Mesh.dictToObject
  rcases e1 : reshape3 d.vertices with _ | v <;> rcases e2 : reshape3 d.triangles with _ | t <;>
    rw [e1] at hv <;> rw [e2] at ht
  · simp [← hv.1]
  · simp [← hv.1]
  · simp [← hv.1, ← ht.1]
  · simp only [Option.some.injEq, exists_eq', true_iff, reduceCtorEq, false_iff, not_not] at hv ht ⊢
    refine ⟨⟨hv.1, ht.1⟩, ?_⟩
    rintro m rfl
    constructor
    · intro x hx
      obtain ⟨r, -, rfl⟩ := List.mem_map.1 hx
      rfl
    · have a1 := hv.2 v rfl
      have a2 := ht.2 t rfl
      unfold Mesh.toDict
      dsimp only
      rw [a2, ← List.flatMap_def, a1]

example : Mesh.dictToObject (⟨[1, 2, 3, 4], []⟩ : MeshDict ℚ) = none ∧
    Mesh.dictToObject (⟨[1, 2, 3], [0, 0, 0]⟩ : MeshDict ℚ) = some ⟨[[1, 2, 3]], [(0, 0, 0)]⟩ := by decide +kernel
example : exampleMesh.Dim 3 := by intro v hv; revert v; decide +kernel
example : (⟨[[0, 0], [1, 0], [1, 1]], [(0, 1, 2)]⟩ : Mesh ℚ).Dim 2 := by intro v hv; revert v; decide +kernel

end
end Volmdlr
