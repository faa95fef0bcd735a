import Verif.Mesh.MeasureModel
import Verif.Mesh.Props
import Verif.Tri.AreaProps
import Verif.BBox.Props
import Verif.Fillet.Arc3Props

namespace Volmdlr.Display

open Triangles

/-! ## Specification -/

/-- The triangles of space of a mesh (specification, from C29). -/
def tris (m : Mesh ℝ) : List Tri := m.geom.map fun (g : List ℝ × List ℝ × List ℝ) => (toPoint g.1, toPoint g.2.1, toPoint g.2.2)

/-! ## Area -/

theorem tris_eq (m : Mesh ℝ) : tris m = m.triangles.map fun (t : ℕ × ℕ × ℕ) => (toPoint (rows m t).1, toPoint (rows m t).2.1, toPoint (rows m t).2.2) := by
  unfold tris Mesh.geom
  rw [List.map_map]
  rfl

/-- C161: the area of a mesh is the sum of the areas of its triangles. -/
theorem C161_area (m : Mesh ℝ) : area3 m = ((tris m).map area).sum := by
  unfold area3 crossProducts3
  rw [tris_eq, List.map_map, List.map_map]
  congr 1
  apply List.map_congr_left
  intro t _
  simp only [Function.comp_apply]
  rw [C99_area]
  congr 1
  unfold V3.norm
  congr 1
  simp only [V3.cross, V3.sub_x, V3.sub_y, V3.sub_z]
  ring

/-- C161: the area is additive, and does not change when equal vertices are merged or shared vertices split. -/
theorem C161_area_additive (a b : Mesh ℝ) (ha : a.Valid) (hb : b.Valid) (mv : Bool) :
    area3 (a.merge b mv false) = area3 a + area3 b ∧ area3 a.mergeVertices = area3 a ∧ area3 a.splitShared = area3 a := by
  refine ⟨?_, ?_, ?_⟩
  · rw [C161_area, C161_area, C161_area]
    unfold tris
    rw [(C29_merge a b ha hb mv).2, List.map_append, List.map_append, List.sum_append]
  · rw [C161_area, C161_area]
    unfold tris
    rw [(C30_merge_vertices_geom a ha).2]
  · rw [C161_area, C161_area]
    unfold tris
    rw [(C30_split a).2.1]

theorem getD_map_row (l : List (List ℝ)) (f : ℝ → ℝ) (i : ℕ) :
    (l.map fun (r : List ℝ) => r.map f).getD i [] = (l.getD i []).map f := by
  rw [List.getD_eq_getElem?_getD, List.getD_eq_getElem?_getD, List.getElem?_map]
  cases l[i]? <;> simp

theorem toPoint_map (r : List ℝ) (k : ℝ) : toPoint (r.map fun (x : ℝ) => x * k) = V3.smul k (toPoint r) := by
  have : ∀ i, (r.map fun (x : ℝ) => x * k).getD i 0 = r.getD i 0 * k := by
    intro i
    rw [List.getD_eq_getElem?_getD, List.getD_eq_getElem?_getD, List.getElem?_map]
    cases r[i]? <;> simp
  unfold toPoint V3.smul
  rw [this, this, this]

theorem area_scale (t : Tri) (k : ℝ) : area (V3.smul k t.1, V3.smul k t.2.1, V3.smul k t.2.2) = k ^ 2 * area t := by
  rw [C99_area, C99_area]
  dsimp only
  have : V3.cross (V3.smul k t.2.1 - V3.smul k t.1) (V3.smul k t.2.2 - V3.smul k t.1) = V3.smul (k ^ 2) (V3.cross (t.2.1 - t.1) (t.2.2 - t.1)) := by
    ext <;> simp [V3.cross] <;> ring
  rw [this, Fillet.V3.norm_smul_abs, abs_of_nonneg (sq_nonneg k)]
  ring

/-- C161: `resize` multiplies every triangle by the factor, and the area by its square. -/
theorem C161_resize (m : Mesh ℝ) (k : ℝ) :
    tris (resize m k) = (tris m).map (fun (t : Tri) => (V3.smul k t.1, V3.smul k t.2.1, V3.smul k t.2.2)) ∧ area3 (resize m k) = k ^ 2 * area3 m := by
  have h : tris (resize m k) = (tris m).map (fun (t : Tri) => (V3.smul k t.1, V3.smul k t.2.1, V3.smul k t.2.2)) := by
    rw [tris_eq, tris_eq, List.map_map]
    apply List.map_congr_left
    intro t _
    simp only [rows, resize, Function.comp_apply, getD_map_row, toPoint_map]
  refine ⟨h, ?_⟩
  rw [C161_area, C161_area, h, List.map_map, ← List.sum_map_mul_left]
  congr 1
  apply List.map_congr_left
  intro t _
  exact area_scale t k

/-- C161: moving all the vertices by a map that keeps distances keeps the area. -/
theorem C161_area_rigid (m m' : Mesh ℝ) (f : V3 ℝ → V3 ℝ) (hf : ∀ p q, V3.pointDistance (f p) (f q) = V3.pointDistance p q)
    (ht : m'.triangles = m.triangles) (hv : ∀ i, toPoint (m'.vertices.getD i []) = f (toPoint (m.vertices.getD i []))) : area3 m' = area3 m := by
  rw [C161_area, C161_area, tris_eq, tris_eq, ht, List.map_map, List.map_map]
  congr 1
  apply List.map_congr_left
  intro t _
  simp only [Function.comp_apply, rows, hv]
  unfold area
  dsimp only
  rw [hf, hf, hf]

/-- C161: the area of a plane mesh is the sum of the areas of its triangles, and the area of the mesh at height 0. -/
theorem C161_area2 (m : Mesh ℝ) :
    area2 m = (m.geom.map fun (g : List ℝ × List ℝ × List ℝ) =>
      |V2.cross (toPoint2 g.2.1 - toPoint2 g.1) (toPoint2 g.2.2 - toPoint2 g.1)| / 2).sum ∧
    ((∀ v ∈ m.vertices, v.length = 2) → area3 m = area2 m) := by
  have h1 : area2 m = (m.geom.map fun (g : List ℝ × List ℝ × List ℝ) =>
      |V2.cross (toPoint2 g.2.1 - toPoint2 g.1) (toPoint2 g.2.2 - toPoint2 g.1)| / 2).sum := by
    unfold area2 crossProducts2 Mesh.geom
    rw [List.map_map, List.map_map]
    congr 1
    apply List.map_congr_left
    intro t _
    simp only [Function.comp_apply, Real.sqrt_sq_eq_abs, rows, Mesh.row]
    congr 2
    simp only [V2.cross, V2.sub_x, V2.sub_y]; ring
  refine ⟨h1, fun hd => ?_⟩
  rw [h1]
  unfold area3 crossProducts3 Mesh.geom
  rw [List.map_map, List.map_map]
  congr 1
  apply List.map_congr_left
  intro t _
  have hz : ∀ i, (m.vertices.getD i []).getD 2 0 = 0 := by
    intro i
    by_cases hi : i < m.vertices.length
    · have : (m.vertices.getD i []) ∈ m.vertices := by
        rw [List.getD_eq_getElem _ _ hi]; exact List.getElem_mem hi
      rw [List.getD_eq_default]
      exact (hd _ this).le
    · rw [List.getD_eq_default _ _ (not_lt.mp hi)]; rfl
  simp only [Function.comp_apply, rows, Mesh.row]
  congr 1
  rw [← Real.sqrt_sq_eq_abs]
  congr 1
  simp only [V3.cross, V2.cross, V3.sub_x, V3.sub_y, V3.sub_z, V2.sub_x, V2.sub_y, toPoint, toPoint2, hz]
  ring

/-! ## Large triangles -/

theorem zip_map_filter {α β : Type*} (l : List α) (f : α → β) (p : β → Bool) :
    ((l.zip (l.map f)).filter fun (e : α × β) => p e.2).map Prod.fst = l.filter fun (a : α) => p (f a) := by
  induction l with
  | nil => rfl
  | cons a l ih =>
    simp only [List.map_cons, List.zip_cons_cons, List.filter_cons]
    by_cases h : p (f a) = true
    · rw [if_pos h, if_pos h, List.map_cons, ih]
    · rw [if_neg h, if_neg h, ih]

/-- C161: `remove_large_triangles` keeps exactly, in order, the triangles whose sides are all shorter than the threshold. -/
theorem C161_remove_large (m : Mesh ℝ) (d : ℝ) :
    (removeLarge m d).vertices = m.vertices ∧ (m.Valid → (removeLarge m d).Valid) ∧ (removeLarge m d).triangles.Sublist m.triangles ∧
    ∀ t, t ∈ (removeLarge m d).triangles ↔ t ∈ m.triangles ∧
      V3.pointDistance (toPoint (m.row t.1)) (toPoint (m.row t.2.1)) < d ∧ V3.pointDistance (toPoint (m.row t.2.1)) (toPoint (m.row t.2.2)) < d ∧
      V3.pointDistance (toPoint (m.row t.2.2)) (toPoint (m.row t.1)) < d := by
  classical
  have h : (removeLarge m d).triangles = m.triangles.filter fun (t : ℕ × ℕ × ℕ) =>
      ([(t.1, t.2.1), (t.1, t.2.2), (t.2.1, t.2.2)].map fun (e : ℕ × ℕ) =>
        V3.pointDistance (toPoint (m.vertices.getD e.1 [])) (toPoint (m.vertices.getD e.2 []))).all fun (l : ℝ) => decide (l < d) := by
    unfold removeLarge lenEdges
    exact zip_map_filter m.triangles _ (fun (x : List ℝ) => x.all fun (l : ℝ) => decide (l < d))
  have hsub : (removeLarge m d).triangles.Sublist m.triangles := by rw [h]; exact List.filter_sublist
  refine ⟨rfl, fun hv t ht => hv t (hsub.subset ht), hsub, fun t => ?_⟩
  rw [h, List.mem_filter]
  simp only [List.map_cons, List.map_nil, List.all_cons, List.all_nil, Bool.and_true, Bool.and_eq_true, decide_eq_true_eq, Mesh.row]
  rw [V3.pointDistance_symm (toPoint (m.vertices.getD t.2.2 [])) (toPoint (m.vertices.getD t.1 []))]
  tauto

/-! ## Distance between the vertices -/

/-- `idx` is an answer of the tree of `targets` to the queries `points`: one nearest row each (specification of `cKDTree.query`). -/
def Nearest (points targets : List (List ℝ)) (idx : List ℕ) : Prop :=
  idx.length = points.length ∧ ∀ k, k < points.length → idx.getD k 0 < targets.length ∧ ∀ q ∈ targets,
    V3.pointDistance (toPoint (points.getD k [])) (toPoint (targets.getD (idx.getD k 0) [])) ≤ V3.pointDistance (toPoint (points.getD k [])) (toPoint q)

theorem arrayMin_spec (l : List ℝ) (h : l ≠ []) : ∃ d, arrayMin l = some d ∧ d ∈ l ∧ ∀ x ∈ l, d ≤ x := by
  obtain ⟨a, l, rfl⟩ := List.exists_cons_of_ne_nil h
  refine ⟨listMin a l, rfl, ?_⟩
  unfold listMin
  clear h
  induction l generalizing a with
  | nil => simp
  | cons b l ih =>
    simp only [List.foldl_cons]
    obtain ⟨h1, h2⟩ := ih (min a b)
    constructor
    · rcases List.mem_cons.mp h1 with h1 | h1
      · rcases min_choice a b with e | e
        · rw [h1, e]; exact List.mem_cons_self
        · rw [h1, e]; exact List.mem_cons_of_mem _ List.mem_cons_self
      · exact List.mem_cons_of_mem _ (List.mem_cons_of_mem _ h1)
    · intro x hx
      have hm := h2 (min a b) List.mem_cons_self
      rcases List.mem_cons.mp hx with rfl | hx
      · exact hm.trans (min_le_left _ _)
      · rcases List.mem_cons.mp hx with rfl | hx
        · exact hm.trans (min_le_right _ _)
        · exact h2 x (List.mem_cons_of_mem _ hx)

/-- One side of `minimum_distance`. -/
theorem oneSide (ps qs : List (List ℝ)) (idx : List ℕ) (hp : ps ≠ []) (h : Nearest ps qs idx) :
    ∃ d, arrayMin ((ps.zip idx).map fun (e : List ℝ × ℕ) => V3.pointDistance (toPoint e.1) (toPoint (qs.getD e.2 []))) = some d ∧
      (∃ p ∈ ps, ∃ q ∈ qs, d = V3.pointDistance (toPoint p) (toPoint q)) ∧ ∀ p ∈ ps, ∀ q ∈ qs, d ≤ V3.pointDistance (toPoint p) (toPoint q) := by
  obtain ⟨hl, hn⟩ := h
  have hne : (ps.zip idx).map (fun (e : List ℝ × ℕ) => V3.pointDistance (toPoint e.1) (toPoint (qs.getD e.2 []))) ≠ [] := by
    intro e
    have := congrArg List.length e
    rw [List.length_map, List.length_zip, hl, min_self, List.length_nil, List.length_eq_zero_iff] at this
    exact hp this
  have hget : ∀ k (hk : k < ps.length), (ps.zip idx)[k]? = some (ps.getD k [], idx.getD k 0) := by
    intro k hk
    have hk' : k < (ps.zip idx).length := by rw [List.length_zip, hl, min_self]; exact hk
    rw [List.getElem?_eq_getElem hk', List.getElem_zip, List.getD_eq_getElem _ _ hk, List.getD_eq_getElem _ _ (hl ▸ hk)]
  obtain ⟨d, hd, hmem, hmin⟩ := arrayMin_spec _ hne
  refine ⟨d, hd, ?_, ?_⟩
  · obtain ⟨e, he, hde⟩ := List.mem_map.mp hmem
    obtain ⟨k, hk⟩ := List.getElem?_of_mem he
    have hk' : k < ps.length := by
      by_contra hcon
      rw [List.getElem?_eq_none (by rw [List.length_zip, hl, min_self]; omega)] at hk
      cases hk
    rw [hget k hk'] at hk
    obtain rfl := Option.some.inj hk
    refine ⟨_, ?_, _, ?_, hde.symm⟩
    · rw [List.getD_eq_getElem _ _ hk']; exact List.getElem_mem _
    · have := (hn k hk').1
      dsimp only
      rw [List.getD_eq_getElem _ _ this]; exact List.getElem_mem _
  · intro p hp' q hq
    obtain ⟨k, hk⟩ := List.getElem?_of_mem hp'
    have hk' : k < ps.length := by
      by_contra hcon
      rw [List.getElem?_eq_none (by omega)] at hk
      cases hk
    have hpk : ps.getD k [] = p := by
      rw [List.getElem?_eq_getElem hk'] at hk
      rw [List.getD_eq_getElem _ _ hk']; exact Option.some.inj hk
    have := (hn k hk').2 q hq
    rw [hpk] at this
    refine le_trans (hmin _ (List.mem_map.mpr ⟨(ps.getD k [], idx.getD k 0), ?_, rfl⟩)) ?_
    · exact List.mem_of_getElem? (hget k hk')
    · dsimp only; rw [hpk]; exact this

/-- C161: whatever nearest vertices the trees return, `minimum_distance` is the smallest distance between a vertex of one mesh and a vertex
of the other; so it is symmetric. -/
theorem C161_minimum_distance (m o : Mesh ℝ) (hm : m.vertices ≠ []) (ho : o.vertices ≠ []) (i j i' j' : List ℕ)
    (hi : Nearest m.vertices o.vertices i) (hj : Nearest o.vertices m.vertices j)
    (hi' : Nearest m.vertices o.vertices i') (hj' : Nearest o.vertices m.vertices j') :
    ∃ d, minimumDistance m o i j = some d ∧ minimumDistance o m j' i' = some d ∧
      (∃ p ∈ m.vertices, ∃ q ∈ o.vertices, d = V3.pointDistance (toPoint p) (toPoint q)) ∧
      ∀ p ∈ m.vertices, ∀ q ∈ o.vertices, d ≤ V3.pointDistance (toPoint p) (toPoint q) := by
  obtain ⟨d1, e1, ⟨p1, hp1, q1, hq1, f1⟩, g1⟩ := oneSide _ _ _ hm hi
  obtain ⟨d2, e2, ⟨p2, hp2, q2, hq2, f2⟩, g2⟩ := oneSide _ _ _ ho hj
  obtain ⟨d3, e3, ⟨p3, hp3, q3, hq3, f3⟩, g3⟩ := oneSide _ _ _ hm hi'
  obtain ⟨d4, e4, ⟨p4, hp4, q4, hq4, f4⟩, g4⟩ := oneSide _ _ _ ho hj'
  have h12 : d1 = d2 := le_antisymm (by rw [f2, V3.pointDistance_symm]; exact g1 _ hq2 _ hp2) (by rw [f1, V3.pointDistance_symm]; exact g2 _ hq1 _ hp1)
  have h13 : d1 = d3 := le_antisymm (by rw [f3]; exact g1 _ hp3 _ hq3) (by rw [f1]; exact g3 _ hp1 _ hq1)
  have h14 : d1 = d4 := le_antisymm (by rw [f4, V3.pointDistance_symm]; exact g1 _ hq4 _ hp4) (by rw [f1, V3.pointDistance_symm]; exact g4 _ hq1 _ hp1)
  refine ⟨d1, ?_, ?_, ⟨p1, hp1, q1, hq1, f1⟩, g1⟩
  · unfold minimumDistance
    rw [e1, Option.bind_some, e2, Option.map_some, ← h12, min_self]
  · unfold minimumDistance
    rw [e4, Option.bind_some, e3, Option.map_some, ← h13, ← h14, min_self]

lemma closest_row {points targets : List (List ℝ)} {idx : List ℕ} (h : Nearest points targets idx) :
    (idx.map fun (i : ℕ) => targets.getD i []).length = points.length ∧
    ∀ (k : ℕ) q, points[k]? = some q → ∃ p ∈ targets, (idx.map fun (i : ℕ) => targets.getD i [])[k]? = some p ∧
      ∀ p' ∈ targets, V3.pointDistance (toPoint q) (toPoint p) ≤ V3.pointDistance (toPoint q) (toPoint p') := by
  obtain ⟨hl, hn⟩ := h
  refine ⟨by rw [List.length_map, hl], ?_⟩
  intro k q hq
  obtain ⟨hk, rfl⟩ := List.getElem?_eq_some_iff.1 hq
  obtain ⟨h1, h2⟩ := hn k hk
  have hk' : k < idx.length := by omega
  have e1 : idx.getD k 0 = idx[k] := List.getD_eq_getElem _ _ hk'
  have e2 : points.getD k [] = points[k] := List.getD_eq_getElem _ _ hk
  rw [e1] at h1
  refine ⟨targets.getD idx[k] [], ?_, ?_, ?_⟩
  · rw [List.getD_eq_getElem _ _ h1]; exact List.getElem_mem _
  · rw [List.getElem?_map, List.getElem?_eq_getElem hk', Option.map_some]
  · intro p' hp'
    have := h2 p' hp'
    rwa [e1, e2] at this

/-- C161: the points given with the distance: for each vertex of the other mesh the nearest vertex of this one, and for each vertex of this mesh
the nearest vertex of the other. -/
theorem C161_closest_points (m o : Mesh ℝ) (i j : List ℕ) (hi : Nearest m.vertices o.vertices i) (hj : Nearest o.vertices m.vertices j) :
    ((closestPoints m o i j).1.length = o.vertices.length ∧ ∀ (k : ℕ) q, o.vertices[k]? = some q → ∃ p ∈ m.vertices,
      (closestPoints m o i j).1[k]? = some p ∧ ∀ p' ∈ m.vertices, V3.pointDistance (toPoint q) (toPoint p) ≤ V3.pointDistance (toPoint q) (toPoint p')) ∧
    ((closestPoints m o i j).2.length = m.vertices.length ∧ ∀ (k : ℕ) q, m.vertices[k]? = some q → ∃ p ∈ o.vertices,
      (closestPoints m o i j).2[k]? = some p ∧ ∀ p' ∈ o.vertices, V3.pointDistance (toPoint q) (toPoint p) ≤ V3.pointDistance (toPoint q) (toPoint p')) :=
  ⟨closest_row hj, closest_row hi⟩

/-- Two rows and one: the indices given by the trees meet the hypotheses. -/
example : Nearest [[0, 0, 0], [5, 0, 0]] [[1, 0, 0]] [0, 0] := by
  refine ⟨rfl, fun k hk => ?_⟩
  simp only [List.length_cons, List.length_nil] at hk
  have : k = 0 ∨ k = 1 := by omega
  rcases this with rfl | rfl <;> simp

/-! ## Box -/

/-- C161: the box of a mesh contains all its vertices, and every box that contains them contains it. -/
theorem C161_bounding_box (m : Mesh ℝ) :
    (m.vertices = [] ↔ boundingBox m = .error .valueError) ∧
    (m.vertices ≠ [] → ∃ b, boundingBox m = .ok b ∧ (∀ v ∈ m.vertices, b.Mem (toPoint v)) ∧
      ∀ c : Box3 ℝ, (∀ v ∈ m.vertices, c.Mem (toPoint v)) → ∀ p, b.Mem p → c.Mem p) := by
  obtain ⟨h1, h2⟩ := C14_box_fromPoints (m.vertices.map toPoint)
  refine ⟨by rw [← List.map_eq_nil_iff (f := toPoint)]; exact h1, fun hne => ?_⟩
  obtain ⟨b, hb, -, hmem, hmin⟩ := h2 (fun e => hne (List.map_eq_nil_iff.mp e))
  refine ⟨b, hb, fun v hv => hmem _ (List.mem_map_of_mem hv), fun c hc p hp => ?_⟩
  have hs := hmin c (by intro q hq; obtain ⟨v, hv, rfl⟩ := List.mem_map.mp hq; exact hc v hv)
  exact hs p hp

/-! ## Export as triangle faces -/

/-- All the sides of a triangle are longer than `d` (specification). -/
def SidesOver (d : ℝ) (t : Tri) : Prop :=
  d < V3.pointDistance t.1 t.2.1 ∧ d < V3.pointDistance t.2.1 t.2.2 ∧ d < V3.pointDistance t.1 t.2.2

/-- C162 at full strength: the faces exported are the triangles of the mesh that are not flat. -/
def C162_full_statement : Prop :=
  ∀ m : Mesh ℝ, m.Valid → (∀ v ∈ m.vertices, v.length = 3) → (∀ t ∈ tris m, area t ≠ 0) →
    ∃ l, toTriangles m = some l ∧ l.map Triangle.points = tris m

theorem rowDist (a b : List ℝ) (ha : a.length = 3) (hb : b.length = 3) : rowDistSq a b = V3.pointDistance (toPoint a) (toPoint b) ^ 2 := by
  obtain ⟨x, y, z, rfl⟩ := List.length_eq_three.mp ha
  obtain ⟨x', y', z', rfl⟩ := List.length_eq_three.mp hb
  unfold V3.pointDistance
  rw [V3.norm_pow_two]
  simp [rowDistSq, toPoint, V3.dot]
  ring

theorem make_some (t : Tri) (h : area t ≠ 0) : ∃ T, Triangle.make t.1 t.2.1 t.2.2 = some T ∧ T.points = t := by
  obtain ⟨n, hn, -⟩ := (C99_normal t).2 h
  unfold normal at hn
  unfold Triangle.make
  cases hp : Surface.planeFrom3Points t.1 t.2.1 t.2.2 with
  | none => rw [hp] at hn; cases hn
  | some f => exact ⟨_, rfl, rfl⟩

theorem mapM_make (l : List (ℕ × ℕ × ℕ)) (g : ℕ × ℕ × ℕ → Tri) (h : ∀ t ∈ l, area (g t) ≠ 0) :
    ∃ L, l.mapM (fun (t : ℕ × ℕ × ℕ) => Triangle.make (g t).1 (g t).2.1 (g t).2.2) = some L ∧ L.map Triangle.points = l.map g := by
  induction l with
  | nil => exact ⟨[], rfl, rfl⟩
  | cons a l ih =>
    obtain ⟨L, hL, e⟩ := ih (fun t ht => h t (List.mem_cons_of_mem _ ht))
    obtain ⟨T, hT, eT⟩ := make_some (g a) (h a List.mem_cons_self)
    refine ⟨T :: L, ?_, by rw [List.map_cons, List.map_cons, e, eT]⟩
    rw [List.mapM_cons, hT, hL]
    rfl

open Classical in
/-- C162: `to_triangles3d` gives, in order, the triangles of the mesh all of whose sides are longer than a thousandth, provided these are
not flat; so all of them if no side is as short as that. -/
theorem C162_to_triangles_partial (m : Mesh ℝ) (hv : m.Valid) (hd : ∀ v ∈ m.vertices, v.length = 3)
    (ha : ∀ t ∈ tris m, SidesOver (1 / 1000) t → area t ≠ 0) :
    (∃ l, toTriangles m = some l ∧ l.map Triangle.points = (tris m).filter fun (t : Tri) => decide (SidesOver (1 / 1000) t)) ∧
    ((∀ t ∈ tris m, SidesOver (1 / 1000) t) → ∃ l, toTriangles m = some l ∧ l.map Triangle.points = tris m) := by
  have hrow : ∀ t ∈ m.triangles, (rows m t).1.length = 3 ∧ (rows m t).2.1.length = 3 ∧ (rows m t).2.2.length = 3 := by
    intro t ht
    obtain ⟨h1, h2, h3⟩ := hv t ht
    exact ⟨hd _ (row_mem m _ h1), hd _ (row_mem m _ h2), hd _ (row_mem m _ h3)⟩
  have key : ∀ t ∈ m.triangles, ((decide (1 / 10 ^ 6 < rowDistSq (m.vertices.getD t.1 []) (m.vertices.getD t.2.1 [])) &&
      decide (1 / 10 ^ 6 < rowDistSq (m.vertices.getD t.2.1 []) (m.vertices.getD t.2.2 [])) &&
      decide (1 / 10 ^ 6 < rowDistSq (m.vertices.getD t.1 []) (m.vertices.getD t.2.2 []))) = true ↔
        SidesOver (1 / 1000) (toPoint (rows m t).1, toPoint (rows m t).2.1, toPoint (rows m t).2.2)) := by
    intro t ht
    obtain ⟨h1, h2, h3⟩ := hrow t ht
    unfold rows at h1 h2 h3
    dsimp only at h1 h2 h3
    have sq : ∀ x : ℝ, 0 ≤ x → (1 / 10 ^ 6 < x ^ 2 ↔ 1 / 1000 < x) := by
      intro x hx
      rw [show (1 : ℝ) / 10 ^ 6 = (1 / 1000) ^ 2 by norm_num]
      exact pow_lt_pow_iff_left₀ (by norm_num) hx two_ne_zero
    rw [rowDist _ _ h1 h2, rowDist _ _ h2 h3, rowDist _ _ h1 h3]
    simp only [Bool.and_eq_true, decide_eq_true_eq]
    have pd : ∀ p q : V3 ℝ, 0 ≤ V3.pointDistance p q := fun p q => V3.norm_nonneg _
    rw [sq _ (pd _ _), sq _ (pd _ _), sq _ (pd _ _)]
    unfold SidesOver rows
    dsimp only
    tauto
  have hfil : (m.removeDegenerate (1 / 10 ^ 6)).triangles.map (fun (t : ℕ × ℕ × ℕ) => (toPoint (rows m t).1, toPoint (rows m t).2.1, toPoint (rows m t).2.2))
      = (tris m).filter fun (t : Tri) => decide (SidesOver (1 / 1000) t) := by
    rw [tris_eq, List.filter_map]
    congr 1
    unfold Mesh.removeDegenerate
    dsimp only
    apply List.filter_congr
    intro t ht
    have := key t ht
    rw [Bool.eq_iff_iff, this]
    simp only [Function.comp_apply, decide_eq_true_eq]
  have hmain : ∃ l, toTriangles m = some l ∧ l.map Triangle.points = (tris m).filter fun (t : Tri) => decide (SidesOver (1 / 1000) t) := by
    obtain ⟨L, hL, e⟩ := mapM_make (m.removeDegenerate (1 / 10 ^ 6)).triangles
      (fun (t : ℕ × ℕ × ℕ) => (toPoint (rows m t).1, toPoint (rows m t).2.1, toPoint (rows m t).2.2)) (by
        intro t ht
        have hmem : (toPoint (rows m t).1, toPoint (rows m t).2.1, toPoint (rows m t).2.2) ∈ (tris m).filter fun (t : Tri) => decide (SidesOver (1 / 1000) t) := by
          rw [← hfil]; exact List.mem_map_of_mem ht
        rw [List.mem_filter, decide_eq_true_eq] at hmem
        exact ha _ hmem.1 hmem.2)
    exact ⟨L, hL, by rw [e, hfil]⟩
  refine ⟨hmain, fun hall => ?_⟩
  obtain ⟨l, h1, h2⟩ := hmain
  refine ⟨l, h1, ?_⟩
  rw [h2, List.filter_eq_self]
  intro t ht
  exact decide_eq_true (hall t ht)

/-- C162: the triangles of a mesh of millimetre size (the unit is the metre) are lost: the tolerance is compared with squares. -/
theorem C162_counterexample : ¬ C162_full_statement := by
  intro h
  have hpos : ∀ t ∈ tris ⟨[[0, 0, 0], [1 / 1000, 0, 0], [0, 1 / 1000, 0]], [(0, 1, 2)]⟩, area t ≠ 0 := by
    intro t ht
    simp only [tris, Mesh.geom, Mesh.row, List.map_cons, List.map_nil, List.mem_singleton] at ht
    subst ht
    rw [C99_area]
    simp [toPoint, V3.cross, V3.norm]
  obtain ⟨l, hl, e⟩ := h ⟨[[0, 0, 0], [1 / 1000, 0, 0], [0, 1 / 1000, 0]], [(0, 1, 2)]⟩ (by
      intro t ht
      rw [List.mem_singleton] at ht
      subst ht
      simp) (by
      intro v hv
      simp only [List.mem_cons, List.not_mem_nil, or_false] at hv
      rcases hv with rfl | rfl | rfl <;> rfl) hpos
  have hnil : toTriangles ⟨[[0, 0, 0], [1 / 1000, 0, 0], [0, 1 / 1000, 0]], [(0, 1, 2)]⟩ = some [] := by
    unfold toTriangles
    have : (Mesh.removeDegenerate ⟨[[0, 0, 0], [1 / 1000, 0, 0], [0, 1 / 1000, 0]], [(0, 1, 2)]⟩ ((1 : ℝ) / 10 ^ 6)).triangles = [] := by
      simp [Mesh.removeDegenerate, rowDistSq]
      intro hcon
      norm_num at hcon
    rw [this]
    rfl
  rw [hnil] at hl
  obtain rfl := Option.some.inj hl
  simp [tris, Mesh.geom] at e

/-- A valid mesh with two triangles of sides over a thousandth. -/
example : ∃ m : Mesh ℝ, m.Valid ∧ m.triangles.length = 2 ∧ (∀ v ∈ m.vertices, v.length = 3) ∧ ∀ t ∈ tris m, SidesOver (1 / 1000) t ∧ area t ≠ 0 := by
  refine ⟨⟨[[0, 0, 0], [3, 0, 0], [0, 4, 0], [0, 0, 5]], [(0, 1, 2), (0, 2, 3)]⟩, ?_, rfl, ?_, ?_⟩
  · intro t ht
    simp only [List.mem_cons, List.not_mem_nil, or_false] at ht
    rcases ht with rfl | rfl <;> simp
  · intro v hv
    simp only [List.mem_cons, List.not_mem_nil, or_false] at hv
    rcases hv with rfl | rfl | rfl | rfl <;> rfl
  · intro t ht
    have lt : ∀ x y : ℝ, 0 ≤ x → x ^ 2 < y → x < Real.sqrt y := fun x y hx h => (Real.lt_sqrt hx).mpr h
    simp only [tris, Mesh.geom, Mesh.row, List.map_cons, List.map_nil, List.mem_cons, List.not_mem_nil, or_false] at ht
    rcases ht with rfl | rfl <;> refine ⟨⟨?_, ?_, ?_⟩, ?_⟩ <;> try (rw [C99_area])
    all_goals simp [toPoint, V3.cross, V3.norm, V3.pointDistance]
    all_goals first | (apply lt <;> norm_num) | norm_num

/-- Nearest vertices of two one-vertex meshes. -/
example : Nearest [[0, 0, 0]] [[1, 0, 0], [2, 0, 0]] [0] := by
  refine ⟨rfl, fun k hk => ?_⟩
  obtain rfl : k = 0 := by simpa using hk
  refine ⟨by simp, fun q hq => ?_⟩
  simp only [List.mem_cons, List.not_mem_nil, or_false] at hq
  rcases hq with rfl | rfl <;> simp [toPoint, V3.pointDistance, V3.norm]

end Volmdlr.Display
