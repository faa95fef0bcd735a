import Verif.Gmsh.ReadProps

/-!
# Writing `.vtk` files from a gmsh file (C123)
-/

namespace Volmdlr.Gmsh
set_option linter.unusedSectionVars false
variable {K : Type*} [Field K] [LinearOrder K]

/-- The cell types of VTK: number of nodes (1 vertex, 3 line, 5 triangle, 10 tetrahedron, 21 quadratic edge, 22 quadratic triangle, 24 quadratic
tetrahedron). -/
def vtkNodes : ℕ → ℕ
  | 1 => 1
  | 3 => 2
  | 5 => 3
  | 10 => 4
  | 21 => 3
  | 22 => 6
  | 24 => 10
  | _ => 0

/-- The element types of gmsh that are written and the cell types of VTK for them: lines, triangles, tetrahedra, and the quadratic ones. -/
def written : List (ℤ × ℕ) := [(1, 3), (2, 5), (4, 10), (8, 21), (9, 22), (11, 24)]

/-- The elements of a type. -/
def elementsOf (els : Elements K) (t : ℤ) : List (List ℤ) := ((els (.int t)).getD []).flatten

/-- The cells and their types form a file that VTK can read, for a number of points: the counts are right, each cell begins with its number of points, which is the
one of its type, and refers to points that exist. -/
def ValidVtk (points : ℕ) (c : Cells) (types : List ℕ) : Prop :=
  c.cells0 = c.lines.length ∧ c.cells1 = (c.lines.map List.length).sum ∧ types.length = c.lines.length ∧
  ∀ p ∈ c.lines.zip types, ∃ ids : List ℤ, p.1 = (ids.length : ℤ) :: ids ∧ ids.length = vtkNodes p.2 ∧ ∀ i ∈ ids, 0 ≤ i ∧ i < points

/-- The two tables, together: type of gmsh, first word, count of numbers, type of VTK. -/
theorem tables : cellTable = [(1, 2, 3, 3), (2, 3, 4, 5), (4, 4, 5, 10), (8, 3, 4, 21), (9, 6, 7, 22), (11, 10, 11, 24)].map
      (fun t : ℤ × ℤ × ℕ × ℕ => (t.1, t.2.1, t.2.2.1)) ∧
    typeTable = [(1, 2, 3, 3), (2, 3, 4, 5), (4, 4, 5, 10), (8, 3, 4, 21), (9, 6, 7, 22), (11, 10, 11, 24)].map
      (fun t : ℤ × ℤ × ℕ × ℕ => (t.1, t.2.2.2)) := ⟨rfl, rfl⟩

theorem foldl_length {α : Type*} (gs : List (List α)) (n : ℕ) : gs.foldl (fun count g => count + g.length) n = n + gs.flatten.length := by
  induction gs generalizing n with
  | nil => simp
  | cons g gs ih => rw [List.foldl_cons, ih, List.flatten_cons, List.length_append, Nat.add_assoc]

theorem zip_replicate_map {α β : Type*} (l : List α) (f : α → β) (t : ℕ) : (l.map f).zip (List.replicate l.length t) = l.map fun a => (f a, t) := by
  induction l with
  | nil => rfl
  | cons a l ih => rw [List.map_cons, List.length_cons, List.replicate_succ, List.zip_cons_cons, ih, List.map_cons]

theorem addCells_eq (els : Elements K) (c : Cells) (t : ℤ × ℤ × ℕ) :
    addCells els c t = ⟨c.lines ++ (elementsOf els t.1).map (fun e => t.2.1 :: e), c.cells0 + (elementsOf els t.1).length,
      c.cells1 + (elementsOf els t.1).length * t.2.2⟩ := by
  unfold addCells elementsOf
  cases h : els (.int t.1) with
  | none => simp
  | some gs => rfl

theorem addTypes_eq (els : Elements K) (l : List ℕ) (t : ℤ × ℕ) : addTypes els l t = l ++ List.replicate (elementsOf els t.1).length t.2 := by
  unfold addTypes elementsOf
  cases h : els (.int t.1) with
  | none => simp
  | some gs => simp only [Option.getD_some]; rw [foldl_length, Nat.zero_add]

theorem fold_tables (els : Elements K) : ∀ (tab : List (ℤ × ℤ × ℕ × ℕ)) (c : Cells) (l : List ℕ), l.length = c.lines.length → c.cells0 = c.lines.length →
    c.cells1 = (c.lines.map List.length).sum → (∀ t ∈ tab, ∀ e ∈ elementsOf els t.1, e.length + 1 = t.2.2.1) →
    let c' := (tab.map fun t : ℤ × ℤ × ℕ × ℕ => (t.1, t.2.1, t.2.2.1)).foldl (addCells els) c
    let l' := (tab.map fun t : ℤ × ℤ × ℕ × ℕ => (t.1, t.2.2.2)).foldl (addTypes els) l
    l'.length = c'.lines.length ∧ c'.cells0 = c'.lines.length ∧ c'.cells1 = (c'.lines.map List.length).sum ∧
      c'.lines.zip l' = c.lines.zip l ++ tab.flatMap fun t : ℤ × ℤ × ℕ × ℕ => (elementsOf els t.1).map fun e => (t.2.1 :: e, t.2.2.2)
  | [], c, l, h1, h2, h3, _ => by simp [h1, h2, h3]
  | t :: tab, c, l, h1, h2, h3, h4 => by
    simp only [List.map_cons, List.foldl_cons]
    rw [addCells_eq, addTypes_eq]
    have hsum : ((elementsOf els t.1).map fun e => (t.2.1 :: e).length).sum = (elementsOf els t.1).length * t.2.2.1 := by
      have := h4 t (.head _)
      revert this
      induction elementsOf els t.1 with
      | nil => intro _; simp
      | cons e es ih =>
        intro this
        rw [List.map_cons, List.sum_cons, ih fun e he => this e (.tail _ he), List.length_cons, this e (.head _), List.length_cons]
        ring
    obtain ⟨k1, k2, k3, k4⟩ := fold_tables els tab
      ⟨c.lines ++ (elementsOf els t.1).map (fun e => t.2.1 :: e), c.cells0 + (elementsOf els t.1).length, c.cells1 + (elementsOf els t.1).length * t.2.2.1⟩
      (l ++ List.replicate (elementsOf els t.1).length t.2.2.2) (by simp [h1]) (by simp [h2])
      (by rw [h3, List.map_append, List.sum_append, List.map_map, ← hsum]; rfl) fun t ht => h4 t (.tail _ ht)
    refine ⟨k1, k2, k3, ?_⟩
    rw [k4, List.zip_append (by rw [h1]), zip_replicate_map, List.flatMap_cons, List.append_assoc]

/-- **C123** the cells of the `.vtk` file: when the nodes of dimension 0 exist, every element of the six types has the number of nodes of its type and refers to
nodes that exist, the file is valid; it has one vertex for each block of dimension 0, and then exactly the elements of the six types, in order, each with the
cell type that VTK has for it. -/
theorem C123_cells_partial (nodes : Nodes K) (els : Elements K) (d all : List _) (hd : nodes.byDim (.int 0) = some d) (_ha : nodes.all = some all)
    (hv : d.length ≤ all.length) (he : ∀ t ∈ written, ∀ e ∈ elementsOf els t.1, e.length = vtkNodes t.2 ∧ ∀ i ∈ e, 0 ≤ i ∧ i < all.length) :
    ∃ c types, cellLines nodes els = .ok c ∧ typeLines nodes els = .ok types ∧ ValidVtk all.length c types ∧
      c.lines.zip types = (List.range d.length).map (fun i : ℕ => ([1, (i : ℤ)], 1)) ++
        written.flatMap fun t : ℤ × ℕ => (elementsOf els t.1).map fun e : List ℤ => ((e.length : ℤ) :: e, t.2) := by
  obtain ⟨k1, k2, k3, k4⟩ := fold_tables els [(1, 2, 3, 3), (2, 3, 4, 5), (4, 4, 5, 10), (8, 3, 4, 21), (9, 6, 7, 22), (11, 10, 11, 24)]
    ⟨(List.range d.length).map fun i : ℕ => [1, (i : ℤ)], d.length, d.length * 2⟩ (List.replicate d.length 1) (by simp) (by simp) (by
      rw [List.map_map]
      have : List.length ∘ (fun i : ℕ => [1, (i : ℤ)]) = fun _ : ℕ => 2 := rfl
      rw [this]
      simp) (by
      intro t ht e hem
      simp only [List.mem_cons, List.not_mem_nil, or_false] at ht
      rcases ht with rfl | rfl | rfl | rfl | rfl | rfl
      · rw [(he (1, 3) (by simp [written]) e hem).1]; rfl
      · rw [(he (2, 5) (by simp [written]) e hem).1]; rfl
      · rw [(he (4, 10) (by simp [written]) e hem).1]; rfl
      · rw [(he (8, 21) (by simp [written]) e hem).1]; rfl
      · rw [(he (9, 22) (by simp [written]) e hem).1]; rfl
      · rw [(he (11, 24) (by simp [written]) e hem).1]; rfl)
  rw [← tables.1] at k1 k2 k3 k4
  rw [← tables.2] at k1 k4
  have hzip : ∀ n : ℕ, ((List.range n).map fun i : ℕ => [1, (i : ℤ)]).zip (List.replicate n 1) = (List.range n).map fun i : ℕ => ([1, (i : ℤ)], 1) := by
    intro n
    have := zip_replicate_map (List.range n) (fun i : ℕ => [1, (i : ℤ)]) 1
    rw [List.length_range] at this
    exact this
  have hl : ∀ t ∈ written, (elementsOf els t.1).map (fun e : List ℤ => (((vtkNodes t.2 : ℕ) : ℤ) :: e, t.2)) =
      (elementsOf els t.1).map fun e : List ℤ => ((e.length : ℤ) :: e, t.2) := by
    intro t ht
    refine List.map_congr_left fun e hem => ?_
    rw [(he t ht e hem).1]
  have hw : ([(1, 2, 3, 3), (2, 3, 4, 5), (4, 4, 5, 10), (8, 3, 4, 21), (9, 6, 7, 22), (11, 10, 11, 24)] : List (ℤ × ℤ × ℕ × ℕ)).flatMap
      (fun t : ℤ × ℤ × ℕ × ℕ => (elementsOf els t.1).map fun e => (t.2.1 :: e, t.2.2.2)) =
      written.flatMap fun t : ℤ × ℕ => (elementsOf els t.1).map fun e : List ℤ => ((e.length : ℤ) :: e, t.2) := by
    rw [List.flatMap_def, List.flatMap_def, ← List.map_congr_left hl]
    rfl
  rw [hzip, hw] at k4
  refine ⟨_, _, by unfold cellLines; rw [hd], by unfold typeLines; rw [hd], ⟨k2, k3, k1, ?_⟩, k4⟩
  intro p hp
  rw [k4] at hp
  rcases List.mem_append.1 hp with hp | hp
  · obtain ⟨i, hi, rfl⟩ := List.mem_map.1 hp
    refine ⟨[(i : ℤ)], rfl, rfl, ?_⟩
    intro j hj
    rw [List.mem_singleton] at hj
    subst hj
    have := List.mem_range.1 hi
    omega
  · obtain ⟨t, ht, hp⟩ := List.mem_flatMap.1 hp
    obtain ⟨e, hem, rfl⟩ := List.mem_map.1 hp
    exact ⟨e, rfl, (he t ht e hem).1, (he t ht e hem).2⟩

/-- **C123** the lines of the points: each node in order, with three coordinates, the third one 0 for nodes of the plane. -/
theorem C123_points (blocks : List (NodeBlock K)) (lo hi : ℤ) (h : blocks.flatMap NodeBlock.points ≠ []) (nodes : Nodes K) (fuel : ℕ)
    (hf : blocks.length ≤ fuel) (hn : fromFileNodes fuel (nodesSection blocks lo hi) = some (.ok nodes)) :
    nodeLines nodes = .ok ((blocks.flatMap NodeBlock.points).map fun p : V3 K => [p.x, p.y, p.z]) := by
  obtain ⟨nodes', flat, n1, n2, n3, -⟩ := C120_nodes blocks lo hi (by rintro rfl; exact h rfl)
  rw [n1 fuel hf] at hn
  have hn := Except.ok.inj (Option.some.inj hn)
  subst hn
  unfold nodeLines
  rw [n3]
  have hz : flat = true → ∀ p ∈ blocks.flatMap NodeBlock.points, p.z = 0 := by
    intro ht p hp
    obtain ⟨b, hb, hp⟩ := List.mem_flatMap.1 hp
    obtain ⟨n, hn, rfl⟩ := List.mem_map.1 hp
    exact n2.1 ht b hb n hn
  cases hl : blocks.flatMap NodeBlock.points with
  | nil => exact absurd hl h
  | cons p l =>
    rw [hl] at hz
    cases flat with
    | true =>
      have hz := hz rfl
      change Except.ok (((p :: l).map (asNode true)).map _) = _
      rw [List.map_map]
      congr 1
      refine List.map_congr_left fun q hq => ?_
      rw [hz q hq]
      rfl
    | false =>
      change Except.ok (((p :: l).map (asNode false)).map _) = _
      rw [List.map_map]
      rfl

/-- The full claim on what is written: it never fails for a file with nodes, and every element of the file is in it. -/
def C123_full_statement (K : Type) [Field K] [LinearOrder K] : Prop :=
  (∀ (nodes : Nodes K) (els : Elements K) (n : Node K), nodes.all = some [n] → ∃ c, cellLines nodes els = .ok c) ∧
  ∀ (nodes : Nodes K) (els : Elements K) (c : Cells) (t : ℤ), cellLines nodes els = .ok c → ∀ e ∈ elementsOf els t, ∃ line ∈ c.lines, line.drop 1 = e

/-- **C123** both parts fail: without nodes of dimension 0 a `KeyError` is raised; elements of other types, as quadrangles (type 3), are forgotten. -/
theorem C123_counterexample : (∃ (nodes : Nodes ℚ) (n : Node ℚ), nodes.all = some [n] ∧ cellLines nodes (fun _ => none) = .error .keyError) ∧
    ∃ (nodes : Nodes ℚ) (els : Elements ℚ) (c : Cells), cellLines nodes els = .ok c ∧ [0, 1, 2, 3] ∈ elementsOf els 3 ∧
      ¬ ∃ line ∈ c.lines, line.drop 1 = [0, 1, 2, 3] := by
  refine ⟨⟨⟨fun _ => none, some [.d2 ⟨0, 0⟩]⟩, _, rfl, rfl⟩,
    ⟨fun w => if w = .int 0 then some [[.d2 ⟨0, 0⟩]] else none, some [.d2 ⟨0, 0⟩, .d2 ⟨1, 0⟩, .d2 ⟨1, 1⟩, .d2 ⟨0, 1⟩]⟩,
    fun w => if w = .int 3 then some [[[0, 1, 2, 3]]] else none, ⟨[[1, 0]], 1, 2⟩, rfl, by decide +kernel, ?_⟩
  rintro ⟨line, hl, he⟩
  simp only [List.mem_cons, List.not_mem_nil, or_false] at hl
  subst hl
  simp at he

theorem C123_not_full : ¬ C123_full_statement ℚ := by
  rintro ⟨-, h⟩
  obtain ⟨nodes, els, c, h1, h2, h3⟩ := C123_counterexample.2
  exact h3 (h nodes els c 3 h1 _ h2)

/-! ### Quadratic elements -/

/-- The edges whose middles are the last nodes of a quadratic element, in the order of gmsh. -/
def gmshEdges : ℤ → List (ℕ × ℕ)
  | 8 => [(0, 1)]
  | 9 => [(0, 1), (1, 2), (2, 0)]
  | 11 => [(0, 1), (1, 2), (2, 0), (3, 0), (3, 2), (3, 1)]
  | _ => []

/-- The same in the order of VTK. -/
def vtkEdges : ℕ → List (ℕ × ℕ)
  | 21 => [(0, 1)]
  | 22 => [(0, 1), (1, 2), (2, 0)]
  | 24 => [(0, 1), (1, 2), (0, 2), (0, 3), (1, 3), (2, 3)]
  | _ => []

/-- The node after the corners, for each edge, is the middle of the edge. -/
def Middles (points : ℤ → V3 K) (corners : ℕ) (edges : List (ℕ × ℕ)) (ids : List ℤ) : Prop :=
  ∀ (j : ℕ) (e : ℕ × ℕ), edges[j]? = some e → ∀ m a b, ids[corners + j]? = some m → ids[e.1]? = some a → ids[e.2]? = some b →
    points m + points m = points a + points b

/-- **C123** full claim for quadratic elements: when the nodes of an element are the middles that gmsh says, the cell written (`C123_cells_partial`: the same
numbers) has the middles that VTK says. -/
def C123_quadratic_full_statement (K : Type) [Field K] [LinearOrder K] : Prop :=
  ∀ (points : ℤ → V3 K) (t : ℤ × ℕ) (corners : ℕ), t ∈ written → (t.1, corners) ∈ [((8 : ℤ), 2), (9, 3), (11, 4)] → ∀ e : List ℤ,
    Middles points corners (gmshEdges t.1) e → Middles points corners (vtkEdges t.2) e

/-- **C123** true for the quadratic lines and triangles of the file. -/
theorem C123_quadratic_partial (points : ℤ → V3 K) (nodes : Nodes K) (els : Elements K) (d all : List _) (hd : nodes.byDim (.int 0) = some d)
    (ha : nodes.all = some all) (hv : d.length ≤ all.length)
    (he : ∀ t ∈ written, ∀ e ∈ elementsOf els t.1, e.length = vtkNodes t.2 ∧ ∀ i ∈ e, 0 ≤ i ∧ i < all.length)
    (h8 : ∀ e ∈ elementsOf els 8, Middles points 2 (gmshEdges 8) e) (h9 : ∀ e ∈ elementsOf els 9, Middles points 3 (gmshEdges 9) e) :
    ∃ c types, cellLines nodes els = .ok c ∧ typeLines nodes els = .ok types ∧ ∀ p ∈ c.lines.zip types,
      (p.2 = 21 → Middles points 2 (vtkEdges 21) (p.1.drop 1)) ∧ (p.2 = 22 → Middles points 3 (vtkEdges 22) (p.1.drop 1)) := by
  obtain ⟨c, types, h1, h2, -, h3⟩ := C123_cells_partial nodes els d all hd ha hv he
  refine ⟨c, types, h1, h2, fun p hp => ?_⟩
  rw [h3] at hp
  rcases List.mem_append.1 hp with hp | hp
  · obtain ⟨i, -, rfl⟩ := List.mem_map.1 hp
    exact ⟨fun h => by simp at h, fun h => by simp at h⟩
  · obtain ⟨t, ht, hp⟩ := List.mem_flatMap.1 hp
    obtain ⟨e, hem, rfl⟩ := List.mem_map.1 hp
    simp only [written, List.mem_cons, List.not_mem_nil, or_false] at ht
    rcases ht with rfl | rfl | rfl | rfl | rfl | rfl
    · exact ⟨fun h => by simp at h, fun h => by simp at h⟩
    · exact ⟨fun h => by simp at h, fun h => by simp at h⟩
    · exact ⟨fun h => by simp at h, fun h => by simp at h⟩
    · exact ⟨fun _ => h8 e hem, fun h => by simp at h⟩
    · exact ⟨fun h => by simp at h, fun _ => h9 e hem⟩
    · exact ⟨fun h => by simp at h, fun h => by simp at h⟩

/-- **C123** false for quadratic tetrahedra: the last two nodes should be exchanged. -/
theorem C123_quadratic_counterexample : ¬ C123_quadratic_full_statement ℚ := by
  intro h
  let P : List (V3 ℚ) := [⟨0, 0, 0⟩, ⟨2, 0, 0⟩, ⟨0, 2, 0⟩, ⟨0, 0, 2⟩, ⟨1, 0, 0⟩, ⟨1, 1, 0⟩, ⟨0, 1, 0⟩, ⟨0, 0, 1⟩, ⟨0, 1, 1⟩, ⟨1, 0, 1⟩]
  have := h (fun i => P.getD i.toNat ⟨0, 0, 0⟩) (11, 24) 4 (by simp [written]) (by simp) [0, 1, 2, 3, 4, 5, 6, 7, 8, 9] (by
    intro j e he m a b hm ha hb
    match j with
    | 0 | 1 | 2 | 3 | 4 | 5 =>
      have he := (Option.some.inj he).symm
      subst he
      have hm := Option.some.inj hm
      have ha := Option.some.inj ha
      have hb := Option.some.inj hb
      subst hm ha hb
      decide +kernel
    | j + 6 => simp [gmshEdges] at he)
  have := this 4 (1, 3) rfl 8 1 3 rfl rfl rfl
  exact absurd this (by decide +kernel)

/-! ### Examples -/

example : ∃ c types, cellLines (⟨fun w => if w = .int 0 then some [[.d2 ⟨0, 0⟩], [.d2 ⟨1, 0⟩]] else none,
    some [.d2 ⟨0, 0⟩, .d2 ⟨1, 0⟩, .d2 ⟨1, 1⟩]⟩ : Nodes ℚ) (fun w => if w = .int 2 then some [[[0, 1, 2]]] else none) = .ok c ∧ ValidVtk 3 c types := by
  obtain ⟨c, types, h1, -, h2, -⟩ := C123_cells_partial (⟨fun w => if w = .int 0 then some [[.d2 ⟨0, 0⟩], [.d2 ⟨1, 0⟩]] else none,
    some [.d2 ⟨0, 0⟩, .d2 ⟨1, 0⟩, .d2 ⟨1, 1⟩]⟩ : Nodes ℚ) (fun w => if w = .int 2 then some [[[0, 1, 2]]] else none) _ _ rfl rfl (by simp) (by decide +kernel)
  exact ⟨c, types, h1, h2⟩
example : ∃ nodes, fromFileNodes 4 (nodesSection exampleBlocks 1 4) = some (.ok nodes) ∧
    nodeLines nodes = .ok [[0, 0, 0], [1, 0, 0], [1, 1, 0], [0, 1, 0]] := by
  obtain ⟨nodes, flat, h1, -⟩ := C120_nodes exampleBlocks 1 4 (by decide)
  exact ⟨nodes, h1 4 (by decide), C123_points exampleBlocks 1 4 (by decide +kernel) nodes 4 (by decide) (h1 4 (by decide))⟩

end Volmdlr.Gmsh
