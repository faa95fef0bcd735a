import Mathlib.Algebra.Order.Field.Basic
import Mathlib.Data.List.Lex
import Mathlib.Data.List.Sort

/-!
# Model of `volmdlr/display.py` (triangle meshes)

A numpy array of vertices is a list of rows, a row being a list of coordinates (2 or 3 of them), ordered
lexicographically as `np.unique(..., axis=0)` does.  Triangles are triples of natural numbers; negative numpy
indices are not modelled.  `none` stands for reading outside the vertex array.
-/

namespace Volmdlr

/-- display.py:339-372, 381-407: the data of `Mesh2D` and `Mesh3D` (colour, name and caches left out). -/
structure Mesh (K : Type*) where
  vertices : List (List K)
  triangles : List (ℕ × ℕ × ℕ)
deriving DecidableEq

section
variable {K : Type*} [Field K] [LinearOrder K]

/-- `np.unique(l, axis=0)`: the distinct elements in increasing order (numpy's specification; its sort is not
modelled). -/
def npUnique {α : Type*} [LinearOrder α] (l : List α) : List α :=
  l.foldr (fun a u => if a ∈ u then u else u.orderedInsert (· ≤ ·) a) []

/-- display.py:253-261 `triangles_vertices`: the rows read by fancy indexing. -/
def Mesh.trianglesVertices (m : Mesh K) : List (Option (List K) × Option (List K) × Option (List K)) :=
  m.triangles.map fun t => (m.vertices[t.1]?, m.vertices[t.2.1]?, m.vertices[t.2.2]?)

/-- Squared distance of two rows, `np.sum((v0 - v1) ** 2, axis=1)` in display.py:99-101. -/
def rowDistSq (a b : List K) : K := ((List.zipWith (fun x y => (x - y) ^ 2) a b)).sum

/-- display.py:79-111 `remove_degenerate_triangles`. -/
def Mesh.removeDegenerate (m : Mesh K) (tol : K) : Mesh K :=
  { m with triangles := m.triangles.filter fun t =>
      let v0 := m.vertices.getD t.1 []
      let v1 := m.vertices.getD t.2.1 []
      let v2 := m.vertices.getD t.2.2 []
      decide (tol < rowDistSq v0 v1) && decide (tol < rowDistSq v1 v2) && decide (tol < rowDistSq v0 v2) }

/-- display.py:147-160 `merge_vertices`. -/
def Mesh.mergeVertices (m : Mesh K) : Mesh K :=
  let u := npUnique m.vertices
  let map := fun i => u.idxOf (m.vertices.getD i [])
  ⟨u, m.triangles.map fun t => (map t.1, map t.2.1, map t.2.2)⟩

/-- display.py:172: one row of `np.sort(self.triangles, axis=1)`. -/
def sortTri (t : ℕ × ℕ × ℕ) : List ℕ := [t.1, t.2.1, t.2.2].insertionSort (· ≤ ·)

/-- display.py:162-176 `merge_triangles`; `return_index` gives the first occurrence. -/
def Mesh.mergeTriangles (m : Mesh K) : Mesh K :=
  let sorted := m.triangles.map sortTri
  { m with triangles := (npUnique sorted).map fun s => m.triangles.getD (sorted.idxOf s) (0, 0, 0) }

/-- display.py:178-191 `split_shared_vertices`. -/
def Mesh.splitShared (m : Mesh K) : Mesh K :=
  ⟨m.triangles.flatMap fun t => [m.vertices.getD t.1 [], m.vertices.getD t.2.1 [], m.vertices.getD t.2.2 []],
   (List.range m.triangles.length).map fun i => (3 * i, 3 * i + 1, 3 * i + 2)⟩

/-- display.py:113-145 `merge` (of two meshes of the same class). -/
def Mesh.merge (self other : Mesh K) (mv mt : Bool) : Mesh K :=
  if self.vertices.length = 0 ∨ self.triangles.length = 0 then other
  else if other.vertices.length = 0 ∨ other.triangles.length = 0 then self
  else
    let n := self.vertices.length
    let mesh : Mesh K :=
      ⟨self.vertices ++ other.vertices, self.triangles ++ other.triangles.map fun t => (t.1 + n, t.2.1 + n, t.2.2 + n)⟩
    let mesh := if mv then mesh.mergeVertices else mesh
    if mt then mesh.mergeTriangles else mesh

/-- display.py:193-203 `__add__`. -/
def Mesh.add (a b : Mesh K) : Mesh K := a.merge b false false
/-- display.py:205-215 `__or__`. -/
def Mesh.or (a b : Mesh K) : Mesh K := a.merge b true true

/-- display.py:217-238 `from_meshes`. -/
def Mesh.fromMeshes (l : List (Mesh K)) (mv mt : Bool) : Mesh K :=
  l.foldl (fun acc m => acc.merge m mv mt) ⟨[], []⟩

/-- display.py:241-251 `check_consistency`; `none` is the `ValueError` of `np.max` of an empty array. -/
def Mesh.checkConsistency (m : Mesh K) : Option Bool :=
  match m.triangles with
  | [] => none
  | _ => some (decide ((m.triangles.foldr (fun t a => max (max t.1 (max t.2.1 t.2.2)) a) 0) < m.vertices.length))

/-- display.py:466-475 `get_edges_triangles`, flattened as in `get_mesh_border` (display.py:503). -/
def Mesh.edges (m : Mesh K) : List (ℕ × ℕ) :=
  m.triangles.flatMap fun t => [(t.1, t.2.1), (t.1, t.2.2), (t.2.1, t.2.2)]

/-- `np.sort(edges, axis=1)` on one edge. -/
def sortEdge (e : ℕ × ℕ) : List ℕ := [min e.1 e.2, max e.1 e.2]

/-- display.py:492-507 `get_mesh_border`: the border edges. -/
def Mesh.border (m : Mesh K) : List (List ℕ) :=
  let es := m.edges.map sortEdge
  (npUnique es).filter fun e => es.count e = 1

/-- The flattened lists of `to_dict`, display.py:299-306. -/
structure MeshDict (K : Type*) where
  vertices : List K
  triangles : List ℕ

/-- display.py:299-306 `to_dict`. -/
def Mesh.toDict (m : Mesh K) : MeshDict K :=
  ⟨m.vertices.flatten, m.triangles.flatMap fun t => [t.1, t.2.1, t.2.2]⟩

/-- `np.array(l).reshape(-1, 3)`; `none` is the `ValueError` when the size is not a multiple of 3. -/
def reshape3 {α : Type*} : List α → Option (List (α × α × α))
  | [] => some []
  | a :: b :: c :: l => (reshape3 l).map ((a, b, c) :: ·)
  | _ => none

/-- display.py:308-317 `dict_to_object`. -/
def Mesh.dictToObject (d : MeshDict K) : Option (Mesh K) :=
  match reshape3 d.vertices, reshape3 d.triangles with
  | some v, some t => some ⟨v.map fun r => [r.1, r.2.1, r.2.2], t⟩
  | _, _ => none

end
end Volmdlr
