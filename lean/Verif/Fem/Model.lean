import Verif.Frame.Model

/-!
# Model of `volmdlr/mesh.py`: finite elements and meshes of elements
-/

namespace Volmdlr.Fem

variable {K : Type*} [Field K] [LinearOrder K]

/-- mesh.py:339-352 (and 196-209) `TriangularElement2D._form_functions`: the coefficients of the three form functions,
`x_i = (a, b, c)` for `N_i(x, y) = a + b x + c y`; the error is `FlatElementError`. -/
def triForm (p0 p1 p2 : V2 K) : Except PyErr (V3 K × V3 K × V3 K) :=
  match M33.inverse (⟨1, p0.x, p0.y, 1, p1.x, p1.y, 1, p2.x, p2.y⟩ : M33 K) with
  | .error e => .error e
  | .ok inv => .ok (M33.mulVec inv ⟨1, 0, 0⟩, M33.mulVec inv ⟨0, 1, 0⟩, M33.mulVec inv ⟨0, 0, 1⟩)

/-- mesh.py:354-357 (and 238-241) `TriangularElement2D._area`. -/
def triArea (p0 p1 p2 : V2 K) : K := |V2.cross (p1 - p0) (p2 - p0)| / 2

/-- mesh.py:307 `center`. -/
def triCenter (p0 p1 p2 : V2 K) : V2 K := ⟨(p0.x + p1.x + p2.x) / 3, (p0.y + p1.y + p2.y) / 3⟩

/-- mesh.py:313-330 one of the three interior normals of `_to_linear_elements`: normal of the edge `a → b`, turned towards the vector
`c - b` of the following edge; `none` is the `ZeroDivisionError` of `unit_vector`. -/
noncomputable def interiorNormal (a b c : V2 ℝ) : Option (V2 ℝ) :=
  let vec1 : V2 ℝ := ⟨b.x - a.x, b.y - a.y⟩
  let vec2 : V2 ℝ := ⟨c.x - b.x, c.y - b.y⟩
  (V2.unitVector ⟨-vec1.y, vec1.x⟩).map fun n => if V2.dot n vec2 < 0 then -n else n

/-- mesh.py:312-337 `_to_linear_elements`: the three interior normals. -/
noncomputable def linearElements (p0 p1 p2 : V2 ℝ) : Option (V2 ℝ × V2 ℝ × V2 ℝ) := do
  let n1 ← interiorNormal p0 p1 p2
  let n2 ← interiorNormal p1 p2 p0
  let n3 ← interiorNormal p2 p0 p1
  return (n1, n2, n3)

/-- `npy.linalg.det` of a 3×3 array given by rows (exact arithmetic). -/
def det3 (a b c : V3 K) : K :=
  a.x * (b.y * c.z - b.z * c.y) - a.y * (b.x * c.z - b.z * c.x) + a.z * (b.x * c.y - b.y * c.x)

/-- mesh.py:483-489 `TetrahedralElement._volume`. -/
def tetVolume (p0 p1 p2 p3 : V3 K) : K := |1 / 6 * det3 (p1 - p0) (p2 - p0) (p3 - p0)|

/-- mesh.py:494-506: the four numbers of one form function, from the three other points, in order, and the sign `coeff[i]`. -/
def tetFormRow (coeff : K) (a b c : V3 K) : K × K × K × K :=
  (coeff * det3 a b c,
   -1 * coeff * det3 ⟨1, a.y, a.z⟩ ⟨1, b.y, b.z⟩ ⟨1, c.y, c.z⟩,
   coeff * det3 ⟨1, a.x, a.z⟩ ⟨1, b.x, b.z⟩ ⟨1, c.x, c.z⟩,
   -1 * coeff * det3 ⟨1, a.x, a.y⟩ ⟨1, b.x, b.y⟩ ⟨1, c.x, c.y⟩)

/-- mesh.py:491-508 `TetrahedralElement._form_functions`. -/
def tetForm (p0 p1 p2 p3 : V3 K) : (K × K × K × K) × (K × K × K × K) × (K × K × K × K) × (K × K × K × K) :=
  (tetFormRow 1 p1 p2 p3, tetFormRow (-1) p0 p2 p3, tetFormRow 1 p0 p1 p3, tetFormRow (-1) p0 p1 p2)

/-- mesh.py:455 `center`. -/
def tetCenter (p0 p1 p2 p3 : V3 K) : V3 K :=
  ⟨(p0.x + p1.x + p2.x + p3.x) / 4, (p0.y + p1.y + p2.y + p3.y) / 4, (p0.z + p1.z + p2.z + p3.z) / 4⟩

/-- mesh.py:461-472 `_triangular_elements`: `itertools.combinations(range(4), 3)` of the points. -/
def tetFaces {P : Type*} (p0 p1 p2 p3 : P) : List (P × P × P) := [(p0, p1, p2), (p0, p1, p3), (p0, p2, p3), (p1, p2, p3)]

/-! ### Groups and meshes

The points of a mesh are a type `P` with exact equality (simplification: equality and hash of `Node2D`/`Node3D` are those of exact
equality; what they really are is property C13), an element is the list of its points.  Python sets are lists in an arbitrary order: the
enumeration of the set of the elements of a list is a parameter `enum`. -/

variable {P : Type*} [DecidableEq P]

/-- mesh.py:526-542 `ElementsGroup`: elements and the set `nodes`, in the order in which it is enumerated. -/
structure Group (P : Type*) where
  elements : List (List P)
  nodes : List P

/-- mesh.py:535-549 `ElementsGroup.__init__`, `_nodes`. -/
def Group.make (enum : List P → List P) (elements : List (List P)) : Group P := ⟨elements, enum elements.flatten⟩

/-- A Python dictionary, the last association first. -/
def dictGet {V : Type*} (d : List (P × V)) (k : P) : Option V := (d.find? fun e => e.1 = k).map Prod.snd

/-- `dict[point].append(element)`, or a new list when the key is missing (mesh.py:575-578). -/
def dictAppend {V : Type*} (d : List (P × List V)) (k : P) (v : V) : List (P × List V) :=
  match dictGet d k with
  | some l => (k, l ++ [v]) :: d.filter fun e => e.1 ≠ k
  | none => (k, [v]) :: d

/-- mesh.py:566-580 `ElementsGroup.elements_per_node` (the cache is filled once and the elements do not change). -/
def Group.elementsPerNode (g : Group P) : List (P × List (List P)) :=
  g.elements.foldl (fun d element => element.foldl (fun d point => dictAppend d point element) d) []

/-- mesh.py:551-564 `ElementsGroup.point_to_element` with the membership test of the elements. -/
def Group.pointToElement (g : Group P) (belongs : List P → Bool) : Option (List P) := g.elements.find? belongs

/-- mesh.py:611-626 `Mesh`: the groups, the tuple of nodes, the cached corrections; `gmsh` says whether `_gmsh` is a `GmshParser`. -/
structure MeshState (P : Type*) where
  groups : List (Group P)
  nodes : List P
  correction : List (P × P)
  gmsh : Bool

/-- mesh.py:620-637 `Mesh.__init__`. -/
def MeshState.make (enum : List P → List P) (groups : List (Group P)) : MeshState P :=
  ⟨groups, enum (groups.flatMap fun g => g.elements.flatten), [], false⟩

/-- mesh.py:623 `node_to_index`. -/
def MeshState.nodeToIndex (m : MeshState P) : List (P × ℕ) := (m.nodes.zipIdx).reverse

/-- mesh.py:639-644 `Mesh.point_to_element`. -/
def MeshState.pointToElement (m : MeshState P) (belongs : List P → Bool) : Option (List P) :=
  m.groups.findSome? fun g => g.pointToElement belongs

/-- mesh.py:702-707: the loops of `nodes_correction`. -/
def corrections (dist : P → P → K) (tol : K) (groups : List (Group P)) (ref : List P) : List (P × P) :=
  groups.foldl (fun d group => group.nodes.foldl (fun d node => ref.foldl (fun d r =>
    if 1 / 10 ^ 8 < dist node r ∧ dist node r < tol then (node, r) :: d else d) d) d) []

/-- mesh.py:695-711 `Mesh.nodes_correction`: the dictionary returned and the new state; out of range is `IndexError`. -/
def MeshState.nodesCorrection (dist : P → P → K) (m : MeshState P) (ref : ℕ) (tol : K) : Option (List (P × P) × MeshState P) :=
  if m.correction = [] then
    match m.groups[ref]? with
    | none => none
    | some g =>
      let d := corrections dist tol (m.groups.eraseIdx ref) g.nodes
      some (d, { m with correction := d })
  else some (m.correction, m)

/-- mesh.py:728-738: the new points of an element. -/
def correctElement (d : List (P × P)) (e : List P) : List P := e.map fun p => (dictGet d p).getD p

/-- mesh.py:713-752 `Mesh.delete_duplicated_nodes` and `_helper_create_mesh`: the result (`none` when an exception is raised) and the
new state of the mesh.  The assignment `mesh.gmsh = self.gmsh` raises `ValueError` unless it is a `GmshParser` (lines 787-798). -/
def MeshState.deleteDuplicatedNodes (enum : List P → List P) (dist : P → P → K) (m : MeshState P) (ref : ℕ) (tol : K) :
    Option (MeshState P) × MeshState P :=
  match m.groups[ref]? with
  | none => (none, m)
  | some g =>
    match m.nodesCorrection dist ref tol with
    | none => (none, m)
    | some (d, m') =>
      let groups := (m.groups.eraseIdx ref).map fun g => Group.make enum (g.elements.map (correctElement d))
      let groups := groups.insertIdx ref g
      if m.gmsh then (some { MeshState.make enum groups with correction := m'.correction, gmsh := true }, m')
      else (none, m')

/-- mesh.py:800-805 `Mesh.copy`. -/
def MeshState.copy (enum : List P → List P) (m : MeshState P) : Option (MeshState P) :=
  if m.gmsh then some { MeshState.make enum m.groups with correction := m.correction, gmsh := true } else none

/-- mesh.py:657-667 `Mesh.bounding_rectangle`, in the plane; `none` is the `ValueError` of `min` of an empty list. -/
def MeshState.boundingRectangle (m : MeshState (V2 K)) : Option (K × K × K × K) :=
  let x := m.nodes.map V2.x
  let y := m.nodes.map V2.y
  match x.min?, x.max?, y.min?, y.max? with
  | some a, some b, some c, some d => some (a, b, c, d)
  | _, _, _, _ => none

end Volmdlr.Fem
