import Verif.Mesh.Model
import Verif.Tri.Model
import Verif.BBox.Model

/-!
# Measures and exports of display meshes (display.py)

`area`, `minimum_distance`, `compute_len_edges`, `remove_large_triangles`, `resize`, `bounding_box`, `to_triangles3d`.  A row of the vertex
array becomes a point by its first three coordinates.
-/

namespace Volmdlr.Display

/-- `volmdlr.Point3D(*vertex)` (display.py:846-848): the three coordinates of a row. -/
def toPoint (r : List ℝ) : V3 ℝ := ⟨r.getD 0 0, r.getD 1 0, r.getD 2 0⟩

/-- The two coordinates of a row of a `Mesh2D`. -/
def toPoint2 (r : List ℝ) : V2 ℝ := ⟨r.getD 0 0, r.getD 1 0⟩

/-- The rows of a triangle (display.py:261, fancy indexing). -/
def rows (m : Mesh ℝ) (t : ℕ × ℕ × ℕ) : List ℝ × List ℝ × List ℝ :=
  (m.vertices.getD t.1 [], m.vertices.getD t.2.1 [], m.vertices.getD t.2.2 [])

/-- display.py:264-272 `triangles_cross_products` of a `Mesh3D`: `np.diff` gives the vectors from the first to the second and from the
second to the third vertex. -/
noncomputable def crossProducts3 (m : Mesh ℝ) : List (V3 ℝ) :=
  m.triangles.map fun (t : ℕ × ℕ × ℕ) =>
    let r := rows m t
    V3.cross (toPoint r.2.1 - toPoint r.1) (toPoint r.2.2 - toPoint r.2.1)

/-- display.py:422-430 `Mesh3D.area`. -/
noncomputable def area3 (m : Mesh ℝ) : ℝ :=
  ((crossProducts3 m).map fun (c : V3 ℝ) => Real.sqrt (c.x ^ 2 + c.y ^ 2 + c.z ^ 2) / 2).sum

/-- display.py:264-272 `triangles_cross_products` of a `Mesh2D` (`np.cross` of plane vectors is a number). -/
noncomputable def crossProducts2 (m : Mesh ℝ) : List ℝ :=
  m.triangles.map fun (t : ℕ × ℕ × ℕ) =>
    let r := rows m t
    V2.cross (toPoint2 r.2.1 - toPoint2 r.1) (toPoint2 r.2.2 - toPoint2 r.2.1)

/-- display.py:362-370 `Mesh2D.area`. -/
noncomputable def area2 (m : Mesh ℝ) : ℝ := ((crossProducts2 m).map fun (c : ℝ) => Real.sqrt (c ^ 2) / 2).sum

/-- display.py:53-63 `resize`. -/
noncomputable def resize (m : Mesh ℝ) (factor : ℝ) : Mesh ℝ :=
  ⟨m.vertices.map fun (r : List ℝ) => r.map fun (x : ℝ) => x * factor, m.triangles⟩

/-- display.py:404-416 `Mesh3D.bounding_box`, first call; the minimum of an empty array is a `ValueError`. -/
noncomputable def boundingBox (m : Mesh ℝ) : Except PyErr (Box3 ℝ) := Box3.fromPoints (m.vertices.map toPoint)

/-- display.py:478-490 `compute_len_edges`: the lengths of the three edges of each triangle. -/
noncomputable def lenEdges (m : Mesh ℝ) : List (List ℝ) :=
  m.triangles.map fun (t : ℕ × ℕ × ℕ) => [(t.1, t.2.1), (t.1, t.2.2), (t.2.1, t.2.2)].map fun (e : ℕ × ℕ) =>
    V3.pointDistance (toPoint (m.vertices.getD e.1 [])) (toPoint (m.vertices.getD e.2 []))

open Classical in
/-- display.py:509-527 `remove_large_triangles`. -/
noncomputable def removeLarge (m : Mesh ℝ) (threshold : ℝ) : Mesh ℝ :=
  ⟨m.vertices, ((m.triangles.zip (lenEdges m)).filter fun (e : (ℕ × ℕ × ℕ) × List ℝ) => e.2.all fun (l : ℝ) => decide (l < threshold)).map Prod.fst⟩

/-- `min` of an array (display.py:458); `none`: a `ValueError` for an empty array. -/
noncomputable def arrayMin : List ℝ → Option ℝ
  | [] => none
  | a :: l => some (listMin a l)

/-- display.py:432-464 `minimum_distance`: `toOther`, `toSelf` are the indices given by the two queries of the trees. -/
noncomputable def minimumDistance (m o : Mesh ℝ) (toOther toSelf : List ℕ) : Option ℝ :=
  (arrayMin ((m.vertices.zip toOther).map fun (e : List ℝ × ℕ) => V3.pointDistance (toPoint e.1) (toPoint (o.vertices.getD e.2 [])))).bind fun d1 =>
    (arrayMin ((o.vertices.zip toSelf).map fun (e : List ℝ × ℕ) => V3.pointDistance (toPoint e.1) (toPoint (m.vertices.getD e.2 [])))).map fun d2 =>
      min d1 d2

/-- display.py:460-463: the closest points returned with `return_points`. -/
def closestPoints (m o : Mesh ℝ) (toOther toSelf : List ℕ) : List (List ℝ) × List (List ℝ) :=
  (toSelf.map fun (i : ℕ) => m.vertices.getD i [], toOther.map fun (i : ℕ) => o.vertices.getD i [])

/-- display.py:834-852 `to_triangles3d`; `none`: an exception of the constructor of a triangle. -/
noncomputable def toTriangles (m : Mesh ℝ) : Option (List Triangles.Triangle) :=
  (m.removeDegenerate (1 / 10 ^ 6)).triangles.mapM fun (t : ℕ × ℕ × ℕ) =>
    let r := rows m t
    Triangles.Triangle.make (toPoint r.1) (toPoint r.2.1) (toPoint r.2.2)

end Volmdlr.Display
