import Verif.Tri.Model
import Verif.BBox.Model
import Verif.Mesh.Model
import Verif.Lists.Model

/-!
# Model of `shells.py`: volume of closed shells, triangle shells and their mesh data
-/

namespace Volmdlr.Shells

/-! ## Volume -/

section
variable {K : Type*} [Field K] [LinearOrder K]

/-- shells.py:1149-1160: the volume of the tetrahedron from the center to a triangle, the products written as in the code. -/
def tetraVolume (center : V3 K) (t : V3 K × V3 K × V3 K) : K :=
  let p1 : V3 K := ⟨t.1.x - center.x, t.1.y - center.y, t.1.z - center.z⟩
  let p2 : V3 K := ⟨t.2.1.x - center.x, t.2.1.y - center.y, t.2.1.z - center.z⟩
  let p3 : V3 K := ⟨t.2.2.x - center.x, t.2.2.y - center.y, t.2.2.z - center.z⟩
  1 / 6 * |-p3.x * p2.y * p1.z + p2.x * p3.y * p1.z + p3.x * p1.y * p2.z - p1.x * p3.y * p2.z - p2.x * p1.y * p3.z + p1.x * p2.y * p3.z|

/-- core.py:579-588 `BoundingBox.center`. -/
def boxCenter (b : Box3 K) : V3 K := ⟨1 / 2 * (b.xmin + b.xmax), 1 / 2 * (b.ymin + b.ymax), 1 / 2 * (b.zmin + b.zmax)⟩

/-- shells.py:1137-1164 `ClosedShell3D.volume`, from the bounding box and the triangles of the triangulations of the faces, all faces together. -/
def volume (box : Box3 K) (tris : List (V3 K × V3 K × V3 K)) : K :=
  |tris.foldl (fun v t => v + tetraVolume (boxCenter box) t) 0|

/-- shells.py:1819-1826 `OpenTriangleShell3D.get_bounding_box`; the error is that of `np.min` of an empty array. -/
def triangleShellBox (tris : List (V3 K × V3 K × V3 K)) : Except PyErr (Box3 K) :=
  Box3.fromPoints (tris.flatMap fun t => [t.1, t.2.1, t.2.2])

/-- `ClosedTriangleShell3D.volume`: shells.py:1137-1164 with the box of 1819-1826; the triangulation of a triangle (faces.py:2339-2341) is itself. -/
def triangleShellVolume (tris : List (V3 K × V3 K × V3 K)) : Except PyErr K := (triangleShellBox tris).map fun b => volume b tris

end

/-! ## Mesh data of triangle shells -/

section
variable {K : Type*} [Field K] [LinearOrder K] [FloorRing K]

/-- `np.round(x, n)` (ties to even). -/
def npRound (n : ℕ) (x : K) : K := pyRound (x * 10 ^ n) / 10 ^ n

/-- The row of coordinates of a point. -/
def row (p : V3 K) : List K := [p.x, p.y, p.z]

/-- shells.py:1847-1848: the rounding of the vertices; `none` for `round_vertices=False`. -/
def roundRows (nDecimals : Option ℕ) (vertices : List (List K)) : List (List K) :=
  match nDecimals with
  | none => vertices
  | some n => vertices.map fun r : List K => r.map (npRound n)

/-- shells.py:1828-1857 `OpenTriangleShell3D.to_mesh_data`; `n_decimals` is `none` for `round_vertices=False`.  The result `none` is the `ValueError` of
`reshape`. -/
def toMeshData (nDecimals : Option ℕ) (tris : List (V3 K × V3 K × V3 K)) : Option (List (List K) × List (ℕ × ℕ × ℕ)) :=
  let vertices := tris.flatMap fun t => [row t.1, row t.2.1, row t.2.2]
  let vertices := roundRows nDecimals vertices
  let unique := npUnique vertices
  (reshape3 (vertices.map fun r => unique.idxOf r)).map fun f => (unique, f.take tris.length)

end

/-- shells.py:1876: a row of coordinates read as a point; the `ValueError` is that of the unpacking. -/
def rowPoint {K : Type*} (r : List K) : Except PyErr (V3 K) :=
  match r with
  | [x, y, z] => .ok ⟨x, y, z⟩
  | _ => .error .valueError

/-- shells.py:1878-1882: the triangle of a face; `none` when it is skipped, its points being on a line.  Negative indices are not modelled. -/
noncomputable def faceTriangle (points : List (V3 ℝ)) (f : ℕ × ℕ × ℕ) : Except PyErr (Option Triangles.Triangle) :=
  match points[f.1]?, points[f.2.1]?, points[f.2.2]? with
  | some a, some b, some c => .ok (Triangles.Triangle.make a b c)
  | _, _, _ => .error .indexError

/-- shells.py:1859-1884 `from_mesh_data`: the faces of the shell. -/
noncomputable def fromMeshData (vertices : List (List ℝ)) (faces : List (ℕ × ℕ × ℕ)) : Except PyErr (List Triangles.Triangle) :=
  (vertices.mapM rowPoint).bind fun points : List (V3 ℝ) =>
    (faces.mapM (faceTriangle points)).map fun l : List (Option Triangles.Triangle) => l.filterMap id

/-! ## Shell objects -/

/-- shells.py:95-121: a shell (faces, color, transparency, name). -/
structure Shell (F : Type*) where
  faces : List F
  color : Option (ℝ × ℝ × ℝ)
  alpha : ℝ
  name : String

/-- core.py:35 `DEFAULT_COLOR`. -/
noncomputable def defaultColor : ℝ × ℝ × ℝ := (8 / 10, 8 / 10, 8 / 10)

/-- shells.py:95-121 `Shell3D.__init__`: the default color is set first (105-108), then core.py:311-315 and 255-259 set it again to what was given. -/
noncomputable def Shell.make {F : Type*} (faces : List F) (color : Option (ℝ × ℝ × ℝ) := none) (alpha : ℝ := 1) (name : String := "") : Shell F :=
  let s : Shell F := ⟨faces, match color with | none => some defaultColor | some c => some c, alpha, name⟩
  { s with color := color }

/-- shells.py:134-141 `Shell3D.__eq__`, for two shells of one class. -/
def Shell.eq {F : Type*} [DecidableEq F] (self other : Shell F) : Bool :=
  if self.faces.length ≠ other.faces.length then false
  else if other.faces.all fun f => decide (f ∈ self.faces) then true
  else false

/-- shells.py:143-144 `Shell3D.__hash__`: what is hashed besides the name of the class. -/
def Shell.hashed {F : Type*} (s : Shell F) : List F := s.faces

/-- shells.py:126-132 `Shell3D._data_eq`, for two shells of one class; `faceEq` is `_data_eq` of the faces. -/
def Shell.dataEq {F : Type*} (faceEq : F → F → Bool) (self other : Shell F) : Bool :=
  (self.faces.zip other.faces).all fun p => faceEq p.1 p.2

/-- shells.py:123-124 `Shell3D._data_hash`. -/
def Shell.dataHash {F : Type*} (s : Shell F) : ℕ := s.faces.length

/-- shells.py:1973-1985 `OpenTriangleShell3D.to_dict`: the entries of the dictionary. -/
structure ShellDict where
  vertices : List (List ℝ)
  faces : List (ℕ × ℕ × ℕ)
  alpha : ℝ
  color : Option (ℝ × ℝ × ℝ)
  name : String

/-- shells.py:1973-1985 `OpenTriangleShell3D.to_dict`. -/
noncomputable def toDict (s : Shell Triangles.Triangle) : Option ShellDict :=
  (toMeshData none (s.faces.map Triangles.Triangle.points)).map fun d => ⟨d.1, d.2, s.alpha, s.color, s.name⟩

/-- shells.py:1987-2009 `OpenTriangleShell3D.dict_to_object`. -/
noncomputable def dictToObject (d : ShellDict) : Except PyErr (Shell Triangles.Triangle) :=
  (fromMeshData d.vertices d.faces).map fun l =>
    let s : Shell Triangles.Triangle := Shell.make l none 1 d.name
    { s with alpha := d.alpha, color := d.color }

/-! ## Normals -/

section
open Triangles

/-- faces.py:2462-2480: the point at `h` above the middle of a triangle, along its normal. -/
noncomputable def above (h : ℝ) (t : Tri) : Option (V3 ℝ) := (normal t).map fun n => middle t + V3.smul h n

/-- shells.py:2048-2050 `are_normals_pointing_outwards`; `inside` is `point_belongs` of the shell. -/
noncomputable def normalsOutwards (inside : V3 ℝ → Bool) (faces : List Tri) : Option Bool :=
  (faces.mapM fun t : Tri => (above (1 / 10 ^ 4) t).map inside).map fun l : List Bool => !(l.any id)

/-- shells.py:2052-2054 `are_normals_pointing_inwards`. -/
noncomputable def normalsInwards (inside : V3 ℝ → Bool) (faces : List Tri) : Option Bool :=
  (faces.mapM fun t : Tri => (above (1 / 10 ^ 4) t).map inside).map fun l : List Bool => !(l.any fun b => !b)

/-- shells.py:2056-2068 `turn_normals_outwards`: the points of the new faces. -/
noncomputable def turnOutwards (inside : V3 ℝ → Bool) (faces : List Tri) : Option (List Tri) :=
  faces.mapM fun t : Tri => (above (1 / 10 ^ 5) t).map fun p => if inside p then (t.2.2, t.2.1, t.1) else t

/-- shells.py:2070-2082 `turn_normals_inwards`: the points of the new faces. -/
noncomputable def turnInwards (inside : V3 ℝ → Bool) (faces : List Tri) : Option (List Tri) :=
  faces.mapM fun t : Tri => (above (1 / 10 ^ 5) t).map fun p => if !inside p then (t.2.2, t.2.1, t.1) else t

end

/-! ## Display shells -/

section
variable {K : Type*} [Field K] [LinearOrder K]

/-- shells.py:2182-2223 `DisplayTriangleShell3D.concatenate` (positions and indices; the name is left out). -/
def concatenate (self other : Mesh K) : Mesh K :=
  if self.vertices.length = 0 ∨ self.triangles.length = 0 then other
  else if other.vertices.length = 0 ∨ other.triangles.length = 0 then self
  else
    let merged := self.vertices ++ other.vertices
    let unique := npUnique merged
    let indicesMap := fun i : ℕ => unique.idxOf (merged.getD i [])
    let all := self.triangles ++ other.triangles.map fun t : ℕ × ℕ × ℕ => (t.1 + self.vertices.length, t.2.1 + self.vertices.length, t.2.2 + self.vertices.length)
    let final := all.map fun t : ℕ × ℕ × ℕ => (indicesMap t.1, indicesMap t.2.1, indicesMap t.2.2)
    let sorted := final.map sortTri
    ⟨unique, (npUnique sorted).map fun s => final.getD (sorted.idxOf s) (0, 0, 0)⟩

end

end Volmdlr.Shells
