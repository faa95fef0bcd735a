import Verif.Surface.Model
import Mathlib.Algebra.Order.Floor.Ring
import Mathlib.Analysis.SpecialFunctions.Trigonometric.Arctan

/-!
# Model of the solid primitives of `volmdlr/primitives3d.py`

A solid is modelled by its defining data (frame, radii, length); colours and names are dropped.
-/

namespace Volmdlr.Solid

open Real Volmdlr.Arc Volmdlr.Angle

/-! ## Frames -/

open Classical in
/-- core_compiled.pyx:3493-3512 `Frame3D.rotation` (the origin is left alone when it is close to the centre). -/
noncomputable def frameRotation (f : Frame3 ℝ) (center axis : V3 ℝ) (angle : ℝ) : Frame3 ℝ :=
  if isClose3 center f.origin (1 / 10 ^ 6) then ⟨f.origin, f.basis.rotation axis angle⟩
  else ⟨V3.rotation f.origin center axis angle, f.basis.rotation axis angle⟩

/-- core_compiled.pyx:3514-3524 `Frame3D.translation`. -/
def frameTranslation {K : Type*} [Add K] (f : Frame3 K) (offset : V3 K) : Frame3 K := ⟨f.origin + offset, f.basis⟩

/-! ## Block -/

section Block
variable {K : Type*} [Field K] [LinearOrder K]

/-- primitives3d.py:235-244 `Block.vertices`. -/
def blockVertices (f : Frame3 K) : List (V3 K) :=
  let o := f.origin
  let u := V3.smul (1 / 2) f.basis.u
  let v := V3.smul (1 / 2) f.basis.v
  let w := V3.smul (1 / 2) f.basis.w
  [o - u - v - w, o - u + v - w, o + u + v - w, o + u - v - w,
   o - u - v + w, o - u + v + w, o + u + v + w, o + u - v + w]

/-- primitives3d.py:246-260 `Block.edges`: pairs of (zero-based) indices in the list of vertices. -/
def blockEdgeIndices : List (ℕ × ℕ) :=
  [(0, 1), (1, 2), (2, 3), (3, 0), (4, 5), (5, 6), (6, 7), (7, 4), (0, 4), (1, 5), (2, 6), (3, 7)]

/-- primitives3d.py:246-260 `Block.edges`: start and end of the twelve line segments. -/
def blockEdges (f : Frame3 K) : List (V3 K × V3 K) :=
  blockEdgeIndices.filterMap fun e => do
    let a ← (blockVertices f)[e.1]?
    let b ← (blockVertices f)[e.2]?
    return (a, b)

/-- Python indexing of a list by a non-negative index. -/
def pyGet {α : Type*} (l : List α) (i : ℕ) : Except PyErr α :=
  match l[i]? with
  | some a => .ok a
  | none => .error .indexError

/-- primitives3d.py:262-278 `Block.face_contours3d`: the contours as lists of oriented edges (an edge is reversed by
swapping its ends). -/
def blockFaceContours (f : Frame3 K) : Except PyErr (List (List (V3 K × V3 K))) := do
  let edges := blockEdges f
  let switched := (edges.drop 4).map Prod.swap
  let quad (a b c d : ℕ) : Except PyErr (List (V3 K × V3 K)) := do
    let e1 ← pyGet edges a
    let e2 ← pyGet edges b
    let e3 ← pyGet switched c
    let e4 ← pyGet switched d
    return [e1, e2, e3, e4]
  let c3 ← quad 0 9 0 4
  let c4 ← quad 1 10 1 5
  let c5 ← quad 2 11 2 6
  let c6 ← quad 3 12 3 7
  return [edges.take 4, (edges.drop 4).take 4, c3, c4, c5, c6]

/-- primitives3d.py:221-233 `Block.get_bounding_box`: the corners use one coordinate of each edge vector. -/
def blockBoundingBox (f : Frame3 K) : Except PyErr (Box3 K) :=
  let h : V3 K := ⟨f.basis.u.x / 2, f.basis.v.y / 2, f.basis.w.z / 2⟩
  Box3.fromPoints [f.origin - h, f.origin + h]

/-- core.py:724-735 `BoundingBox.to_frame`, used by primitives3d.py:207-219 `Block.from_bounding_box`. -/
def boxToFrame (b : Box3 K) : Frame3 K :=
  ⟨b.center, ⟨⟨b.xmax - b.xmin, 0, 0⟩, ⟨0, b.ymax - b.ymin, 0⟩, ⟨0, 0, b.zmax - b.zmin⟩⟩⟩

/-- primitives3d.py:303-310 `Block.faces_center`. -/
def blockFacesCenter (f : Frame3 K) : List (V3 K) :=
  let o := f.origin
  let u := V3.smul (1 / 2) f.basis.u
  let v := V3.smul (1 / 2) f.basis.v
  let w := V3.smul (1 / 2) f.basis.w
  [o - u, o + u, o - v, o + v, o - w, o + w]
end Block

/-- primitives3d.py:165-170 `Block.size`: the lengths of the edge vectors. -/
noncomputable def blockSize (f : Frame3 ℝ) : V3 ℝ := ⟨V3.norm f.basis.u, V3.norm f.basis.v, V3.norm f.basis.w⟩

/-- primitives3d.py:202-204 `Block.volume`. -/
noncomputable def blockVolume (f : Frame3 ℝ) : ℝ := (blockSize f).x * (blockSize f).y * (blockSize f).z

/-- faces.py:2109-2121 `PlaneFace3D.from_surface_rectangular_cut`: the plane and the bounds of the rectangle. -/
structure RectFace where
  frame : Frame3 ℝ
  (x1 x2 y1 y2 : ℝ)

/-- surfaces.py:1658-1664 `Plane3D.point2d_to_3d` of a point of the rectangle, without the rounding to 12 digits of
`Point2D.to_3d` (simplification; C06 bounds its effect). -/
noncomputable def RectFace.point (r : RectFace) (x y : ℝ) : V3 ℝ := V2.vecTo3d ⟨x, y⟩ r.frame.origin r.frame.basis.u r.frame.basis.v

/-- primitives3d.py:280-301 `Block.shell_faces`; `none` is `ZeroDivisionError` (a zero edge vector). -/
noncomputable def blockShellFaces (f : Frame3 ℝ) : Option (List RectFace) :=
  let hlx := 1 / 2 * V3.norm f.basis.u
  let hly := 1 / 2 * V3.norm f.basis.v
  let hlz := 1 / 2 * V3.norm f.basis.w
  match V3.unitVector f.basis.u, V3.unitVector f.basis.v, V3.unitVector f.basis.w with
  | some u, some v, some w =>
    let o := f.origin
    some [⟨⟨o - V3.smul (1 / 2) f.basis.u, ⟨v, w, u⟩⟩, -hly, hly, -hlz, hlz⟩,
      ⟨⟨o + V3.smul (1 / 2) f.basis.u, ⟨v, w, u⟩⟩, -hly, hly, -hlz, hlz⟩,
      ⟨⟨o - V3.smul (1 / 2) f.basis.v, ⟨w, u, v⟩⟩, -hlz, hlz, -hlx, hlx⟩,
      ⟨⟨o + V3.smul (1 / 2) f.basis.v, ⟨w, u, v⟩⟩, -hlz, hlz, -hlx, hlx⟩,
      ⟨⟨o - V3.smul (1 / 2) f.basis.w, ⟨u, v, w⟩⟩, -hlx, hlx, -hly, hly⟩,
      ⟨⟨o + V3.smul (1 / 2) f.basis.w, ⟨u, v, w⟩⟩, -hlx, hlx, -hly, hly⟩]
  | _, _, _ => none

/-- primitives3d.py:440-460 `Block.subdivide_block`: the frames of the small blocks (for positive numbers of blocks). -/
noncomputable def subdivideBlock (f : Frame3 ℝ) (nx ny nz : ℕ) : List (Frame3 ℝ) :=
  let sz := blockSize f
  let fs : V3 ℝ := ⟨sz.x / nx, sz.y / ny, sz.z / nz⟩
  let init := V3.translation f.origin (-⟨sz.x / 2 - fs.x / 2, sz.y / 2 - fs.y / 2, sz.z / 2 - fs.z / 2⟩)
  (List.range nz).flatMap fun k : ℕ => (List.range ny).flatMap fun j : ℕ => (List.range nx).map fun i : ℕ =>
    ⟨V3.translation init ⟨i * fs.x, j * fs.y, k * fs.z⟩, ⟨⟨fs.x, 0, 0⟩, ⟨0, fs.y, 0⟩, ⟨0, 0, fs.z⟩⟩⟩

open Classical in
/-- primitives3d.py:337-359 `Block.cut_by_orthogonal_plane`: the four corners, in the plane, of the face it returns. -/
noncomputable def cutByOrthogonalPlane (f plane : Frame3 ℝ) : Except PyErr (List (V2 ℝ)) := do
  let b ← blockBoundingBox f
  if V3.dot plane.basis.w ⟨1, 0, 0⟩ = 0 ∨ V3.dot plane.basis.w ⟨0, 1, 0⟩ = 0 ∨ V3.dot plane.basis.w ⟨0, 0, 1⟩ = 0 then
    let lo := V3.to2d ⟨b.xmin, b.ymin, b.zmin⟩ plane.origin plane.basis.u plane.basis.v
    let hi := V3.to2d ⟨b.xmax, b.ymax, b.zmax⟩ plane.origin plane.basis.u plane.basis.v
    return [lo, ⟨hi.x, lo.y⟩, hi, ⟨lo.x, hi.y⟩]
  else throw .keyError

/-! ## Cylinder, hollow cylinder, cone -/

/-- primitives3d.py:797-833 `Cylinder`: frame (axis along `w`, centre of mass at the origin), radius, length. -/
structure Cyl where
  frame : Frame3 ℝ
  radius : ℝ
  length : ℝ

/-- primitives3d.py:1532-1573 `HollowCylinder`. -/
structure HollowCyl where
  frame : Frame3 ℝ
  innerRadius : ℝ
  outerRadius : ℝ
  length : ℝ

/-- primitives3d.py:1340-1379 `Cone`. -/
structure ConeSolid where
  frame : Frame3 ℝ
  radius : ℝ
  length : ℝ

/-- primitives3d.py:872-889 and 1625-1642, the sequence of exchanges of the two end points and the bounds. -/
noncomputable def axisBox (a b : V3 ℝ) (radius : ℝ) : Option (Box3 ℝ) :=
  let dx2 := (a.x - b.x) ^ 2
  let dy2 := (a.y - b.y) ^ 2
  let dz2 := (a.z - b.z) ^ 2
  if dx2 + dy2 + dz2 = 0 then none
  else
    let ab := if a.x > b.x then (b, a) else (a, b)
    let kx := Real.sqrt ((dy2 + dz2) / (dx2 + dy2 + dz2)) * radius
    let xmin := ab.1.x - kx
    let xmax := ab.2.x + kx
    let ab := if ab.1.y > ab.2.y then (ab.2, ab.1) else ab
    let ky := Real.sqrt ((dx2 + dz2) / (dx2 + dy2 + dz2)) * radius
    let ymin := ab.1.y - ky
    let ymax := ab.2.y + ky
    let ab := if ab.1.z > ab.2.z then (ab.2, ab.1) else ab
    let kz := Real.sqrt ((dx2 + dy2) / (dx2 + dy2 + dz2)) * radius
    let zmin := ab.1.z - kz
    let zmax := ab.2.z + kz
    some ⟨xmin, xmax, ymin, ymax, zmin, zmax⟩

/-- primitives3d.py:859-891 `Cylinder.get_bounding_box`; `none` is `ZeroDivisionError` (zero length). -/
noncomputable def Cyl.boundingBox (c : Cyl) : Option (Box3 ℝ) :=
  axisBox (c.frame.origin - V3.smul (c.length / 2) c.frame.basis.w)
    (c.frame.origin + V3.smul (c.length / 2) c.frame.basis.w) c.radius

/-- primitives3d.py:1612-1643 `HollowCylinder.get_bounding_box`. -/
noncomputable def HollowCyl.boundingBox (c : HollowCyl) : Option (Box3 ℝ) :=
  axisBox (c.frame.origin - V3.smul (c.length / 2) c.frame.basis.w)
    (c.frame.origin + V3.smul (c.length / 2) c.frame.basis.w) c.outerRadius

/-- primitives3d.py:1404-1436 `Cone.get_bounding_box`. -/
noncomputable def ConeSolid.boundingBox (c : ConeSolid) : Option (Box3 ℝ) :=
  let a := c.frame.origin - V3.smul (c.length / 2) c.frame.basis.w
  let b := c.frame.origin + V3.smul (c.length / 2) c.frame.basis.w
  let dx2 := (a.x - b.x) ^ 2
  let dy2 := (a.y - b.y) ^ 2
  let dz2 := (a.z - b.z) ^ 2
  if dx2 + dy2 + dz2 = 0 then none
  else
    let kx := Real.sqrt ((dy2 + dz2) / (dx2 + dy2 + dz2)) * c.radius
    let ky := Real.sqrt ((dx2 + dz2) / (dx2 + dy2 + dz2)) * c.radius
    let kz := Real.sqrt ((dx2 + dy2) / (dx2 + dy2 + dz2)) * c.radius
    some ⟨min (min (a.x - kx) (a.x + kx)) b.x, max (max (a.x - kx) (a.x + kx)) b.x,
      min (min (a.y - ky) (a.y + ky)) b.y, max (max (a.y - ky) (a.y + ky)) b.y,
      min (min (a.z - kz) (a.z + kz)) b.z, max (max (a.z - kz) (a.z + kz)) b.z⟩

/-- primitives3d.py:893-900 `Cylinder.volume`. -/
noncomputable def Cyl.volume (c : Cyl) : ℝ := c.length * π * c.radius ^ 2
/-- primitives3d.py:1645-1652 `HollowCylinder.volume`. -/
noncomputable def HollowCyl.volume (c : HollowCyl) : ℝ := c.length * π * (c.outerRadius ^ 2 - c.innerRadius ^ 2)
/-- primitives3d.py:1478-1485 `Cone.volume`. -/
noncomputable def ConeSolid.volume (c : ConeSolid) : ℝ := c.length * π * c.radius ^ 2 / 3
/-- primitives3d.py:1974-1980 `Sphere.volume`. -/
noncomputable def sphereVolume (radius : ℝ) : ℝ := 4 / 3 * π * radius ^ 3

/-- primitives3d.py:903-940 `Cylinder.from_end_points`; `none` is `ZeroDivisionError`. -/
noncomputable def Cyl.fromEndPoints (p1 p2 : V3 ℝ) (radius : ℝ) : Option Cyl := do
  let axis ← V3.unitVector (p2 - p1)
  let f ← Frame3.fromPointAndNormal (V3.smul (1 / 2) (p1 + p2)) axis
  return ⟨f, radius, V3.pointDistance p1 p2⟩

/-- primitives3d.py:957-993 `Cylinder.from_center_point_and_axis` (and 1487-1523 for cones): the axis is used as it
is given. -/
noncomputable def Cyl.fromCenterPointAndAxis (center axis : V3 ℝ) (radius length : ℝ) : Option Cyl := do
  let f ← Frame3.fromPointAndNormal center axis
  return ⟨f, radius, length⟩

/-- primitives3d.py:836-857 `Cylinder.shell_faces`: the surface of the lateral face, cut at `0 ≤ z ≤ length`. -/
noncomputable def Cyl.lateralSurface (c : Cyl) : Surface.Cylinder :=
  ⟨frameTranslation c.frame (V3.smul (c.length * (1 / 2)) (-c.frame.basis.w)), c.radius⟩

/-- primitives3d.py:1381-1402 `Cone.shell_faces`: the surface of the lateral face, cut at `0 ≤ z ≤ length` (the axis is
reversed without changing the other two vectors). -/
noncomputable def ConeSolid.lateralSurface (c : ConeSolid) : Surface.Cone :=
  let f := frameTranslation c.frame (V3.smul (c.length * (1 / 2)) c.frame.basis.w)
  ⟨⟨f.origin, ⟨f.basis.u, f.basis.v, -f.basis.w⟩⟩, Real.arctan (c.radius / c.length)⟩

/-- primitives3d.py:1282-1300 `Cylinder.point_belongs`. -/
noncomputable def Cyl.pointBelongs (c : Cyl) (p : V3 ℝ) : Except PyErr Bool := do
  let f ← Frame3.fromPointAndVector c.frame.origin c.frame.basis.w ⟨0, 0, 1⟩
  let q ← f.globalToLocal p
  return decide (Real.sqrt (q.x ^ 2 + q.y ^ 2) ≤ c.radius) && decide (-c.length / 2 ≤ q.z) && decide (q.z ≤ c.length / 2)

/-- primitives3d.py:1224-1242 `Cylinder.random_point_inside` and one point of 1244-1280 `lhs_points_inside`; `r2`, `theta`
and `z` are the sampled numbers. -/
noncomputable def Cyl.samplePoint (c : Cyl) (r2 theta z : ℝ) : Except PyErr (V3 ℝ) := do
  let f ← Frame3.fromPointAndVector c.frame.origin c.frame.basis.w ⟨0, 0, 1⟩
  let radius := Real.sqrt r2 * c.radius
  return f.localToGlobal ⟨radius * Real.cos theta, radius * Real.sin theta, z⟩

/-- primitives3d.py:995-1016, 1018-1035 `Cylinder.rotation`, `Cylinder.translation`. -/
noncomputable def Cyl.rotation (c : Cyl) (center axis : V3 ℝ) (angle : ℝ) : Cyl :=
  ⟨frameRotation c.frame center axis angle, c.radius, c.length⟩
/-- primitives3d.py:1018-1035 `Cylinder.translation`. -/
def Cyl.translation (c : Cyl) (offset : V3 ℝ) : Cyl := ⟨frameTranslation c.frame offset, c.radius, c.length⟩

/-- primitives3d.py:1302-1332 `Cylinder.interference_volume_with_other_cylinder`; `points` is the sampling of the smaller
cylinder (of length `n_points`). -/
noncomputable def interferenceVolume (a b : Cyl) (points : Cyl → List (V3 ℝ)) (nPoints : ℕ) : Except PyErr ℝ := do
  let small := if a.volume < b.volume then a else b
  let other := if a.volume < b.volume then b else a
  let flags ← (points small).mapM other.pointBelongs
  return ((flags.filter id).length : ℝ) / nPoints * small.volume

/-! ## Sphere -/

/-- primitives3d.py:1982-1989 `Sphere.point_belongs`. -/
noncomputable def spherePointBelongs (center : V3 ℝ) (radius : ℝ) (p : V3 ℝ) : Bool :=
  decide (V3.pointDistance center p ≤ radius)

/-- Python's `int(x)` for `x ≥ 0`, as a number of iterations. -/
noncomputable def intN (x : ℝ) : ℕ := (⌊x⌋).toNat

/-- primitives3d.py:2011-2034 `Sphere.skin_points`, the points of one floor; `none` is `ZeroDivisionError`. -/
noncomputable def skinFloor (center : V3 ℝ) (radius resolution theta : ℝ) : Option (List (V3 ℝ)) :=
  let init := V3.rotation (center + V3.smul radius ⟨1, 0, 0⟩) center ⟨0, 1, 0⟩ theta
  open Classical in
  if mathIsClose theta 0 (1 / 10 ^ 6) ∨ mathIsClose theta π (1 / 10 ^ 6) then some [init]
  else
    let cf : V3 ℝ := ⟨V3.dot ⟨1, 0, 0⟩ init, center.y, center.z⟩
    let r := V3.pointDistance cf init
    if r = 0 then none
    else
      let tf := resolution / r
      if tf = 0 then none
      else
        let n := intN (2 * π / tf)
        let rot := (List.range (n + 1)).map fun i : ℕ => (i : ℝ) * tf
        let rot := if (2 * π - (n : ℝ) * tf) / tf ≤ 1 / 10 then rot.dropLast else rot
        some (rot.map fun a => V3.rotation init cf ⟨1, 0, 0⟩ a)

/-- Concatenation of the results of an operation that may fail. -/
def flatMapM? {α β : Type*} (f : α → Option (List β)) : List α → Option (List β)
  | [] => some []
  | a :: l =>
    match f a, flatMapM? f l with
    | some x, some y => some (x ++ y)
    | _, _ => none

/-- primitives3d.py:1999-2036 `Sphere.skin_points`. -/
noncomputable def skinPoints (center : V3 ℝ) (radius resolution : ℝ) : Option (List (V3 ℝ)) :=
  if resolution > 2 * radius then some []
  else if 2 * radius = 0 then none
  else
    let theta := 2 * Real.arcsin (resolution / (2 * radius))
    if theta = 0 then none
    else flatMapM? (fun n : ℕ => skinFloor center radius resolution (n * theta)) (List.range (intN (π / theta) + 1))

/-- primitives3d.py:2038-2055 `Sphere.inner_points`. -/
noncomputable def innerPoints (center : V3 ℝ) (radius resolution : ℝ) : Option (List (V3 ℝ)) :=
  if resolution = 0 then none
  else
    let n := intN (radius / resolution)
    if n = 0 then some [center]
    else
      let radii := (List.range n).map fun k : ℕ => ((k + 1 : ℕ) : ℝ) * resolution
      let radii := if (radius - (n : ℝ) * resolution) / resolution ≤ 1 / 10 then radii.dropLast else radii
      match flatMapM? (fun r => skinPoints center r resolution) radii with
      | some l => some (center :: l)
      | none => none

end Volmdlr.Solid
