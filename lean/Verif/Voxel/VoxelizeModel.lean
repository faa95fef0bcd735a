import Verif.Voxel.SurfaceModel
import Verif.Voxel.GridModel
import Verif.Voxel.OctreeModel

/-!
# Model of the voxelization of triangles and of the pixelization of segments

discrete_representation_compiled.py works with `double`s and C `int`s; here the numbers are exact and the integers are
unbounded.  The roundings to 6 and to 9 digits, which are there to hide floating point errors, are the identity.  An access
to an array with an index that is out of range, which the compiled code does not check, is the error `outOfBounds`.
-/

namespace Volmdlr.Voxel

variable {K : Type} [Field K] [LinearOrder K] [IsStrictOrderedRing K] [FloorRing K]

/-- What can go wrong: an exception, an access out of the bounds of an array (undefined behaviour in the compiled code), a
computation that is not finished. -/
inductive VzError
  | valueError
  | outOfBounds
  | notFinished
  deriving DecidableEq

/-- `cython.cast(cython.int, x)`: truncation towards zero. -/
def cInt (x : K) : ℤ := if 0 ≤ x then ⌊x⌋ else ⌈x⌉

/-- `range(a, b)`. -/
def cRange (a b : ℤ) : List ℤ := (List.range (b - a).toNat).map fun n : ℕ => a + n

/-- A segment in the plane. -/
abbrev Seg2 (K : Type) := (K × K) × (K × K)

/-- discrete_representation_compiled.py:937-947: the body of the loops, for the pixel of numbers `x`, `y`. -/
def pixelIfHit (seg : Seg2 K) (size : K) (x y : ℤ) : List (K × K) :=
  let center : K × K := (((x : K) + 1 / 2) * size, ((y : K) + 1 / 2) * size)
  if lineSegmentIntersectsPixel seg.1.1 seg.1.2 seg.2.1 seg.2.2 (center.1 - size / 2) (center.1 + size / 2)
      (center.2 - size / 2) (center.2 + size / 2) then [center] else []

/-- discrete_representation_compiled.py:915-947: the pixels of one segment. -/
def segmentToPixels (size : K) (seg : Seg2 K) : List (K × K) :=
  let xmin := min seg.1.1 seg.2.1
  let ymin := min seg.1.2 seg.2.2
  let xmax := max seg.1.1 seg.2.1
  let ymax := max seg.1.2 seg.2.2
  (cRange (cInt (xmin / size - 2)) (cInt (xmax / size + 2))).flatMap fun x : ℤ =>
    (cRange (cInt (ymin / size - 2)) (cInt (ymax / size + 2))).flatMap fun y : ℤ => pixelIfHit seg size x y

/-- discrete_representation_compiled.py:905-949 `_line_segments_to_pixels`. -/
def lineSegmentsToPixels (segs : List (Seg2 K)) (size : K) : List (K × K) := segs.flatMap (segmentToPixels size)

/-- A triangle in the plane. -/
abbrev Tri2 (K : Type) := (K × K) × (K × K) × (K × K)

/-- discrete_representation_compiled.py:956-971 `_triangle_2d_to_pixels`. -/
def triangle2dToPixels (t : Tri2 K) (size : K) : List (K × K) :=
  lineSegmentsToPixels [(t.1, t.2.1), (t.2.1, t.2.2), (t.2.2, t.1)] size

/-- discrete_representation_compiled.py:1286-1298 `_get_min_pixel_grid_center`; `none` for infinite values. -/
def minPixelCenter : List (K × K) → Option (K × K)
  | [] => none
  | p :: ps => some (ps.foldl (fun m q => min m q.1) p.1, ps.foldl (fun m q => min m q.2) p.2)

/-- discrete_representation_compiled.py:1301-1313 `_get_max_pixel_grid_center`; `none` for infinite values. -/
def maxPixelCenter : List (K × K) → Option (K × K)
  | [] => none
  | p :: ps => some (ps.foldl (fun m q => max m q.1) p.1, ps.foldl (fun m q => max m q.2) p.2)

/-- `matrix[c] = True`. -/
def writeCell {d : ℕ} (m : Mat d) (c : Cell d) : Except VzError (Mat d) :=
  if Inside m.shape c then .ok (mkMat m.shape (setCell m.val c true)) else .error .outOfBounds

/-- discrete_representation_compiled.py:1332-1347: one pixel is put in the matrix. -/
def writePixel (size : K) (minC : K × K) (m : Mat 2) (p : K × K) : Except VzError (Mat 2) :=
  writeCell m ![cInt ((p.1 - minC.1) / size) + 1, cInt ((p.2 - minC.2) / size) + 1]

/-- discrete_representation_compiled.py:1353-1356: what the flood has not reached is added. -/
def addUnreached (m outer : Mat 2) : Mat 2 := mkMat m.shape fun c => m.val c || !outer.val c

/-- discrete_representation_compiled.py:1316-1358 `_pixel_centers_to_filled_pixel_matrix`. -/
def filledPixelMatrix (fuel : ℕ) (pixels : List (K × K)) (size : K) (shape : ℤ × ℤ) (minC : K × K) : Except VzError (Mat 2) :=
  match pixels.foldlM (writePixel size minC) (mkMat ![(shape.1 + 2).toNat, (shape.2 + 2).toNat] fun _ => false) with
  | .error e => .error e
  | .ok m =>
    match floodFill dirs2 fuel m (fun _ => 0) true with
    | none => .error .notFinished
    | some (.error _) => .error .outOfBounds
    | some (.ok outer) => .ok (addUnreached m outer)

/-- The cell of indices `ia`, `iu`, `iv` on the axes `a`, `u` and `v`. -/
def cellOn (a u : Fin 3) (ia iu iv : ℤ) : Cell 3 := fun k => if k = a then ia else if k = u then iu else iv

/-- discrete_representation_compiled.py:1060-1082 (1142-1164, 1224-1246): the body of the loops over the filled pixels, for
the pixel `dx`, `dy`. -/
def writeBoth (a u v : Fin 3) (size : K) (org : Fin 3 → K) (minC : K × K) (i1 i2 : ℤ) (pm : Mat 2) (m : Mat 3) (d : ℤ × ℤ) :
    Except VzError (Mat 3) :=
  if pm.val ![d.1 + 1, d.2 + 1] then
    let iu := cInt ((minC.1 + d.1 * size - org u) / size)
    let iv := cInt ((minC.2 + d.2 * size - org v) / size)
    match writeCell m (cellOn a u i1 iu iv) with
    | .error e => .error e
    | .ok m' => writeCell m' (cellOn a u i2 iu iv)
  else .ok m

/-- discrete_representation_compiled.py:1010-1082 (Y-Z plane: `a, u, v = 0, 1, 2`), 1092-1164 (X-Z plane: `1, 0, 2`) and
1174-1246 (X-Y plane: `2, 0, 1`): the voxels on both sides of a triangle in a plane between voxels.  The three parts of the
code differ only by the axes. -/
def interfaceTriangle (fuel : ℕ) (a u v : Fin 3) (size : K) (org : Fin 3 → K) (m : Mat 3) (t : Tri3 K) : Except VzError (Mat 3) :=
  let pixels := triangle2dToPixels ((t.1 u, t.1 v), (t.2.1 u, t.2.1 v), (t.2.2 u, t.2.2 v)) size
  match minPixelCenter pixels, maxPixelCenter pixels with
  | some minC, some maxC =>
    let dimX := cInt (round ((maxC.1 - minC.1) / size + 1) : K)
    let dimY := cInt (round ((maxC.2 - minC.2) / size + 1) : K)
    match filledPixelMatrix fuel pixels size (dimX, dimY) minC with
    | .error e => .error e
    | .ok pm =>
      let i1 := cInt ((t.1 a - org a - size / 2) / size)
      let i2 := cInt ((t.1 a - org a + size / 2) / size)
      ((cRange 0 dimX).flatMap fun dx : ℤ => (cRange 0 dimY).map fun dy : ℤ => (dx, dy)).foldlM
        (writeBoth a u v size org minC i1 i2 pm) m
  | _, _ => .error .outOfBounds

/-- discrete_representation_compiled.py:1363-1376 `_check_triangle_equal_point`. -/
def hasEqualPoints (t : Tri3 K) : Prop :=
  (t.1 0 = t.2.1 0 ∧ t.1 1 = t.2.1 1 ∧ t.1 2 = t.2.1 2) ∨ (t.1 0 = t.2.2 0 ∧ t.1 1 = t.2.2 1 ∧ t.1 2 = t.2.2 2) ∨
    (t.2.1 0 = t.2.2 0 ∧ t.2.1 1 = t.2.2 1 ∧ t.2.1 2 = t.2.2 2)

instance (t : Tri3 K) : Decidable (hasEqualPoints t) := by unfold hasEqualPoints; infer_instance

/-- discrete_representation_compiled.py:1005-1009 (1087-1091, 1169-1173): the triangle is in a plane between voxels that is
orthogonal to the axis `a`.  `_is_integer` is 245-250. -/
def isInterface (size : K) (t : Tri3 K) (a : Fin 3) : Prop :=
  (t.1 a = t.2.1 a ∧ t.2.1 a = t.2.2 a) ∧ (cInt (t.1 a / size) : K) = t.1 a / size

instance (size : K) (t : Tri3 K) (a : Fin 3) : Decidable (isInterface size t a) := by unfold isInterface; infer_instance

/-- discrete_representation_compiled.py:1381-1420 `_triangle_min_max_points`, the smallest coordinate. -/
def triMin (t : Tri3 K) (i : Fin 3) : K := min (min (t.1 i) (t.2.1 i)) (t.2.2 i)

/-- discrete_representation_compiled.py:1381-1420 `_triangle_min_max_points`, the largest coordinate. -/
def triMax (t : Tri3 K) (i : Fin 3) : K := max (max (t.1 i) (t.2.1 i)) (t.2.2 i)

/-- discrete_representation_compiled.py:727-767 `_aabb_intersecting_boxes`. -/
def aabbIntersectingBoxes (lo hi : Fin 3 → K) (size : K) : List (Fin 3 → K) :=
  (cRange (cInt (lo 0 / size - 1)) (cInt (hi 0 / size + 1))).flatMap fun x : ℤ =>
    (cRange (cInt (lo 1 / size - 1)) (cInt (hi 1 / size + 1))).flatMap fun y : ℤ =>
      (cRange (cInt (lo 2 / size - 1)) (cInt (hi 2 / size + 1))).map fun z : ℤ =>
        ![((x : K) + 1 / 2) * size, ((y : K) + 1 / 2) * size, ((z : K) + 1 / 2) * size]

/-- discrete_representation_compiled.py:1262-1282: the body of the loop over the voxels of the bounding box. -/
def testVoxel (size : K) (org : Fin 3 → K) (t : Tri3 K) (m : Mat 3) (center : Fin 3 → K) : Except VzError (Mat 3) :=
  let c : Cell 3 := fun i => cInt ((center i - org i) / size)
  if ¬ Inside m.shape c then .error .outOfBounds
  else if m.val c = false then
    if triangleIntersectsVoxel t center (fun _ => 1 / 2 * size) then writeCell m c else .ok m
  else .ok m

/-- discrete_representation_compiled.py:996-1282: the body of the loop over the triangles. -/
def voxelizeTriangle (fuel : ℕ) (size : K) (org : Fin 3 → K) (m : Mat 3) (t : Tri3 K) : Except VzError (Mat 3) :=
  if hasEqualPoints t then .ok m
  else if isInterface size t 0 then interfaceTriangle fuel 0 1 2 size org m t
  else if isInterface size t 1 then interfaceTriangle fuel 1 0 2 size org m t
  else if isInterface size t 2 then interfaceTriangle fuel 2 0 1 size org m t
  else (aabbIntersectingBoxes (triMin t) (triMax t) size).foldlM (testVoxel size org t) m

/-- discrete_representation_compiled.py:1460-1504 `_triangles_min_max_points`, the smallest coordinates of `t :: ts`. -/
def trianglesMin (t : Tri3 K) (ts : List (Tri3 K)) (i : Fin 3) : K := ts.foldl (fun m r => min m (triMin r i)) (triMin t i)

/-- discrete_representation_compiled.py:1460-1504 `_triangles_min_max_points`, the largest coordinates of `t :: ts`. -/
def trianglesMax (t : Tri3 K) (ts : List (Tri3 K)) (i : Fin 3) : K := ts.foldl (fun m r => max m (triMax r i)) (triMax t i)

/-- discrete_representation_compiled.py:31-73 `triangles_to_voxel_matrix` and 978-1284 `_triangles_to_voxel_matrix`: the
matrix, the centre of its first voxel and the size.  Without triangles `int` fails on infinite values. -/
def trianglesToVoxelMatrix (fuel : ℕ) : List (Tri3 K) → K → Except VzError (Vox 3 K)
  | [], _ => .error .valueError
  | t :: ts, size =>
    let lo := trianglesMin t ts
    let hi := trianglesMax t ts
    let shape : Fin 3 → ℕ := fun i => ((⌊hi i / size⌋ + 1) - ⌊lo i / size⌋ + 2).toNat
    let org : Fin 3 → K := fun i => ((⌊lo i / size⌋ : K) - 1 / 2) * size
    match (t :: ts).foldlM (voxelizeTriangle fuel size org) (mkMat shape fun _ => false) with
    | .error e => .error e
    | .ok m => .ok ⟨m, org, size⟩

/-- discrete_representation.py:1328-1347 `MatrixBasedVoxelization.from_triangles`. -/
def Vox.fromTriangles (fuel : ℕ) (triangles : List (Tri3 K)) (size : K) : Except VzError (Vox 3 K) :=
  (trianglesToVoxelMatrix fuel triangles size).map Vox.crop

/-- discrete_representation.py:826-843 `PointBasedVoxelization.from_triangles`. -/
def PointVox.fromTriangles (fuel : ℕ) (triangles : List (Tri3 K)) (size : K) : Except VzError (PointVox 3 K) :=
  (Vox.fromTriangles fuel triangles size).map fun v => ⟨v.toPoint.centres, size⟩

/-- discrete_representation.py:3253-3271 `_extract_segments_from_closed_polygon`: the first segment joins the last point to
the first one. -/
def polygonSegments (points : List (K × K)) : List (Seg2 K) :=
  match points.getLast? with
  | none => []
  | some l => (l :: points).zip points

/-- discrete_representation.py:3361-3383 `PointBasedPixelization.from_line_segment`. -/
def PointVox.fromLineSegment (seg : Seg2 K) (size : K) : PointVox 2 K :=
  ⟨((lineSegmentsToPixels [seg] size).map fun p : K × K => ![p.1, p.2]).toFinset, size⟩

/-- discrete_representation.py:3385-3404 `PointBasedPixelization.from_closed_polygon`. -/
def PointVox.fromClosedPolygon (points : List (K × K)) (size : K) : PointVox 2 K :=
  ⟨((lineSegmentsToPixels (polygonSegments points) size).map fun p : K × K => ![p.1, p.2]).toFinset, size⟩

/-- discrete_representation.py:2508-2568 `_subdivide_from_triangles`; the first number is `max_depth - depth`, and the sizes of
the list `sizes` are `voxel_size * 2 ** n` (the last one `voxel_size / 2`).  Triangles are given with their numbers. -/
def subdivideTriangles (vs : K) : ℕ → List (ℕ × Tri3 K) → (Fin 3 → K) → Oct
  | 0, ts, _ => .leaf (ts.map Prod.fst)
  | n + 1, ts, c =>
    let sub : Fin 8 → Oct := fun i =>
      let centre := childCentre (vs * 2 ^ n) c i
      let hits := ts.filter fun t => triangleIntersectsVoxelApi t.2 centre fun _ => vs * 2 ^ n / 2
      if hits.isEmpty then .leaf [] else subdivideTriangles vs n hits centre
    if ∀ i, (sub i).truthy = false then .leaf [] else .node sub

/-- `max(a, b, c)`. -/
def maxOf3 (f : Fin 3 → K) : K := max (max (f 0) (f 1)) (f 2)

/-- discrete_representation.py:1876-1888: the depth of the octree of triangles.  `math.ceil(math.log2(n))` is the exact
ceiling. -/
def octreeDepthTriangles (vs : K) (lo hi : Fin 3 → K) : ℕ :=
  let minCorner : Fin 3 → K := fun i => ((⌊lo i / vs⌋ : K) - 2) * vs
  let maxCorner : Fin 3 → K := fun i => ((⌊hi i / vs⌋ : K) + 2) * vs
  let rootSize : K := maxOf3 (fun i => max |minCorner i| |maxCorner i|) * 2
  Nat.clog 2 ⌊rootSize / vs⌋.toNat

/-- discrete_representation.py:1858-1894 `OctreeBasedVoxelization.from_triangles`; the minimum of an empty array fails. -/
def OctVox.fromTriangles : List (Tri3 K) → K → Except VzError (OctVox K)
  | [], _ => .error .valueError
  | t :: ts, vs =>
    let depth := octreeDepthTriangles vs (trianglesMin t ts) (trianglesMax t ts)
    .ok ⟨subdivideTriangles vs depth ((List.range (t :: ts).length).zip (t :: ts)) fun _ => 0, fun _ => 0, depth, vs, (t :: ts).length⟩

end Volmdlr.Voxel
