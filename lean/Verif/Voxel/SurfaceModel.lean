import Mathlib.Algebra.Order.Field.Basic
import Mathlib.Data.Finset.Basic
import Mathlib.Data.Fintype.Defs
import Mathlib.Data.Fintype.Prod
import Mathlib.Data.Fin.VecNotation
import Mathlib.Tactic.Linarith

/-!
# Model of the triangles of a voxelization and of the triangle/voxel intersection test
-/

namespace Volmdlr.Voxel

variable {K : Type} [Field K] [LinearOrder K] [IsStrictOrderedRing K]

/-- discrete_representation.py `_Triangle3D`: a tuple of three points. -/
abbrev Tri3 (K : Type) := (Fin 3 → K) × (Fin 3 → K) × (Fin 3 → K)

/-- discrete_representation_compiled.py:1509-1628 `_voxel_triangular_faces`: the twelve triangles in order.  The rounding of
each coordinate to 9 digits is not modelled. -/
def voxelTriangularFaces (c : Fin 3 → K) (voxelSize : K) : List (Tri3 K) :=
  let h := voxelSize / 2
  let x := c 0
  let y := c 1
  let z := c 2
  [ (![x - h, y - h, z + h], ![x - h, y + h, z + h], ![x + h, y + h, z + h]),
    (![x - h, y - h, z + h], ![x + h, y + h, z + h], ![x + h, y - h, z + h]),
    (![x - h, y - h, z - h], ![x - h, y + h, z - h], ![x + h, y + h, z - h]),
    (![x - h, y - h, z - h], ![x + h, y + h, z - h], ![x + h, y - h, z - h]),
    (![x - h, y - h, z - h], ![x - h, y + h, z - h], ![x - h, y + h, z + h]),
    (![x - h, y - h, z - h], ![x - h, y + h, z + h], ![x - h, y - h, z + h]),
    (![x + h, y - h, z - h], ![x + h, y + h, z - h], ![x + h, y + h, z + h]),
    (![x + h, y - h, z - h], ![x + h, y + h, z + h], ![x + h, y - h, z + h]),
    (![x - h, y + h, z - h], ![x + h, y + h, z - h], ![x + h, y + h, z + h]),
    (![x - h, y + h, z - h], ![x + h, y + h, z + h], ![x - h, y + h, z + h]),
    (![x - h, y - h, z - h], ![x + h, y - h, z - h], ![x + h, y - h, z + h]),
    (![x - h, y - h, z - h], ![x + h, y - h, z + h], ![x - h, y - h, z + h]) ]

/-- discrete_representation.py:582-585, the body of the inner loop of `to_triangles`. -/
def toggle {α : Type} [DecidableEq α] (triangles : Finset α) (t : α) : Finset α :=
  if t ∉ triangles then insert t triangles else triangles.erase t

/-- discrete_representation.py:568-587 `Voxelization.to_triangles`; `centres` is the list in which the set of voxel centres
happens to be iterated. -/
def toTriangles (centres : List (Fin 3 → K)) (voxelSize : K) : Finset (Tri3 K) :=
  centres.foldl (fun triangles voxel => (voxelTriangularFaces voxel voxelSize).foldl toggle triangles) ∅

/-- discrete_representation_compiled.py:427-447 `_calculate_axis_values`. -/
def calculateAxisValues (v0 v1 v2 ax f ext : Fin 3 → K) : Prop :=
  let p0 := v0 0 * ax 0 + v0 1 * ax 1 + v0 2 * ax 2
  let p1 := v1 0 * ax 0 + v1 1 * ax 1 + v1 2 * ax 2
  let p2 := v2 0 * ax 0 + v2 1 * ax 1 + v2 2 * ax 2
  let radius := ext 0 * |f 2| + ext 1 * |f 0| + ext 2 * |f 1|
  max (-(max (max p0 p1) p2)) (min (min p0 p1) p2) > radius

instance (v0 v1 v2 ax f ext : Fin 3 → K) : Decidable (calculateAxisValues v0 v1 v2 ax f ext) := by
  unfold calculateAxisValues; infer_instance

/-- discrete_representation_compiled.py:257-420 `_triangle_intersects_voxel`. -/
def triangleIntersectsVoxel (t : Tri3 K) (c ext : Fin 3 → K) : Bool :=
  let v0 : Fin 3 → K := fun i => t.1 i - c i
  let v1 : Fin 3 → K := fun i => t.2.1 i - c i
  let v2 : Fin 3 → K := fun i => t.2.2 i - c i
  let f0 : Fin 3 → K := fun i => t.2.1 i - t.1 i
  let f1 : Fin 3 → K := fun i => t.2.2 i - t.2.1 i
  let f2 : Fin 3 → K := fun i => t.1 i - t.2.2 i
  if max (max (v0 0) (v1 0)) (v2 0) < -ext 0 ∨ min (min (v0 0) (v1 0)) (v2 0) > ext 0 then false
  else if max (max (v0 1) (v1 1)) (v2 1) < -ext 1 ∨ min (min (v0 1) (v1 1)) (v2 1) > ext 1 then false
  else if max (max (v0 2) (v1 2)) (v2 2) < -ext 2 ∨ min (min (v0 2) (v1 2)) (v2 2) > ext 2 then false
  else
    let n : Fin 3 → K := ![f0 1 * f1 2 - f0 2 * f1 1, f0 2 * f1 0 - f0 0 * f1 2, f0 0 * f1 1 - f0 1 * f1 0]
    if |n 0 * v0 0 + n 1 * v0 1 + n 2 * v0 2| > ext 0 * |n 0| + ext 1 * |n 1| + ext 2 * |n 2| then false
    else if calculateAxisValues v0 v1 v2 ![0, -f0 2, f0 1] f0 ext then false
    else if calculateAxisValues v0 v1 v2 ![0, -f1 2, f1 1] f1 ext then false
    else if calculateAxisValues v0 v1 v2 ![0, -f2 2, f2 1] f2 ext then false
    else if calculateAxisValues v0 v1 v2 ![f0 2, 0, -f0 0] f0 ext then false
    else if calculateAxisValues v0 v1 v2 ![f1 2, 0, -f1 0] f1 ext then false
    else if calculateAxisValues v0 v1 v2 ![f2 2, 0, -f2 0] f2 ext then false
    else if calculateAxisValues v0 v1 v2 ![-f0 1, f0 0, 0] f0 ext then false
    else if calculateAxisValues v0 v1 v2 ![-f1 1, f1 0, 0] f1 ext then false
    else if calculateAxisValues v0 v1 v2 ![-f2 1, f2 0, 0] f2 ext then false
    else true

/-- discrete_representation_compiled.py:864-898 `_line_segment_intersects_pixel`.  The rounding of the four values to 9 digits
is not modelled. -/
def lineSegmentIntersectsPixel (x1 y1 x2 y2 xmin xmax ymin ymax : K) : Bool :=
  let e1 := (y2 - y1) * xmin + (x1 - x2) * ymin + (x2 * y1 - x1 * y2)
  let e2 := (y2 - y1) * xmin + (x1 - x2) * ymax + (x2 * y1 - x1 * y2)
  let e3 := (y2 - y1) * xmax + (x1 - x2) * ymin + (x2 * y1 - x1 * y2)
  let e4 := (y2 - y1) * xmax + (x1 - x2) * ymax + (x2 * y1 - x1 * y2)
  let miss : Bool :=
    (decide (e1 ≥ 0 ∧ e2 ≥ 0 ∧ e3 ≥ 0 ∧ e4 ≥ 0) || decide (e1 < 0 ∧ e2 < 0 ∧ e3 < 0 ∧ e4 < 0)) &&
    (decide (e1 > 0 ∧ e2 > 0 ∧ e3 > 0 ∧ e4 > 0) || decide (e1 ≤ 0 ∧ e2 ≤ 0 ∧ e3 ≤ 0 ∧ e4 ≤ 0))
  let shadowMiss : Bool :=
    decide (x1 > xmax ∧ x2 > xmax) || decide (x1 < xmin ∧ x2 < xmin) || decide (y1 > ymax ∧ y2 > ymax) || decide (y1 < ymin ∧ y2 < ymin)
  !(miss || shadowMiss)

/-- discrete_representation_compiled.py:700-705 `__sign`. -/
def sign2 (p1 p2 p3 : K × K) : K := (p1.1 - p3.1) * (p2.2 - p3.2) - (p2.1 - p3.1) * (p1.2 - p3.2)

/-- discrete_representation_compiled.py:681-695 `_point_in_triangle_2d`. -/
def pointInTriangle2d (p : K × K) (t : (K × K) × (K × K) × (K × K)) : Bool :=
  let inside1 := decide (sign2 p t.1 t.2.1 < 0)
  let inside2 := decide (sign2 p t.2.1 t.2.2 < 0)
  let inside3 := decide (sign2 p t.2.2 t.1 < 0)
  inside1 == inside2 && inside2 == inside3

/-- discrete_representation_compiled.py:710-719 `_point_in_pixel`. -/
def pointInPixel (p lb rt : K × K) : Bool := decide (lb.1 ≤ p.1 ∧ p.1 ≤ rt.1) && decide (lb.2 ≤ p.2 ∧ p.2 ≤ rt.2)

/-- discrete_representation_compiled.py:662-676 `_bounding_rectangles_overlap`. -/
def boundingRectanglesOverlap (min1 max1 min2 max2 : K × K) : Bool :=
  if max1.1 < min2.1 ∨ max2.1 < min1.1 then false
  else if max1.2 < min2.2 ∨ max2.2 < min1.2 then false
  else true

/-- discrete_representation_compiled.py:569-657 `_triangle_2d_intersects_pixel` (1426-1456 `_triangle_2d_min_max_points`
inlined).  The rounding of the corners to 9 digits is not modelled. -/
def triangle2dIntersectsPixel (t : (K × K) × (K × K) × (K × K)) (c e : K × K) : Bool :=
  let lb : K × K := (c.1 - e.1, c.2 - e.2)
  let rb : K × K := (c.1 + e.1, c.2 - e.2)
  let lt : K × K := (c.1 - e.1, c.2 + e.2)
  let rt : K × K := (c.1 + e.1, c.2 + e.2)
  let minT : K × K := (min (min t.1.1 t.2.1.1) t.2.2.1, min (min t.1.2 t.2.1.2) t.2.2.2)
  let maxT : K × K := (max (max t.1.1 t.2.1.1) t.2.2.1, max (max t.1.2 t.2.1.2) t.2.2.2)
  if !boundingRectanglesOverlap minT maxT lb rt then false
  else if pointInPixel t.1 lb rt || pointInPixel t.2.1 lb rt || pointInPixel t.2.2 lb rt then true
  else if pointInTriangle2d lb t || pointInTriangle2d rb t || pointInTriangle2d lt t || pointInTriangle2d rt t then true
  else if lineSegmentIntersectsPixel t.1.1 t.1.2 t.2.1.1 t.2.1.2 lb.1 rt.1 lb.2 rt.2 ||
      lineSegmentIntersectsPixel t.1.1 t.1.2 t.2.2.1 t.2.2.2 lb.1 rt.1 lb.2 rt.2 ||
      lineSegmentIntersectsPixel t.2.1.1 t.2.1.2 t.2.2.1 t.2.2.2 lb.1 rt.1 lb.2 rt.2 then true
  else false

/-- discrete_representation_compiled.py:451-564 `_triangle_interfaces_voxel`.  The rounding to 9 digits is not modelled. -/
def triangleInterfacesVoxel (t : Tri3 K) (c e : Fin 3 → K) : Bool :=
  if (t.1 0 = t.2.1 0 ∧ t.2.1 0 = t.2.2 0) ∧ (t.1 0 = c 0 - e 0 ∨ t.1 0 = c 0 + e 0) ∧
      triangle2dIntersectsPixel ((t.1 1, t.1 2), (t.2.1 1, t.2.1 2), (t.2.2 1, t.2.2 2)) (c 1, c 2) (e 1, e 2) = true then true
  else if (t.1 1 = t.2.1 1 ∧ t.2.1 1 = t.2.2 1) ∧ (t.1 1 = c 1 - e 1 ∨ t.1 1 = c 1 + e 1) ∧
      triangle2dIntersectsPixel ((t.1 0, t.1 2), (t.2.1 0, t.2.1 2), (t.2.2 0, t.2.2 2)) (c 0, c 2) (e 0, e 2) = true then true
  else if (t.1 2 = t.2.1 2 ∧ t.2.1 2 = t.2.2 2) ∧ (t.1 2 = c 2 - e 2 ∨ t.1 2 = c 2 + e 2) ∧
      triangle2dIntersectsPixel ((t.1 0, t.1 1), (t.2.1 0, t.2.1 1), (t.2.2 0, t.2.2 1)) (c 0, c 1) (e 0, e 1) = true then true
  else false

/-- discrete_representation_compiled.py:151-173 `triangle_intersects_voxel`, the public function. -/
def triangleIntersectsVoxelApi (t : Tri3 K) (c e : Fin 3 → K) : Bool :=
  triangleIntersectsVoxel t c e || triangleInterfacesVoxel t c e

end Volmdlr.Voxel
