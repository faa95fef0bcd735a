import Verif.Frame.Model

/-!
# Model of `BoundingRectangle` and `BoundingBox` (`volmdlr/core.py`)

Attributes that do not influence results (`name`) are left out.  `hash`, plotting, `to_frame` and
`is_close` are not modelled here (`Frame3D` and `is_close` are in other areas);
`is_intersecting_triangle` is in the voxel area.
-/

namespace Volmdlr

section
variable {K : Type*} [Field K] [LinearOrder K]

/-- core.py:357-364 `BoundingRectangle`. -/
@[ext] structure Rect (K : Type*) where
  (xmin xmax ymin ymax : K)
  deriving DecidableEq, Repr

/-- core.py:547-576 `BoundingBox` (geometric fields; the caches `_size`, `_octree` are modelled by
`BoxObj` below). -/
@[ext] structure Box3 (K : Type*) where
  (xmin xmax ymin ymax zmin zmax : K)
  deriving DecidableEq, Repr

/-- numpy `min` of a non-empty list `a :: l`. -/
def listMin (a : K) (l : List K) : K := l.foldl min a
/-- numpy `max` of a non-empty list `a :: l`. -/
def listMax (a : K) (l : List K) : K := l.foldl max a

namespace Rect
/-- core.py:404-408 `area`. -/
def area (r : Rect K) : K := (r.xmax - r.xmin) * (r.ymax - r.ymin)
/-- core.py:416-424 `is_intersecting`. -/
def isIntersecting (r s : Rect K) : Bool :=
  decide (r.xmin < s.xmax) && decide (r.xmax > s.xmin) && decide (r.ymin < s.ymax) && decide (r.ymax > s.ymin)
/-- core.py:436-446 `is_inside_b_rectangle`. -/
def isInside (r s : Rect K) (tol : K := 1 / 10 ^ 6) : Bool :=
  decide (r.xmin ≥ s.xmin - tol) && decide (r.xmax ≤ s.xmax + tol) &&
  decide (r.ymin ≥ s.ymin - tol) && decide (r.ymax ≤ s.ymax + tol)
/-- core.py:448-455 `point_belongs`. -/
def pointBelongs (r : Rect K) (p : V2 K) : Bool :=
  decide (r.xmin < p.x) && decide (p.x < r.xmax) && decide (r.ymin < p.y) && decide (p.y < r.ymax)
/-- core.py:457-472 `intersection_area`. -/
def intersectionArea (r s : Rect K) : K :=
  if ¬ r.isIntersecting s then 0
  else if r.isInside s || s.isInside r then min r.area s.area
  else
    let lx := min r.xmax s.xmax - max r.xmin s.xmin
    let ly := min r.ymax s.ymax - max r.ymin s.ymin
    lx * ly
/-- core.py:525-539 `from_points`; numpy raises `ValueError` on an empty array. -/
def fromPoints : List (V2 K) → Except PyErr (Rect K)
  | [] => .error .valueError
  | p :: ps => .ok ⟨listMin p.x (ps.map V2.x), listMax p.x (ps.map V2.x),
      listMin p.y (ps.map V2.y), listMax p.y (ps.map V2.y)⟩
end Rect

namespace Box3
/-- core.py:593-599 `__add__`. -/
def add (a b : Box3 K) : Box3 K :=
  ⟨min a.xmin b.xmin, max a.xmax b.xmax, min a.ymin b.ymin, max a.ymax b.ymax,
   min a.zmin b.zmin, max a.zmax b.zmax⟩
/-- core.py:681-704 `from_bounding_boxes`; numpy raises on an empty array. -/
def fromBoundingBoxes : List (Box3 K) → Except PyErr (Box3 K)
  | [] => .error .valueError
  | b :: bs => .ok ⟨listMin b.xmin (bs.map xmin), listMax b.xmax (bs.map xmax),
      listMin b.ymin (bs.map ymin), listMax b.ymax (bs.map ymax),
      listMin b.zmin (bs.map zmin), listMax b.zmax (bs.map zmax)⟩
/-- core.py:707-722 `from_points`; numpy raises on an empty array. -/
def fromPoints : List (V3 K) → Except PyErr (Box3 K)
  | [] => .error .valueError
  | p :: ps => .ok ⟨listMin p.x (ps.map V3.x), listMax p.x (ps.map V3.x),
      listMin p.y (ps.map V3.y), listMax p.y (ps.map V3.y),
      listMin p.z (ps.map V3.z), listMax p.z (ps.map V3.z)⟩
/-- core.py:625-640 `points`: the eight corners. -/
def points (b : Box3 K) : List (V3 K) :=
  [⟨b.xmin, b.ymin, b.zmin⟩, ⟨b.xmax, b.ymin, b.zmin⟩, ⟨b.xmax, b.ymax, b.zmin⟩, ⟨b.xmin, b.ymax, b.zmin⟩,
   ⟨b.xmin, b.ymin, b.zmax⟩, ⟨b.xmax, b.ymin, b.zmax⟩, ⟨b.xmax, b.ymax, b.zmax⟩, ⟨b.xmin, b.ymax, b.zmax⟩]
/-- core.py:578-588 `center` (`0.5` is `1/2`). -/
def center (b : Box3 K) : V3 K :=
  ⟨1 / 2 * (b.xmin + b.xmax), 1 / 2 * (b.ymin + b.ymax), 1 / 2 * (b.zmin + b.zmax)⟩
/-- core.py:762-768 `size`, the value computed when the cache is empty. -/
def size (b : Box3 K) : V3 K := ⟨b.xmax - b.xmin, b.ymax - b.ymin, b.zmax - b.zmin⟩
/-- core.py:770-777 `volume`. -/
def volume (b : Box3 K) : K := (b.xmax - b.xmin) * (b.ymax - b.ymin) * (b.zmax - b.zmin)
/-- core.py:779-807 `scale`. -/
def scale (b : Box3 K) (factor : K) : Box3 K :=
  let x_center := (b.xmin + b.xmax) / 2
  let y_center := (b.ymin + b.ymax) / 2
  let z_center := (b.zmin + b.zmax) / 2
  let hx := (b.size.x * factor) / 2
  let hy := (b.size.y * factor) / 2
  let hz := (b.size.z * factor) / 2
  ⟨x_center - hx, x_center + hx, y_center - hy, y_center + hy, z_center - hz, z_center + hz⟩
/-- core_compiled.pyx:289-311 `bbox_is_intersecting` and core.py:822-832 `is_intersecting`. -/
def isIntersecting (a b : Box3 K) (tol : K := 1 / 10 ^ 6) : Bool :=
  let x1_min := a.xmin - tol
  let x1_max := a.xmax + tol
  let y1_min := a.ymin - tol
  let y1_max := a.ymax + tol
  let z1_min := a.zmin - tol
  let z1_max := a.zmax + tol
  let x2_min := b.xmin - tol
  let x2_max := b.xmax + tol
  let y2_min := b.ymin - tol
  let y2_max := b.ymax + tol
  let z2_min := b.zmin - tol
  let z2_max := b.zmax + tol
  if x1_max < x2_min ∨ x1_min > x2_max ∨ y1_max < y2_min ∨ y1_min > y2_max ∨
      z1_max < z2_min ∨ z1_min > z2_max then false else true
/-- core.py:834-845 `is_inside_bbox`. -/
def isInside (a b : Box3 K) : Bool :=
  decide (a.xmin ≥ b.xmin - 1 / 10 ^ 6) && decide (a.xmax ≤ b.xmax + 1 / 10 ^ 6) &&
  decide (a.ymin ≥ b.ymin - 1 / 10 ^ 6) && decide (a.ymax ≤ b.ymax + 1 / 10 ^ 6) &&
  decide (a.zmin ≥ b.zmin - 1 / 10 ^ 6) && decide (a.zmax ≤ b.zmax + 1 / 10 ^ 6)
/-- core.py:847-865 `intersection_volume`. -/
def intersectionVolume (a b : Box3 K) : K :=
  if ¬ a.isIntersecting b then 0
  else if a.isInside b || b.isInside a then min a.volume b.volume
  else
    let lx := min a.xmax b.xmax - max a.xmin b.xmin
    let ly := min a.ymax b.ymax - max a.ymin b.ymin
    let lz := min a.zmax b.zmax - max a.zmin b.zmin
    lx * ly * lz
/-- core.py:916-930 `point_belongs`. -/
def pointBelongs (b : Box3 K) (p : V3 K) (tol : K := 1 / 10 ^ 6) : Bool :=
  decide (b.xmin - tol ≤ p.x) && decide (p.x ≤ b.xmax + tol) &&
  decide (b.ymin - tol ≤ p.y) && decide (p.y ≤ b.ymax + tol) &&
  decide (b.zmin - tol ≤ p.z) && decide (p.z ≤ b.zmax + tol)

/-- core.py:737-760 `get_points_inside_bbox`: the loops over z, y, x. -/
def getPointsInsideBbox (b : Box3 K) (points_x points_y points_z : ℕ) : List (V3 K) :=
  let sx := b.size.x / points_x
  let sy := b.size.y / points_y
  let sz := b.size.z / points_z
  let initial : V3 K := b.center +
    (-(⟨b.size.x / 2 - sx / 2, b.size.y / 2 - sy / 2, b.size.z / 2 - sz / 2⟩ : V3 K))
  (List.range points_z).flatMap fun (z_box : ℕ) =>
    (List.range points_y).flatMap fun (y_box : ℕ) =>
      (List.range points_x).map fun (x_box : ℕ) =>
        initial + (⟨(x_box : K) * sx, (y_box : K) * sy, (z_box : K) * sz⟩ : V3 K)

/-- core.py:989-1004 `octree`, the value computed when the cache is empty. -/
def octree (b : Box3 K) : List (Box3 K) :=
  let sx := b.size.x / 2
  let sy := b.size.y / 2
  let sz := b.size.z / 2
  (b.getPointsInsideBbox 2 2 2).map fun c =>
    ⟨c.x - sx / 2, c.x + sx / 2, c.y - sy / 2, c.y + sy / 2, c.z - sz / 2, c.z + sz / 2⟩
end Box3
end

namespace Rect
/-- core.py:474-495 `distance_to_b_rectangle`, with its successive permutations. -/
noncomputable def distanceToBRectangle (self b_rectangle2 : Rect ℝ) : ℝ :=
  if self.isIntersecting b_rectangle2 then 0
  else
    let p := if b_rectangle2.xmin < self.xmin then (b_rectangle2, self) else (self, b_rectangle2)
    let dx := max (p.2.xmin - p.1.xmax) 0
    let p := if p.2.ymin < p.1.ymin then (p.2, p.1) else p
    let dy := max (p.2.ymin - p.1.ymax) 0
    Real.sqrt (dx ^ 2 + dy ^ 2)
/-- core.py:497-522 `distance_to_point`; the second entry of the `min` is `point.y - self.xmin` as
written at line 505. -/
noncomputable def distanceToPoint (r : Rect ℝ) (p : V2 ℝ) : ℝ :=
  if r.pointBelongs p then
    min (min (min (r.xmax - p.x) (p.y - r.xmin)) (r.ymax - p.y)) (p.y - r.ymin)
  else
    let dx := if p.x < r.xmin then r.xmin - p.x else if r.xmax < p.x then p.x - r.xmax else 0
    let dy := if p.y < r.ymin then r.ymin - p.y else if r.ymax < p.y then p.y - r.ymax else 0
    Real.sqrt (dx ^ 2 + dy ^ 2)
end Rect

namespace Box3
/-- core.py:883-914 `distance_to_bbox`, with its successive permutations. -/
noncomputable def distanceToBbox (self bbox2 : Box3 ℝ) : ℝ :=
  if self.isIntersecting bbox2 then 0
  else
    let p := if bbox2.xmin < self.xmin then (bbox2, self) else (self, bbox2)
    let dx := max (p.2.xmin - p.1.xmax) 0
    let p := if p.2.ymin < p.1.ymin then (p.2, p.1) else p
    let dy := max (p.2.ymin - p.1.ymax) 0
    let p := if p.2.zmin < p.1.zmin then (p.2, p.1) else p
    let dz := max (p.2.zmin - p.1.zmax) 0
    Real.sqrt (dx ^ 2 + dy ^ 2 + dz ^ 2)
/-- core.py:932-966 `distance_to_point`. -/
noncomputable def distanceToPoint (b : Box3 ℝ) (p : V3 ℝ) : ℝ :=
  if b.pointBelongs p then
    min (min (min (min (min (b.xmax - p.x) (p.x - b.xmin)) (b.ymax - p.y)) (p.y - b.ymin))
      (b.zmax - p.z)) (p.z - b.zmin)
  else
    let dx := if p.x < b.xmin then b.xmin - p.x else if b.xmax < p.x then p.x - b.xmax else 0
    let dy := if p.y < b.ymin then b.ymin - p.y else if b.ymax < p.y then p.y - b.ymax else 0
    let dz := if p.z < b.zmin then b.zmin - p.z else if b.zmax < p.z then p.z - b.zmax else 0
    Real.sqrt (dx ^ 2 + dy ^ 2 + dz ^ 2)
end Box3

/-! ## Objects with caches -/
section
variable {K : Type*} [Field K] [LinearOrder K]

/-- core.py:547-576, 762-768, 989-1004: a `BoundingBox` object, its public coordinates and its two
private caches. -/
structure BoxObj (K : Type*) where
  box : Box3 K
  size : Option (V3 K)
  octree : Option (List (Box3 K))

/-- What a user can do with a `BoundingBox` object: read the two cached values, read the volume, or
assign its public coordinate attributes. -/
inductive BoxOp (K : Type*)
  | readSize | readOctree | readVolume
  | assign (b : Box3 K)

/-- The observable answers. -/
inductive BoxOut (K : Type*)
  | none
  | size (s : V3 K)
  | octree (l : List (Box3 K))
  | volume (v : K)

/-- core.py:762-768 `size`; 989-1004 `octree` (which reads `self.size`, hence the cached size);
770-777 `volume` (not cached); plain attribute assignment. The octree of a box whose cached size is `s`
is computed with `s` and the current centre. -/
def BoxObj.step (o : BoxObj K) : BoxOp K → BoxObj K × BoxOut K
  | .readSize =>
    match o.size with
    | some s => (o, .size s)
    | none => ({ o with size := some o.box.size }, .size o.box.size)
  | .readOctree =>
    match o.octree with
    | some l => (o, .octree l)
    | none =>
      let s := o.size.getD o.box.size
      let c := o.box.center
      -- the octree of the box with centre `c` and size `s`
      let b : Box3 K := ⟨c.x - s.x / 2, c.x + s.x / 2, c.y - s.y / 2, c.y + s.y / 2, c.z - s.z / 2, c.z + s.z / 2⟩
      ({ o with size := some s, octree := some b.octree }, .octree b.octree)
  | .readVolume => (o, .volume o.box.volume)
  | .assign b => ({ o with box := b }, .none)

/-- A new object (core.py:547-576): empty caches. -/
def BoxObj.new (b : Box3 K) : BoxObj K := ⟨b, none, none⟩

/-- Running a history: the final object and the answers paired with the box at that moment. -/
def BoxObj.run : BoxObj K → List (BoxOp K) → List (Box3 K × BoxOut K)
  | _, [] => []
  | o, op :: ops => (o.box, (o.step op).2) :: BoxObj.run (o.step op).1 ops

/-- core.py:1316-1359 `VolumeModel` (also `Assembly`, 1025-1056): its list of primitives, of which only
the bounding boxes matter here, and the private cache `_bbox`. -/
structure ModelObj (K : Type*) where
  primitives : List (Box3 K)
  bbox : Option (Box3 K)

/-- Uses of a `VolumeModel`: reading `bounding_box`, the `bounding_box` setter (`none` resets the cache),
changing `primitives` (an ordinary public list attribute). -/
inductive ModelOp (K : Type*)
  | read
  | setBBox (b : Option (Box3 K))
  | setPrimitives (l : List (Box3 K))

/-- core.py:1341-1359 `bounding_box` property, its setter, and `_bounding_box`. -/
def ModelObj.step (o : ModelObj K) : ModelOp K → ModelObj K × Option (Except PyErr (Box3 K))
  | .read =>
    match o.bbox with
    | some b => (o, some (.ok b))
    | none =>
      match Box3.fromBoundingBoxes o.primitives with
      | .ok b => ({ o with bbox := some b }, some (.ok b))
      | .error e => (o, some (.error e))
  | .setBBox b => ({ o with bbox := b }, none)
  | .setPrimitives l => ({ o with primitives := l }, none)

/-- The answers of a history, each with the primitives at that moment. -/
def ModelObj.run : ModelObj K → List (ModelOp K) → List (List (Box3 K) × Option (Except PyErr (Box3 K)))
  | _, [] => []
  | o, op :: ops => (o.primitives, (o.step op).2) :: ModelObj.run (o.step op).1 ops
end

end Volmdlr
