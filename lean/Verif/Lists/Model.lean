import Verif.Frame.Model

/-!
# Model of the list helpers

`nearest_point`, `remove_duplicate`, `in_list` (`core_compiled.pyx`), `delete_double_point`,
`element_in_list`, `get_element_index_in_list` (`core.py`), equality and hashing of points, mesh nodes
and polygons, `order_points_list_for_nearest_neighbor` (`utils/common_operations.py`),
`array_range_search`, `verify_repeated_parametric_points`, `update_face_grid_points_with_inner_polygons`
(`utils/parametric.py`).
-/

namespace Volmdlr

/-- core_compiled.pyx:1293-1309 `Point2D.nearest_point` (`points[0]` raises on an empty list). -/
noncomputable def nearestPoint2d (self : V2 ℝ) (points : List (V2 ℝ)) : Except PyErr (V2 ℝ) :=
  match points with
  | [] => .error .indexError
  | p0 :: _ =>
    .ok (points.foldl (fun (st : ℝ × V2 ℝ) point =>
      let pd := V2.norm (point - self)
      if pd < st.1 then (pd, point) else st) (V2.norm (p0 - self), p0)).2

/-- core_compiled.pyx:2117-2132 `Point3D.nearest_point`: `math.inf, None` is the initial state `none`;
every distance is smaller than `math.inf`. -/
noncomputable def nearestPoint3d (self : V3 ℝ) (points : List (V3 ℝ)) : Option (V3 ℝ) :=
  (points.foldl (fun (st : Option (ℝ × V3 ℝ)) point =>
    let distance := V3.norm (point - self)
    match st with
    | none => some (distance, point)
    | some (m, c) => if distance < m then some (distance, point) else some (m, c)) none).map Prod.snd

section
variable {K : Type*} [Field K] [LinearOrder K]

/-- core_compiled.pyx:2186-2202 `point2d_in_list`. -/
def point2dInList (point : V2 K) (l : List (V2 K)) (tol : K) : Bool :=
  l.any fun q => decide ((q.x - point.x) * (q.x - point.x) + (q.y - point.y) * (q.y - point.y) ≤ tol * tol)
/-- core_compiled.pyx:2167-2183 `point3d_in_list`. -/
def point3dInList (point : V3 K) (l : List (V3 K)) (tol : K) : Bool :=
  l.any fun q => decide ((q.x - point.x) * (q.x - point.x) + (q.y - point.y) * (q.y - point.y) +
    (q.z - point.z) * (q.z - point.z) ≤ tol * tol)
end

/-- core.py:38-50 `element_in_list`, for any `is_close` test. -/
def elementInList {α : Type*} (isClose : α → α → Bool) (element : α) (l : List α) : Bool :=
  l.any fun e => isClose element e
/-- core.py:81-93 `get_element_index_in_list`, the loop with index `i`. -/
def getElementIndexFrom {α : Type*} (isClose : α → α → Bool) (element : α) : List α → ℕ → Option ℕ
  | [], _ => none
  | e :: es, i => if isClose e element then some i else getElementIndexFrom isClose element es (i + 1)
/-- core.py:81-93 `get_element_index_in_list`. -/
def getElementIndexInList {α : Type*} (isClose : α → α → Bool) (element : α) (l : List α) : Option ℕ :=
  getElementIndexFrom isClose element l 0

/-- core.py:132-150 `delete_double_point`, for any `__eq__` (`point not in points`: no kept `q` with
`q == point`). -/
def deleteDoublePoint {α : Type*} (eq : α → α → Bool) (l : List α) : List α :=
  l.foldl (fun points point => if points.any (fun q => eq q point) then points else points ++ [point]) []

/-- Python dictionary assignment `d[k] = v` on the list of items in insertion order: an existing key
keeps its place and gets the new value. -/
def dictSet {κ ν : Type*} [DecidableEq κ] : List (κ × ν) → κ → ν → List (κ × ν)
  | [], k, v => [(k, v)]
  | (k', v') :: d, k, v => if k' = k then (k', v) :: d else (k', v') :: dictSet d k v

/-- core_compiled.pyx:562-576 `Vector.remove_duplicate` for a hash function `h`. -/
def removeDuplicate {α κ : Type*} [DecidableEq κ] (h : α → κ) (points : List α) : List α :=
  (points.foldl (fun d p => dictSet d (h p) p) []).map Prod.snd

section
variable {K : Type*} [Field K] [LinearOrder K] [FloorRing K]

/-- Python `round` to an integer (ties to even). -/
def pyRound (x : K) : ℤ :=
  let f := ⌊x⌋
  let r := x - f
  if r < 1 / 2 then f else if 1 / 2 < r then f + 1 else if f % 2 = 0 then f else f + 1
/-- core_compiled.pyx:677-684 `Vector2D.approx_hash`. -/
def V2.approxHash (p : V2 K) : ℤ := pyRound (10 ^ 6 * (p.x + p.y))
/-- core_compiled.pyx:1466-1473 `Vector3D.approx_hash`. -/
def V3.approxHash (p : V3 K) : ℤ := pyRound (10 ^ 6 * (p.x + p.y + p.z))

/-- Python `int` of a float: truncation. -/
def pyInt (x : K) : ℤ := if 0 ≤ x then ⌊x⌋ else ⌈x⌉
/-- `math.isclose(a, b, abs_tol=abs_tol)` with the default `rel_tol = 1e-9`. -/
def isClose (a b abs_tol : K) : Bool := decide (|a - b| ≤ max (1 / 10 ^ 9 * max |a| |b|) abs_tol)

/-- mesh.py:47-48 `Node2D.__hash__`. -/
def node2dHash (p : V2 K) : ℤ := pyInt (10 ^ 6 * (p.x + p.y))
/-- mesh.py:50-55 `Node2D.__eq__` (between nodes). -/
def node2dEq (p q : V2 K) : Bool := isClose p.x q.x (1 / 10 ^ 12) && isClose p.y q.y (1 / 10 ^ 12)
/-- mesh.py:83-84 `Node3D.__hash__`. -/
def node3dHash (p : V3 K) : ℤ := pyInt (10 ^ 6 * (p.x + p.y + p.z))
/-- mesh.py:86-91 `Node3D.__eq__` (between nodes): `z` is not compared. -/
def node3dEq (p q : V3 K) : Bool := isClose p.x q.x (1 / 10 ^ 12) && isClose p.y q.y (1 / 10 ^ 12)
end

/-- A `Vector2D` or a `Point2D` (subclass) object, by class and coordinates. -/
structure Obj2 (K : Type*) where
  isPoint : Bool
  val : V2 K
  deriving DecidableEq

/-- core_compiled.pyx:641-645 / 1037-1041 `__eq__` method of `self`: `isinstance(other, self.__class__)`
and equal coordinates. -/
def Obj2.eqMethod {K : Type*} [DecidableEq K] (self other : Obj2 K) : Bool :=
  if other.isPoint || !self.isPoint then
    decide (self.val.x = other.val.x) && decide (self.val.y = other.val.y)
  else false
/-- Python's `a == b`: when the class of `b` is a proper subclass of that of `a`, the method of `b` is
used first (and it answers). -/
def Obj2.pyEq {K : Type*} [DecidableEq K] (a b : Obj2 K) : Bool :=
  if b.isPoint && !a.isPoint then b.eqMethod a else a.eqMethod b
/-- core_compiled.pyx:637-639 / 1033-1035 `__hash__`: Python's hash of a tuple, an arbitrary function of
the tag and the coordinates. -/
def Obj2.hash {K : Type*} (tupleHash : String → K → K → ℤ) (a : Obj2 K) : ℤ :=
  tupleHash (if a.isPoint then "point" else "vector") a.val.x a.val.y

/-- wires.py:2907-2913 `ClosedPolygon2D.__eq__` on the lists of points: `zip` stops at the shorter. -/
def polygonEq {α : Type*} [DecidableEq α] (p q : List α) : Bool :=
  (p.zip q).foldl (fun equal pq => equal && decide (pq.1 = pq.2)) true

/-- Python standard library `bisect_left`, the loop (`lo < hi`). -/
def bisectLeftLoop {K : Type*} [LinearOrder K] (a : ℕ → K) (x : K) (lo hi : ℕ) : ℕ :=
  if h : lo < hi then
    let mid := (lo + hi) / 2
    if a mid < x then bisectLeftLoop a x (mid + 1) hi else bisectLeftLoop a x lo mid
  else lo
  termination_by hi - lo
  decreasing_by all_goals omega
/-- Python standard library `bisect_right`, the loop. -/
def bisectRightLoop {K : Type*} [LinearOrder K] (a : ℕ → K) (x : K) (lo hi : ℕ) : ℕ :=
  if h : lo < hi then
    let mid := (lo + hi) / 2
    if x < a mid then bisectRightLoop a x lo mid else bisectRightLoop a x (mid + 1) hi
  else lo
  termination_by hi - lo
  decreasing_by all_goals omega
/-- utils/parametric.py:277-302 `array_range_search`: the pair (left, right) of the returned `range`. -/
def arrayRangeSearch {K : Type*} [LinearOrder K] [Zero K] (x : List K) (xmin xmax : K) : ℕ × ℕ :=
  (bisectLeftLoop (fun i => x.getD i 0) xmin 0 x.length, bisectRightLoop (fun i => x.getD i 0) xmax 0 x.length)

/-- utils/parametric.py:399-412 `verify_repeated_parametric_points` (`set` membership is equality; the
message printed for periodic breps has no effect on the result). -/
def verifyRepeatedParametricPoints {α : Type*} [DecidableEq α] (points : List α) : List α :=
  if points.dedup.length < points.length then
    (points.foldl (fun (st : List α × List α) p =>
      if p ∈ st.2 then st else (st.1 ++ [p], p :: st.2)) ([], [])).1
  else points

/-! ### order_points_list_for_nearest_neighbor -/
section
variable {α : Type*} {R : Type*} [LinearOrder R]
/-- `np.argmin` of the distances of a non-empty list: index of the first minimum. -/
def argminFrom (d : α → R) : List α → ℕ → ℕ → R → ℕ
  | [], _, best, _ => best
  | a :: l, i, best, m => if d a < m then argminFrom d l (i + 1) i (d a) else argminFrom d l (i + 1) best m
/-- `np.argmin` (0 on a one-element list). -/
def argmin (d : α → R) : List α → ℕ
  | [] => 0
  | a :: l => argminFrom d l 1 0 (d a)

/-- utils/common_operations.py:364-369, the loop: `nz` is numpy's truth test of a row (some coordinate is
not zero), so `remaining_points.any()` is `remaining.any nz`. -/
def nearestNeighborLoop (dist : α → α → R) (nz : α → Bool) : ℕ → α → List α → List α
  | 0, current, _ => [current]
  | fuel + 1, current, remaining =>
    if remaining.any nz then
      let i := argmin (fun p => dist p current) remaining
      match remaining[i]? with
      | none => [current]
      | some nearest => current :: nearestNeighborLoop dist nz fuel nearest (remaining.eraseIdx i)
    else [current]
/-- utils/common_operations.py:354-374 `order_points_list_for_nearest_neighbor`; each iteration
removes a point, so `points.length` iterations always suffice. -/
def orderPointsNearestNeighbor (dist : α → α → R) (nz : α → Bool) : List α → Except PyErr (List α)
  | [] => .error .indexError
  | p :: ps => .ok (nearestNeighborLoop dist nz (ps.length + 1) p ps)
end

/-- utils/parametric.py:305-319 `update_face_grid_points_with_inner_polygons` for one inner polygon: the
list of indices to delete.  `index` is the dictionary `(i, j) → position`, and `if not index` skips
both a missing key and the position `0`. -/
def gridIndicesToDelete (candidates : List (ℕ × ℕ)) (index : ℕ × ℕ → Option ℕ) (inside : ℕ → Bool) : List ℕ :=
  candidates.foldl (fun acc ij =>
    match index ij with
    | none => acc
    | some 0 => acc
    | some k => if inside k then acc ++ [k] else acc) []

end Volmdlr
