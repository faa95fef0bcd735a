import Verif.Voxel.GridModel
import Mathlib.Data.Nat.Log

/-!
# Model of `OctreeBasedVoxelization` (discrete_representation.py:1750-3062)

An octree is a nest of Python lists: at the maximal depth a list of triangle numbers, above it a list of eight octrees,
and an empty list at any depth for a part without voxels.  The empty list is `leaf []` here.  Numbers are exact, the
rounding to 9 decimals is not modelled.
-/

namespace Volmdlr.Voxel

variable {K : Type} [Field K] [LinearOrder K] [IsStrictOrderedRing K] [FloorRing K]

/-- discrete_representation.py:64 `Octree`. -/
inductive Oct
  | leaf (l : List ℕ)
  | node (ch : Fin 8 → Oct)

/-- The truth value of the list. -/
def Oct.truthy : Oct → Bool
  | .leaf l => !l.isEmpty
  | .node _ => true

/-- `octree[i]` for a list of eight octrees.  (For a leaf Python raises an `IndexError` or gives a number; the code does
this only for octrees that are not well formed.) -/
def Oct.child : Oct → Fin 8 → Oct
  | .leaf _, _ => .leaf []
  | .node ch, i => ch i

/-- The triangle numbers of a leaf. -/
def Oct.items : Oct → List ℕ
  | .leaf l => l
  | .node _ => []

/-- The digits `i`, `j`, `k` of the index `i * 4 + j * 2 + k`, for the axes 0, 1 and 2. -/
def octBit (idx : Fin 8) (a : Fin 3) : ℕ := if a = 0 then idx / 4 else if a = 1 then idx / 2 % 2 else idx % 2

/-- discrete_representation.py:2653-2661: the centre of a sub-voxel. -/
def childCentre (halfSize : K) (c : Fin 3 → K) (idx : Fin 8) : Fin 3 → K :=
  fun a => c a + ((octBit idx a : K) - 1 / 2) * halfSize

/-- discrete_representation.py:2638-2669 `_get_homogeneous_leaf_centers`; the first argument is the number of levels
below (`self._octree_depth - current_depth`). -/
def leafCentres : ℕ → K → (Fin 3 → K) → Oct → Set (Fin 3 → K)
  | 0, _, c, _ => {c}
  | n + 1, size, c, t => {q | ∃ i, (t.child i).truthy = true ∧ q ∈ leafCentres n (size / 2) (childCentre (size / 2) c i) (t.child i)}

/-- discrete_representation.py:1755-1791: the voxelization.  Only the number of triangles is modelled. -/
structure OctVox (K : Type) where
  octree : Oct
  rootC : Fin 3 → K
  depth : ℕ
  size : K
  triangles : ℕ

/-- discrete_representation.py:1793-1810 `_get_element_centers`, `_root_voxel_size`. -/
def OctVox.centres (v : OctVox K) : Set (Fin 3 → K) := leafCentres v.depth (v.size * 2 ^ v.depth) v.rootC v.octree

/-- An empty octree (`_current_octree_2` in lines 2134-2137), with `n` levels below. -/
def emptyAt (n : ℕ) : Oct := if n = 0 then .leaf [] else .node fun _ => .leaf []

/-- What differs between the four Boolean operations: what is done at the leaves and whether a part that is only in the
first (second) octree is visited. -/
structure OctOp where
  leaf : List ℕ → List ℕ → List ℕ
  first : Bool
  second : Bool

/-- discrete_representation.py:2100-2167, 2191-2242, 2266-2297 and 2321-2392: the common recursion; the first number is
`max_depth - current_depth`. -/
def recOp (op : OctOp) : ℕ → Oct → Oct → Oct
  | 0, a, b => .leaf (op.leaf a.items b.items)
  | n + 1, a, b => .node fun i =>
    if (a.child i).truthy && (b.child i).truthy then recOp op n (a.child i) (b.child i)
    else if (a.child i).truthy && op.first then recOp op n (a.child i) (emptyAt n)
    else if (b.child i).truthy && op.second then recOp op n (emptyAt n) (b.child i)
    else .leaf []

/-- discrete_representation.py:2108-2109 (leaves) and 2118-2165 (both parts visited) `_recursive_union`. -/
def unionOp (n1 : ℕ) : OctOp := ⟨fun l1 l2 => l1 ++ l2.map (· + n1), true, true⟩

/-- discrete_representation.py:2199-2202 (leaves) and 2221-2240 (first part visited) `_recursive_difference`. -/
def differenceOp : OctOp := ⟨fun l1 l2 => if l2.isEmpty then l1 else [], true, false⟩

/-- discrete_representation.py:2274-2275 (leaves) and 2282-2295 (only common parts) `_recursive_intersection`. -/
def intersectionOp (n1 : ℕ) : OctOp := ⟨fun l1 l2 => l1 ++ l2.map (· + n1), false, false⟩

/-- discrete_representation.py:2329-2334 (leaves) and 2353-2390 `_recursive_symmetric_difference`. -/
def symmetricDifferenceOp (n1 : ℕ) : OctOp :=
  ⟨fun l1 l2 => if l2.isEmpty then l1 else if l1.isEmpty then l2.map (· + n1) else [], true, true⟩

/-- The exceptions. -/
inductive OctError
  | valueError
  | notImplementedError
  deriving DecidableEq

/-- discrete_representation.py:2974-2997 `_increment_octree_depth`. -/
def OctVox.increment (v : OctVox K) : Except OctError (OctVox K) :=
  if v.rootC ≠ fun _ => 0 then .error .notImplementedError
  else .ok { v with
    octree := .node fun i => .node fun j => if j.val = 7 - i.val then v.octree.child i else .leaf []
    depth := v.depth + 1 }

/-- discrete_representation.py:3019-3024: one of the `while` loops of `_make_octrees_same_depth`, `k` times. -/
def OctVox.incrementTimes : ℕ → OctVox K → Except OctError (OctVox K)
  | 0, v => .ok v
  | k + 1, v => match v.increment with
    | .ok w => incrementTimes k w
    | .error e => .error e

/-- discrete_representation.py:2999-3026 `_make_octrees_same_depth`; the loops run while the depth is smaller. -/
def sameDepth (v w : OctVox K) : Except OctError (OctVox K × OctVox K) :=
  if v.size ≠ w.size then .error .valueError
  else
    match v.incrementTimes (w.depth - v.depth) with
    | .error e => .error e
    | .ok v' =>
      match w.incrementTimes (v.depth - w.depth) with
      | .error e => .error e
      | .ok w' => .ok (v', w')

/-- discrete_representation.py:2081-2098 `union`, 2169-2188 `difference`, 2244-2263 `intersection` and 2299-2318
`symmetric_difference`: the common part.  `op` may depend on the number of triangles of the first octree. -/
def OctVox.boolOp (op : ℕ → OctOp) (triangles : ℕ → ℕ → ℕ) (v w : OctVox K) : Except OctError (OctVox K) :=
  match sameDepth v w with
  | .error e => .error e
  | .ok (v', w') => .ok ⟨recOp (op v'.triangles) v'.depth v'.octree w'.octree, fun _ => 0, v'.depth, v'.size, triangles v.triangles w.triangles⟩

def OctVox.union (v w : OctVox K) := v.boolOp unionOp (· + ·) w
def OctVox.difference (v w : OctVox K) := v.boolOp (fun _ => differenceOp) (fun a _ => a) w
def OctVox.intersection (v w : OctVox K) := v.boolOp intersectionOp (· + ·) w
def OctVox.symmetricDifference (v w : OctVox K) := v.boolOp symmetricDifferenceOp (· + ·) w

/-- discrete_representation.py:2589-2599: the sub-voxel a point belongs to. -/
def octantOf (c p : Fin 3 → K) : Fin 8 :=
  ⟨(if p 0 > c 0 then 4 else 0) + (if p 1 > c 1 then 2 else 0) + (if p 2 > c 2 then 1 else 0), by split_ifs <;> omega⟩

/-- discrete_representation.py:2571-2635 `_subdivide_from_points`; the first number is `max_depth - depth`, and the
sizes of the list `sizes` are `voxel_size * 2 ** n`. -/
def subdivide (vs : K) : ℕ → List (Fin 3 → K) → (Fin 3 → K) → Oct
  | 0, _, _ => .leaf [1]
  | n + 1, points, c =>
    let sub : Fin 8 → Oct := fun i =>
      let pts := points.filter fun p => octantOf c p = i
      if pts.isEmpty then .leaf [] else subdivide vs n pts (childCentre (vs * 2 ^ n) c i)
    if ∀ i, (sub i).truthy = false then .leaf [] else .node sub

/-- discrete_representation.py:1909-1921: the depth of the octree.  `minC` and `maxC` are the smallest and largest
coordinates of all the centres.  `math.ceil(math.log2(n))` is the exact ceiling. -/
def octreeDepth (vs minC maxC : K) : ℕ :=
  let minCorner : K := ((⌊minC / vs⌋ : K) - 2) * vs
  let maxCorner : K := ((⌊maxC / vs⌋ : K) + 2) * vs
  let rootSize : K := max |minCorner| |maxCorner| * 2
  Nat.clog 2 ⌊rootSize / vs⌋.toNat

/-- discrete_representation.py:1896-1935 `from_point_based_voxelization`, for a voxelization with voxels given as a list
in any order. -/
def OctVox.fromPoints (vs : K) (points : List (Fin 3 → K)) (minC maxC : K) : OctVox K :=
  ⟨subdivide vs (octreeDepth vs minC maxC) points fun _ => 0, fun _ => 0, octreeDepth vs minC maxC, vs, 0⟩

end Volmdlr.Voxel
