import Verif.Voxel.Model
import Mathlib.Algebra.Order.Round
import Mathlib.Data.Finset.Lattice.Fold
import Mathlib.Data.Finset.Filter

/-!
# Model of matrix based voxelizations with their grid, and of point based voxelizations
-/

namespace Volmdlr.Voxel

variable {d : ℕ} {K : Type} [Field K] [LinearOrder K] [IsStrictOrderedRing K] [FloorRing K]

/-- discrete_representation.py:1231-1259 `MatrixBasedVoxelization` (3612-3638 `MatrixBasedPixelization`): the array, the
centre of the cell of indices `0, …, 0` and the size of the cells.  The name is not modelled. -/
structure Vox (d : ℕ) (K : Type) where
  mat : Mat d
  minC : Fin d → K
  size : K

/-- The exceptions. -/
inductive VoxError
  | valueError
  | indexError
  deriving DecidableEq

/-- discrete_representation.py:1261-1271 `_get_element_centers` (3640-3650 in two dimensions), as a set. -/
def Vox.centres (v : Vox d K) : Set (Fin d → K) :=
  {p | ∃ c : Cell d, v.mat.val c = true ∧ p = fun i => v.minC i + c i * v.size}

/-- discrete_representation.py:1310-1325 `max_grid_center`; the rounding to 6 decimals is not modelled. -/
def Vox.maxC (v : Vox d K) (i : Fin d) : K := v.minC i + ((v.mat.shape i : K) - 1) * v.size

/-- discrete_representation.py:1563-1580 `_expand` (3908-3925 in two dimensions). -/
def Vox.expand (v : Vox d K) : Vox d K := ⟨expandMat v.mat, fun i => v.minC i - v.size, v.size⟩

/-- discrete_representation.py:1582-1597 `_reduce` (3927-3942 in two dimensions). -/
def Vox.reduce (v : Vox d K) : Vox d K := ⟨reduceMat v.mat, fun i => v.minC i + v.size, v.size⟩

/-- discrete_representation.py:1413-1421 `inverse` (3813-3821 in two dimensions). -/
def Vox.inverse (v : Vox d K) : Vox d K := ⟨inverseMat v.mat, v.minC, v.size⟩

/-- discrete_representation.py:1423-1437 `flood_fill` (3823-3837 in two dimensions). -/
def Vox.floodFill (dirs : List (Cell d)) (fuel : ℕ) (v : Vox d K) (start : Cell d) (fill : Bool) :
    Option (Except VoxError (Vox d K)) :=
  (Voxel.floodFill dirs fuel v.mat start fill).map fun r => match r with
    | .ok m => .ok ⟨m, v.minC, v.size⟩
    | .error _ => .error .indexError

/-- discrete_representation.py:1439-1452 `_fill_outer_elements` (3839-3852 in two dimensions). -/
def Vox.fillOuter (dirs : List (Cell d)) (fuel : ℕ) (v : Vox d K) : Option (Except VoxError (Vox d K)) :=
  (Vox.floodFill dirs fuel v.expand (fun _ => 0) true).map fun r => r.map Vox.reduce

/-- `np.argwhere(matrix)`, as a set. -/
def trueCells (m : Mat d) : Finset (Cell d) :=
  (Fintype.piFinset fun i => Finset.Ico (0 : ℤ) (m.shape i)).filter fun c => m.val c = true

/-- `matrix[lo[0]:hi[0] + 1, …]` for indices in the matrix. -/
def sliceMat (m : Mat d) (lo hi : Cell d) : Mat d :=
  mkMat (fun i => (hi i + 1 - lo i).toNat) fun c => m.val fun i => c i + lo i

/-- discrete_representation.py:1646-1675 `crop_matrix` (3989-4017 in two dimensions). -/
def Vox.crop (v : Vox d K) : Vox d K :=
  if h : (trueCells v.mat).Nonempty then
    let lo : Cell d := fun i => (trueCells v.mat).inf' h fun c => c i
    let hi : Cell d := fun i => (trueCells v.mat).sup' h fun c => c i
    ⟨sliceMat v.mat lo hi, fun i => v.minC i + lo i * v.size, v.size⟩
  else v

/-- numpy: `new[start[0]:start[0] + m.shape[0], …] = m` for an array `new` of `False` and a start that is not negative.
The slice is cut at the end of `new`; the shape of `m` has to be that of the cut slice, except that an axis of length 1 is
broadcast (then nothing is written if the cut slice is empty). -/
def paste (newShape : Fin d → ℕ) (start : Cell d) (m : Mat d) : Except VoxError (Mat d) :=
  if ∀ i, max 0 (min (start i + m.shape i) (newShape i) - start i) = m.shape i ∨ m.shape i = 1 then
    .ok (mkMat newShape fun c => m.val fun i => c i - start i)
  else .error .valueError

/-- discrete_representation.py:1599-1644 `_logical_operation` (3944-3987 in two dimensions). -/
def Vox.logical (f : Bool → Bool → Bool) (v w : Vox d K) : Except VoxError (Vox d K) :=
  if v.size ≠ w.size then .error .valueError
  else
    let gmin : Fin d → K := fun i => min (v.minC i) (w.minC i)
    let gmax : Fin d → K := fun i => max (v.maxC i + 1) (w.maxC i + 1)
    let newShape : Fin d → ℕ := fun i => ⌊(gmax i - gmin i) / v.size⌋.toNat
    let startV : Cell d := fun i => ⌊(v.minC i - gmin i) / v.size⌋
    let startW : Cell d := fun i => ⌊(w.minC i - gmin i) / v.size⌋
    match paste newShape startV v.mat, paste newShape startW w.mat with
    | .ok a, .ok b => .ok (Vox.crop ⟨mkMat newShape fun c => f (a.val c) (b.val c), gmin, v.size⟩)
    | _, _ => .error .valueError

/-- discrete_representation.py:1365-1375 `union`. -/
def Vox.union (v w : Vox d K) := Vox.logical (fun a b => a || b) v w

/-- discrete_representation.py:1377-1387 `difference`. -/
def Vox.difference (v w : Vox d K) := Vox.logical (fun a b => a && !b) v w

/-- discrete_representation.py:1389-1399 `intersection`. -/
def Vox.intersection (v w : Vox d K) := Vox.logical (fun a b => a && b) v w

/-- discrete_representation.py:1401-1411 `symmetric_difference`. -/
def Vox.symmetricDifference (v w : Vox d K) := Vox.logical (fun a b => xor a b) v w

/-- discrete_representation.py:1454-1464 `_fill_enclosed_elements` (3854-3864 in two dimensions). -/
def Vox.fillEnclosed (dirs : List (Cell d)) (fuel : ℕ) (v : Vox d K) : Option (Except VoxError (Vox d K)) :=
  (Vox.fillOuter dirs fuel v).map fun r => match r with
    | .ok o => Vox.union v o.inverse
    | .error e => .error e

/-- discrete_representation.py:1273-1287 `__eq__` (`np.array_equal` compares shapes and contents). -/
def Vox.Eq (v w : Vox d K) : Prop :=
  v.size = w.size ∧ v.minC = w.minC ∧ v.mat.shape = w.mat.shape ∧ ∀ c, v.mat.val c = w.mat.val c

/-- discrete_representation.py:337-346 `is_hollow`: the value returned, as a proposition; `none` if an exception is
raised or there is not enough fuel. -/
def Vox.isHollow (dirs : List (Cell d)) (fuel : ℕ) (v : Vox d K) : Option Prop :=
  match Vox.fillEnclosed dirs fuel v with
  | some (.ok w) => some (w.Eq v)
  | _ => none

/-- discrete_representation.py:735-753 `PointBasedVoxelization`: the set of the centres and the size. -/
structure PointVox (d : ℕ) (K : Type) where
  centres : Finset (Fin d → K)
  size : K

/-- discrete_representation.py:787-804 `min_grid_center`, for a voxelization with voxels. -/
def PointVox.minC (v : PointVox d K) (h : v.centres.Nonempty) (i : Fin d) : K := v.centres.inf' h fun p => p i

/-- discrete_representation.py:806-823 `max_grid_center`, for a voxelization with voxels. -/
def PointVox.maxC (v : PointVox d K) (h : v.centres.Nonempty) (i : Fin d) : K := v.centres.sup' h fun p => p i

/-- discrete_representation.py:1050-1069 `to_matrix_based_voxelization` (3571-3589 in two dimensions), for a voxelization
with voxels.  `round` of Python and numpy rounds halves to even, `round` here rounds halves up: this differs only for
centres that are not on a grid.  `matrix[indices] = True` raises an `IndexError` if an index is not in the matrix. -/
def PointVox.toMatrix (v : PointVox d K) (h : v.centres.Nonempty) : Except VoxError (Vox d K) :=
  let shape : Fin d → ℕ := fun i => (round ((v.maxC h i - v.minC h i) / v.size + 1)).toNat
  let index : (Fin d → K) → Cell d := fun p i => round ((p i - v.minC h i) / v.size)
  if ∀ p ∈ v.centres, Inside shape (index p) then
    .ok ⟨mkMat shape fun c => decide (∃ p ∈ v.centres, index p = c), v.minC h, v.size⟩
  else .error .indexError

/-- discrete_representation.py:1499-1506 `to_point_based_voxelization`, 845-867 `from_matrix_based_voxelization`. -/
def Vox.toPoint (v : Vox d K) : PointVox d K :=
  ⟨(trueCells v.mat).image fun c => fun i => v.minC i + c i * v.size, v.size⟩

/-- discrete_representation.py:459-470 `bounding_box` and 3125-3136 `bounding_rectangle`: the lower and the upper corner,
from the extreme centres. -/
def boundingBox (minC maxC : Fin d → K) (size : K) : (Fin d → K) × (Fin d → K) := (fun i => minC i - size, fun i => maxC i + size)

/-- discrete_representation.py:1124-1143 `_point_to_local_grid_index` (3591-3609 in two dimensions).  The test that the
point is in the bounding box is `BoundingBox.point_belongs`, without its tolerance. -/
def PointVox.localIndex (v : PointVox d K) (h : v.centres.Nonempty) (p : Fin d → K) : Except VoxError (Cell d) :=
  let b := boundingBox (v.minC h) (v.maxC h) v.size
  if ∀ i, b.1 i ≤ p i ∧ p i ≤ b.2 i then .ok fun i => ⌊(p i - b.1 i) / v.size⌋ else .error .valueError

/-- discrete_representation.py:942-958 `flood_fill` of a point based voxelization (3504-3520 in two dimensions). -/
def PointVox.floodFill (dirs : List (Cell d)) (fuel : ℕ) (v : PointVox d K) (h : v.centres.Nonempty) (start : Fin d → K) (fill : Bool) :
    Option (Except VoxError (PointVox d K)) :=
  match v.localIndex h start with
  | .error e => some (.error e)
  | .ok c =>
    match v.toMatrix h with
    | .error e => some (.error e)
    | .ok m => (Vox.floodFill dirs fuel m c fill).map fun r => r.map Vox.toPoint

/-- discrete_representation.py:1176-1204 `_voxels_intersecting_voxels`. -/
def gridCentre (size : K) (p : Fin d → K) : Fin d → K := fun i => ((⌊p i / size⌋ : K) + 1 / 2) * size

/-- discrete_representation.py:1002-1017 `translation` of a point based voxelization. -/
def PointVox.translation (v : PointVox d K) (offset : Fin d → K) : PointVox d K :=
  ⟨v.centres.image fun p => gridCentre v.size fun i => p i + offset i, v.size⟩

/-- discrete_representation.py:318-335 `check_center_is_in_implicit_grid`, for one centre. -/
def inImplicitGrid (size : K) (p : Fin d → K) : Prop := ∀ i, ∃ k : ℤ, (p i - 1 / 2 * size) / size = k

end Volmdlr.Voxel
