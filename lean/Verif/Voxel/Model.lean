import Mathlib.Algebra.Order.Floor.Ring
import Mathlib.Algebra.Order.Field.Basic
import Mathlib.Data.Fintype.Pi
import Mathlib.Order.Interval.Finset.Basic
import Mathlib.Data.Int.Interval
import Mathlib.Data.Set.Finite.Basic
import Mathlib.Data.Fin.VecNotation

/-!
# Model of the matrix based and point based voxelizations and pixelizations

The code for two dimensions (pixels) and three dimensions (voxels) is the same up to the number of axes, so the model
has a dimension `d`.  A cell is a vector of indices.  Numbers are exact; the rounding to 9 decimals, which is there to
hide floating point errors, is the identity on them.
-/

namespace Volmdlr.Voxel

/-- Indices of a cell. -/
abbrev Cell (d : ℕ) := Fin d → ℤ

/-- The cell is in a matrix of the given shape. -/
def Inside {d : ℕ} (shape : Fin d → ℕ) (c : Cell d) : Prop := ∀ i, 0 ≤ c i ∧ c i < shape i

instance {d : ℕ} (shape : Fin d → ℕ) (c : Cell d) : Decidable (Inside shape c) :=
  inferInstanceAs (Decidable (∀ i, 0 ≤ c i ∧ c i < shape i))

/-- A Boolean numpy array: shape and content; outside of the shape the content is `false`. -/
@[ext] structure Mat (d : ℕ) where
  shape : Fin d → ℕ
  val : Cell d → Bool
  supp : ∀ c, val c = true → Inside shape c

/-- The array of the given shape with the values of a function. -/
def mkMat {d : ℕ} (shape : Fin d → ℕ) (f : Cell d → Bool) : Mat d :=
  ⟨shape, fun c => decide (Inside shape c) && f c, fun c h => by simp at h; exact h.1⟩

/-- discrete_representation_compiled.py:783-784 (`dx`, `dy`). -/
def dirs2 : List (Cell 2) := [![0, -1], ![0, 1], ![-1, 0], ![1, 0]]

/-- discrete_representation_compiled.py:825-827 (`dx`, `dy`, `dz`). -/
def dirs3 : List (Cell 3) := [![0, -1, 0], ![0, 1, 0], ![-1, 0, 0], ![1, 0, 0], ![0, 0, -1], ![0, 0, 1]]

/-- `matrix[x, y, z] = value`. -/
def setCell {d : ℕ} (val : Cell d → Bool) (c : Cell d) (b : Bool) : Cell d → Bool := fun x => if x = c then b else val x

/-- discrete_representation_compiled.py:798-805 and 842-854: the `while` loop of `_flood_fill_matrix_2d` and
`_flood_fill_matrix_3d`; the head of the list is the top of the stack.  `none` when the fuel is used up. -/
def floodLoop {d : ℕ} (dirs : List (Cell d)) (shape : Fin d → ℕ) (old fill : Bool) :
    ℕ → List (Cell d) → (Cell d → Bool) → Option (Cell d → Bool)
  | 0, _, _ => none
  | _ + 1, [], val => some val
  | fuel + 1, c :: stack, val =>
    let val' := setCell val c fill
    floodLoop dirs shape old fill fuel
      (dirs.foldl (fun st v => if Inside shape (c + v) ∧ val' (c + v) = old then (c + v) :: st else st) stack) val'

/-- discrete_representation_compiled.py:76-129 `flood_fill_matrix_2d`, `flood_fill_matrix_3d` and 789-795 / 835-840;
`some (error ())` is the `IndexError`. -/
def floodFill {d : ℕ} (dirs : List (Cell d)) (fuel : ℕ) (m : Mat d) (start : Cell d) (fill : Bool) : Option (Except Unit (Mat d)) :=
  if ¬ Inside m.shape start then some (.error ())
  else
    let old := m.val start
    if old = fill then some (.ok m)
    else (floodLoop dirs m.shape old fill fuel [start] m.val).map fun v => .ok (mkMat m.shape v)

/-- discrete_representation.py:1570-1574 (3915-3919 in two dimensions), the matrix part of `_expand`: a border of `False`. -/
def expandMat {d : ℕ} (m : Mat d) : Mat d := mkMat (fun i => m.shape i + 2) fun c => m.val fun i => c i - 1

/-- discrete_representation.py:1589-1591 (3934-3936 in two dimensions), the matrix part of `_reduce`: the border is removed. -/
def reduceMat {d : ℕ} (m : Mat d) : Mat d := mkMat (fun i => m.shape i - 2) fun c => m.val fun i => c i + 1

/-- discrete_representation.py:1413-1421 `inverse`; 3813-3821 in two dimensions. -/
def inverseMat {d : ℕ} (m : Mat d) : Mat d := mkMat m.shape fun c => !m.val c

/-- discrete_representation.py:1439-1452 `_fill_outer_elements`; 3839-3852 in two dimensions. -/
def fillOuterMat {d : ℕ} (dirs : List (Cell d)) (fuel : ℕ) (m : Mat d) : Option (Except Unit (Mat d)) :=
  (floodFill dirs fuel (expandMat m) (fun _ => 0) true).map fun r => r.map reduceMat

end Volmdlr.Voxel
