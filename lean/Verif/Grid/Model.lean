import Verif.Vec.Model
import Mathlib.Algebra.Order.Field.Rat

/-!
# Model of `volmdlr/grid.py`
-/

namespace Volmdlr.Grid

variable {K : Type*} [Field K] [LinearOrder K]

/-- grid.py:29-35 `Grid2D`: rows of points and the two directions. -/
structure Grid (P : Type*) where
  rows : List (List P)
  direction : String × String

/-- grid.py:90 `[points[i:i + n] for i in range(0, len(points), n)]`, `fuel` bounds the number of slices; zero is the `ValueError`
of `range` with a zero step. -/
def slices {P : Type*} (n : ℕ) : ℕ → List P → List (List P)
  | 0, _ => []
  | fuel + 1, points => if points = [] then [] else points.take n :: slices n fuel (points.drop n)

/-- grid.py:74-92 `Grid2D.from_points`. -/
def fromPoints {P : Type*} (points : List P) (n : ℕ) (direction : String × String) : Option (Grid P) :=
  if n = 0 then none else some ⟨slices n points.length points, direction⟩

/-- `numpy.linspace(start, stop, num)`: `start + i * step`, the last one is `stop` (for two or more). -/
def npLinspace (start stop : K) (num : ℕ) : List K :=
  (List.range num).map fun i : ℕ => if i + 1 = num ∧ 1 < num then stop else start + i * ((stop - start) / ((num - 1 : ℕ) : K))

/-- grid.py:119-133: the table of directions; `none` is `KeyError`. -/
def directionTable (xmin xmax ymin ymax : K) (d : String × String) : Option (K × K × K × K) :=
  if d = ("+x", "+y") then some (xmin, xmax, ymin, ymax)
  else if d = ("-x", "+y") then some (xmax, xmin, ymin, ymax)
  else if d = ("+y", "+x") then some (xmin, xmax, ymin, ymax)
  else if d = ("-y", "+x") then some (xmin, xmax, ymax, ymin)
  else if d = ("+x", "-y") then some (xmin, xmax, ymax, ymin)
  else if d = ("-x", "-y") then some (xmax, xmin, ymax, ymin)
  else if d = ("+y", "-x") then some (xmax, xmin, ymin, ymax)
  else if d = ("-y", "-x") then some (xmax, xmin, ymax, ymin)
  else none

/-- grid.py:94-153 `Grid2D.from_properties`. -/
def fromProperties (xlim ylim : K × K) (nx ny : ℕ) (d : String × String := ("+x", "+y")) : Option (Grid (V2 K)) :=
  match directionTable xlim.1 xlim.2 ylim.1 ylim.2 d with
  | none => none
  | some (xmin, xmax, ymin, ymax) =>
    let x := npLinspace xmin xmax nx
    let y := npLinspace ymin ymax ny
    if d ∈ [("+x", "+y"), ("-x", "+y"), ("+x", "-y"), ("-x", "-y")] then
      some ⟨y.map fun yi => x.map fun xi => ⟨xi, yi⟩, d⟩
    else if d ∈ [("+y", "+x"), ("-y", "+x"), ("+y", "-x"), ("-y", "-x")] then
      some ⟨x.map fun xi => y.map fun yi => ⟨xi, yi⟩, d⟩
    else some ⟨[], d⟩

/-- grid.py:213-225 `Grid2D.points`. -/
def Grid.points {P : Type*} (g : Grid P) : List P := g.rows.foldl (fun l r => l ++ r) []

/-- grid.py:57-72 `find_direction_index`; `none` is the `ValueError`. -/
def Grid.findDirectionIndex {P : Type*} (g : Grid P) (axis : String) : Option ℕ :=
  if g.direction.1 = "+" ++ axis then some 0
  else if g.direction.2 = "+" ++ axis then some 1
  else if g.direction.1 = "-" ++ axis then some 0
  else if g.direction.2 = "-" ++ axis then some 1
  else none

/-- grid.py:227-245 `points_xy`; `none` is an exception. -/
def Grid.pointsXY {P : Type*} (g : Grid P) : Option (ℕ × ℕ) :=
  match g.findDirectionIndex "x", g.rows[0]? with
  | some index, some row => if index = 0 then some (row.length, g.rows.length) else some (g.rows.length, row.length)
  | _, _ => none

/-- grid.py:175-189 `limits_xy`; `none` is `IndexError`. -/
def Grid.limitsXY (g : Grid (V2 K)) : Option ((K × K) × (K × K)) :=
  match g.rows.head?.bind List.head?, g.rows.getLast?.bind List.getLast? with
  | some a, some b => some ((min a.x b.x, max a.x b.x), (min a.y b.y, max a.y b.y))
  | _, _ => none

/-- grid.py:167-171: one quadrilateral; `none` is `IndexError`. -/
def Grid.cell {P : Type*} (g : Grid P) (i j : ℕ) : Option (List P) :=
  match g.rows[i]? >>= (·[j]?), g.rows[i + 1]? >>= (·[j]?), g.rows[i + 1]? >>= (·[j + 1]?), g.rows[i]? >>= (·[j + 1]?) with
  | some a, some b, some c, some d => some [a, b, c, d]
  | _, _, _, _ => none

/-- grid.py:155-173 `grid_pattern`. -/
def Grid.gridPattern {P : Type*} (g : Grid P) : Option (List (List P)) :=
  match g.rows[0]? with
  | none => none
  | some row =>
    ((List.range (row.length - 1)).flatMap fun i => (List.range (g.rows.length - 1)).map fun j => (i, j)).mapM fun ij => g.cell ij.1 ij.2

/-- grid.py:37-55 `displacement_compared_to`; `none` is `IndexError`. -/
def displacement (self initial : Grid (V2 K)) : Option (List (V2 K)) :=
  (initial.points.zipIdx).mapM fun pi => (self.points[pi.2]?).map fun q => ⟨q.x - pi.1.x, q.y - pi.1.y⟩

end Volmdlr.Grid
