import Verif.Intersect.Model
import Verif.Frame.Model

/-!
# Model of the offset of a wire of line segments of the plane (`wires.py`, `edges.py`)
-/

namespace Volmdlr.Wire

open Volmdlr.Intersect

/-- A line segment of the plane, with its ends. -/
abbrev Side := V2 ℝ × V2 ℝ

/-- edges.py:2514-2520 `LineSegment2D.infinite_primitive` (206-215 `unit_normal_vector`, 661-669 `normal_vector`); `none` is `ZeroDivisionError`. -/
noncomputable def sideOffset (s : Side) (offset : ℝ) : Option Line2 :=
  (V2.unitVector (V2.normalVector (s.2 - s.1))).map fun m : V2 ℝ => ⟨s.1 + V2.smul offset (-m), s.2 + V2.smul offset (-m)⟩

/-- wires.py:818-873 `infinite_intersections`, when the offset curves are lines, and not none at all. -/
noncomputable def infiniteIntersections (lines : List Line2) : List (V2 ℝ) :=
  (lines.zip (lines.tail ++ lines.take 1)).flatMap fun lm : Line2 × Line2 => (lm.1.lineIntersections lm.2).take 1

open Classical in
/-- wires.py:875-896 `Wire2D.offset` and `Contour2D.offset`, with line segments only: the cut of a line between two points (curves.py:678-690) is a line segment between them,
refused when they are equal (edges.py:603-604); no curve or no intersection is an `IndexError`. -/
noncomputable def offsetSides (sides : List Side) (offset : ℝ) : Except PyErr (List Side) :=
  match sides.mapM fun s : Side => sideOffset s offset with
  | none => .error .zeroDivision
  | some lines =>
    match infiniteIntersections lines with
    | [] => .error .indexError
    | p :: ps => ((p :: ps).zip (ps ++ [p])).mapM fun ab : V2 ℝ × V2 ℝ => if ab.1 = ab.2 then .error .valueError else .ok ab

end Volmdlr.Wire
