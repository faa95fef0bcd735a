import Verif.Arc.Model
import Verif.Segment.Model

/-!
# Model of derived arcs of the plane: complementary, offset and symmetric arcs (`edges.py`), and of the offset of a wire (`wires.py`)
-/

namespace Volmdlr.Arc

open Real

/-- edges.py:3413-3415 `Arc2D.complementary`. -/
noncomputable def Arc2.complementary (a : Arc2) : Except PyErr Arc2 := Arc2.make a.circle a.fin a.start

/-- edges.py:3408-3411: the arc of the circle with another radius, from and to the points in the directions `u` and `v`; zero is a division by zero in the constructor. -/
noncomputable def Arc2.withRadius (a : Arc2) (radius : ℝ) (u v : V2 ℝ) : Except PyErr Arc2 :=
  Arc2.make ⟨a.circle.frame, radius⟩ (a.circle.frame.origin + V2.smul radius u) (a.circle.frame.origin + V2.smul radius v)

open Classical in
/-- edges.py:3394-3411 `Arc2D.infinite_primitive`. -/
noncomputable def Arc2.infinitePrimitive (a : Arc2) (offset : ℝ) : Except PyErr (Option Arc2) :=
  match V2.unitVector (a.start - a.circle.frame.origin), V2.unitVector (a.fin - a.circle.frame.origin) with
  | some u, some v =>
    if a.circle.IsTrigo then (a.withRadius (a.circle.radius + offset) u v).map some
    else if a.circle.radius - offset < 0 then .ok none
    else (a.withRadius (a.circle.radius - offset) u v).map some
  | _, _ => .error .zeroDivision

/-- edges.py:3417-3422 `Arc2D.axial_symmetry`, by the line by `p1` and `p2`: the circle is kept. -/
noncomputable def Arc2.axialSymmetry (a : Arc2) (p1 p2 : V2 ℝ) : Except PyErr Arc2 :=
  match Volmdlr.axialSymmetry a.start p1 p2, Volmdlr.axialSymmetry a.fin p1 p2 with
  | some s, some e => Arc2.make a.circle s e
  | _, _ => .error .zeroDivision

end Volmdlr.Arc
