import Verif.Arc.Model
import Verif.BBox.Model

/-!
# Model of the bounding box of an arc of space (`edges.py`)
-/

namespace Volmdlr.Arc

/-- edges.py:2757-2763 `ArcMixin.discretization_points`: the number of points for an angle resolution (not zero). -/
noncomputable def numberPoints (angle resolution : ℝ) : ℕ := max (⌈angle * resolution⌉₊ + 1) 2

/-- edges.py:2765-2767 `ArcMixin.discretization_points` with the number of points given (`n ≠ 1`), `Arc3D`. -/
noncomputable def Arc3.discretizationPoints (a : Arc3) (n : ℕ) : Except PyErr (List (V3 ℝ)) :=
  (List.range n).mapM fun i : ℕ => a.pointAtAbscissa (i * (a.length / (n - 1)))

/-- edges.py:5611-5626 `Arc3D.get_bounding_box`: the extreme coordinates of the points of a discretisation with the angle resolution 5. -/
noncomputable def Arc3.getBoundingBox (a : Arc3) : Except PyErr (Box3 ℝ) := do
  let points ← a.discretizationPoints (numberPoints a.angle 5)
  Box3.fromPoints points

end Volmdlr.Arc
