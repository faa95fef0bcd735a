import Verif.Surface.Model
import Verif.Polygon.Model

/-!
# Model of the extrusion of a line segment of space (`edges.py`)
-/

namespace Volmdlr.Surface


/-- A planar face without hole: the frame of its plane and the corners of its contour, in the coordinates of the frame. -/
structure CornerFace where
  frame : Frame3 ℝ
  corners : List (V2 ℝ)

/-- faces.py:2110-2121 `PlaneFace3D.from_surface_rectangular_cut`. -/
def planeRectangularCut (frame : Frame3 ℝ) (x1 x2 y1 y2 : ℝ) : CornerFace := ⟨frame, [⟨x1, y1⟩, ⟨x2, y1⟩, ⟨x2, y2⟩, ⟨x1, y2⟩]⟩

/-- edges.py:4681-4695 `LineSegment3D.extrusion`, of the segment from `start` to `fin`; `none` is `ZeroDivisionError`. -/
noncomputable def segmentExtrusion (start fin vector : V3 ℝ) : Option (List CornerFace) :=
  (V3.unitVector (fin - start)).bind fun u : V3 ℝ => (V3.unitVector vector).bind fun v : V3 ℝ =>
    some [planeRectangularCut ⟨start, ⟨u, v, V3.cross u v⟩⟩ 0 (V3.pointDistance start fin) 0 (V3.norm vector)]

/-- faces.py `Face3D.area` and surfaces.py:100-107, wires.py:2111-2150, for a contour of line segments: the area of the polygon of the corners. -/
noncomputable def CornerFace.area (f : CornerFace) : ℝ := polygonArea f.corners

end Volmdlr.Surface
