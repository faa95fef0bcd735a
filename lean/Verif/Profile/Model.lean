import Verif.Arc.Model
import Verif.Hull.Model
import Verif.Polygon.Model

/-!
# Model of contours with arcs, of the surfaces they bound and of the profiles made from them

`wires.py` (`Contour2D`), `edges.py` (`LineSegment2D`, `Arc2D`), `curves.py` (`Circle2D`), `surfaces.py` (`Surface2D`), `geometry.py` (`huygens2d`),
`primitives3d.py` (`ExtrudedProfile`, `RevolvedProfile`).

A contour is the list of its primitives, here line segments and arcs of circle (the branch `verify_classes` of `Contour2D.area`).  The caches (`_area`,
`_edge_polygon`, `_middle_point`) hold values that never change.
-/

namespace Volmdlr.Profile

open Real Volmdlr.Angle Volmdlr.Arc

/-- The primitives of a contour. -/
inductive Edge where
  | seg (a b : V2 ℝ)
  | arc (a : Arc2)

/-- `start` of a primitive. -/
def Edge.start : Edge → V2 ℝ
  | .seg a _ => a
  | .arc a => a.start

/-- `end` of a primitive. -/
def Edge.fin : Edge → V2 ℝ
  | .seg _ b => b
  | .arc a => a.fin

open Classical in
/-- wires.py:2049-2055: one turn of the loop of `_get_edge_polygon`. -/
noncomputable def addStart (points : List (V2 ℝ)) (e : Edge) : List (V2 ℝ) :=
  match points.getLast? with
  | none => points ++ [e.start]
  | some p => if isClose2 e.start p (1 / 10 ^ 6) then points else points ++ [e.start]

/-- wires.py:2047-2057 `_get_edge_polygon`: the points of the polygon. -/
noncomputable def edgePolygon (contour : List Edge) : List (V2 ℝ) := contour.foldl addStart []

/-- wires.py:2118-2121, 2147-2150: `trigo`; `none`: `is_trigo` raises. -/
noncomputable def orientation (contour : List Edge) : Option ℝ :=
  (Hull.isTrigo (edgePolygon contour)).map fun b : Bool => if b then (1 : ℝ) else -1

/-! ## Area -/

/-- edges.py:2294-2300 and 3104-3120 `straight_line_area`. -/
noncomputable def Edge.straightLineArea : Edge → ℝ
  | .seg _ _ => 0
  | .arc a => a.straightLineArea

/-- wires.py:2111-2125 `Contour2D.area`, line segments and arcs. -/
noncomputable def contourArea (contour : List Edge) : Except PyErr ℝ :=
  match orientation contour with
  | none => .error .zeroDivision
  | some trigo => .ok |contour.foldl (fun (area : ℝ) (e : Edge) => area + trigo * e.straightLineArea) (polygonArea (edgePolygon contour))|

/-! ## Centre of mass -/

/-- edges.py:3072-3078 `Arc2D.area`: the sector. -/
noncomputable def sectorArea (a : Arc2) : ℝ := a.circle.radius ^ 2 * a.angle / 2

/-- `Vector2D.unit_vector`, with its exception. -/
noncomputable def unitOf (v : V2 ℝ) : Except PyErr (V2 ℝ) :=
  match V2.unitVector v with
  | none => .error .zeroDivision
  | some u => .ok u

/-- edges.py:121-130 `middle_point`. -/
noncomputable def arcMiddle (a : Arc2) : V2 ℝ := a.pointAtAbscissa (a.length / 2)

/-- edges.py:3080-3089 `Arc2D.center_of_mass`: the sector; `u` is the unit vector of the line 3086. -/
noncomputable def sectorCentre (a : Arc2) (u : V2 ℝ) : V2 ℝ :=
  a.circle.frame.origin + V2.smul (4 / (3 * a.angle) * a.circle.radius * sin (a.angle * (1 / 2))) u

/-- edges.py:3185-3210: the last part, once `point`, the intersection of the bisector and of the chord, is known. -/
noncomputable def segmentCentre (a : Arc2) (w u point : V2 ℝ) : V2 ℝ :=
  let half := V2.pointDistance point a.start
  let height := V2.pointDistance point a.circle.frame.origin
  let triangleArea := height * half
  let triangleCog := a.circle.frame.origin + V2.smul (2 / 3 * height) u
  if a.angle < π then
    V2.smul (1 / |a.straightLineArea|) (V2.smul (sectorArea a) (sectorCentre a w) - V2.smul triangleArea triangleCog)
  else
    V2.smul (1 / |a.straightLineArea|) (V2.smul (sectorArea a) (sectorCentre a w) + V2.smul triangleArea triangleCog)

/-- edges.py:3185-3210 `Arc2D.straight_line_center_of_mass`; without an intersection, `None.point_distance` (an `AttributeError`, written `typeError`); the
area of the last division is not zero for an arc that was constructed (C57). -/
noncomputable def arcStraightCentre (a : Arc2) : Except PyErr (V2 ℝ) :=
  (unitOf (arcMiddle a - a.circle.frame.origin)).bind fun w =>
    if a.angle = π then .ok (sectorCentre a w)
    else
      let u := if a.angle ≥ π then -w else w
      match lineIntersection a.circle.frame.origin (a.circle.frame.origin + u) a.start a.fin with
      | none => .error .typeError
      | some r => .ok (segmentCentre a w u r.1)

/-- edges.py:2306-2308 and 3185-3210 `straight_line_center_of_mass`. -/
noncomputable def Edge.straightLineCentre : Edge → Except PyErr (V2 ℝ)
  | .seg a b => .ok (V2.smul (1 / 2) (a + b))
  | .arc a => arcStraightCentre a

/-- wires.py:2151-2154: the loop of `center_of_mass`. -/
noncomputable def centreTurns (trigo : ℝ) : V2 ℝ → List Edge → Except PyErr (V2 ℝ)
  | c, [] => .ok c
  | c, e :: l => e.straightLineCentre.bind fun g => centreTurns trigo (c + V2.smul (trigo * e.straightLineArea) g) l

/-- wires.py:2138-2156 `Contour2D.center_of_mass`. -/
noncomputable def contourCentre (contour : List Edge) : Except PyErr (V2 ℝ) :=
  (polygonCenterOfMass (edgePolygon contour)).bind fun g =>
    match orientation contour with
    | none => .error .zeroDivision
    | some trigo =>
      (centreTurns trigo (V2.smul (polygonArea (edgePolygon contour)) g) contour).bind fun c =>
        (contourArea contour).bind fun area => if area = 0 then .error .zeroDivision else .ok (V2.smul (1 / area) c)

/-! ## Second moments -/

/-- geometry.py:93-98 `huygens2d`. -/
noncomputable def huygens2d (m : ℝ × ℝ × ℝ) (area : ℝ) (p q : V2 ℝ) : ℝ × ℝ × ℝ :=
  (m.1 + area * (p.y - q.y) ^ 2, m.2.1 + area * (p.x - q.x) ^ 2, m.2.2 - area * (p.x - q.x) * (p.y - q.y))

/-- edges.py:3122-3137 and 3330-3346: the moments of the sector; an angle of the end lower than that of the start is not possible once the arc is made. -/
noncomputable def sectorMoments (a : Arc2) : ℝ × ℝ × ℝ :=
  let angle2 := if a.angleEnd < a.angleStart then a.angleEnd + 2 * π else a.angleEnd
  let angle1 := a.angleStart
  (a.circle.radius ^ 4 / 8 * (angle2 - angle1 + 1 / 2 * (sin (2 * angle1) - sin (2 * angle2))),
   a.circle.radius ^ 4 / 8 * (angle2 - angle1 + 1 / 2 * (sin (2 * angle2) - sin (2 * angle1))),
   a.circle.radius ^ 4 / 8 * (cos angle1 ^ 2 - cos angle2 ^ 2))

/-- edges.py:3176-3183 `_triangle_moment_inertia`, with edges.py:3141-3142: the sign. -/
noncomputable def triangleMoments (a : Arc2) : ℝ × ℝ × ℝ :=
  let i := a.start - a.circle.frame.origin
  let j := a.fin - a.circle.frame.origin
  let x2 := (i.y ^ 2 + i.y * j.y + j.y ^ 2) * (i.x * j.y - j.x * i.y) / 12
  let y2 := (i.x ^ 2 + i.x * j.x + j.x ^ 2) * (i.x * j.y - j.x * i.y) / 12
  let xy2 := (i.x * j.y + 2 * i.x * i.y + 2 * j.x * j.y + j.x * i.y) * (i.x * j.y - j.x * i.y) / 24
  if x2 < 0 then (-x2, -y2, -xy2) else (x2, y2, xy2)

open Classical in
/-- edges.py:3143-3160: the combination of the moments of the sector and of the triangle. -/
noncomputable def combineMoments (a : Arc2) (s t : ℝ × ℝ × ℝ) : ℝ × ℝ × ℝ :=
  if a.angle < π then
    if a.circle.IsTrigo then (s.1 - t.1, s.2.1 - t.2.1, s.2.2 - t.2.2) else (t.1 - s.1, t.2.1 - s.2.1, t.2.2 - s.2.2)
  else
    if a.circle.IsTrigo then (s.1 + t.1, s.2.1 + t.2.1, s.2.2 + t.2.2) else (-t.1 - s.1, -t.2.1 - s.2.1, -t.2.2 - s.2.2)

/-- edges.py:2302-2304 and 3122-3165 `straight_line_second_moment_area`. -/
noncomputable def Edge.straightLineMoments (point : V2 ℝ) : Edge → ℝ × ℝ × ℝ
  | .seg _ _ => (0, 0, 0)
  | .arc a => huygens2d (combineMoments a (sectorMoments a) (triangleMoments a)) a.straightLineArea a.circle.frame.origin point

/-- wires.py:2158-2174 `Contour2D.second_moment_area`. -/
noncomputable def contourMoments (contour : List Edge) (point : V2 ℝ) : Except PyErr (ℝ × ℝ × ℝ) :=
  match orientation contour with
  | none => .error .zeroDivision
  | some trigo => .ok (contour.foldl (fun (m : ℝ × ℝ × ℝ) (e : Edge) =>
      (m.1 + trigo * (e.straightLineMoments point).1, m.2.1 + trigo * (e.straightLineMoments point).2.1,
        m.2.2 + trigo * (e.straightLineMoments point).2.2)) (secondMomentArea (edgePolygon contour) point))

/-- curves.py:1260-1271 `Circle2D.area` and `second_moment_area`. -/
noncomputable def circleMoments (c : Circle2) (point : V2 ℝ) : ℝ × ℝ × ℝ :=
  huygens2d (π * c.radius ^ 4 / 4, π * c.radius ^ 4 / 4, 0) (π * c.radius ^ 2) c.frame.origin point

/-! ## Surfaces and profiles -/

/-- surfaces.py:100-107 `Surface2D.area` and primitives3d.py:555-559 `ExtrudedProfile.area`, from the areas of the contours. -/
noncomputable def surfaceArea (outer : ℝ) (inner : List ℝ) : ℝ := outer - inner.sum

/-- surfaces.py:122-132 `Surface2D.center_of_mass`, from the areas and centres of mass of the contours. -/
noncomputable def surfaceCentre (outer : ℝ × V2 ℝ) (inner : List (ℝ × V2 ℝ)) : V2 ℝ :=
  V2.smul (1 / surfaceArea outer.1 (inner.map Prod.fst))
    (inner.foldl (fun (c : V2 ℝ) (i : ℝ × V2 ℝ) => c - V2.smul i.1 i.2) (V2.smul outer.1 outer.2))

/-- primitives3d.py:492-502 and 561-563 `ExtrudedProfile.volume`, from the areas of the contours; a hole larger than the outline raises. -/
noncomputable def extrudedVolume (frame : Frame3 ℝ) (outer : ℝ) (inner : List ℝ) (length : ℝ) : Except PyErr ℝ :=
  if inner.any fun a : ℝ => decide (a > outer) then .error .valueError
  else .ok (surfaceArea outer inner * V3.dot (V3.smul length frame.basis.w) frame.basis.w)

/-- The area and the centre of mass of a contour. -/
noncomputable def areaAndCentre (contour : List Edge) : Except PyErr (ℝ × V2 ℝ) :=
  (contourArea contour).bind fun a : ℝ => (contourCentre contour).bind fun g : V2 ℝ => .ok (a, g)

/-- surfaces.py:100-107 `Surface2D.area`. -/
noncomputable def surface2dArea (outer : List Edge) (inner : List (List Edge)) : Except PyErr ℝ :=
  (contourArea outer).bind fun a : ℝ => (inner.mapM contourArea).bind fun as : List ℝ => .ok (surfaceArea a as)

/-- surfaces.py:122-132 `Surface2D.center_of_mass`. -/
noncomputable def surface2dCentre (outer : List Edge) (inner : List (List Edge)) : Except PyErr (V2 ℝ) :=
  (areaAndCentre outer).bind fun a : ℝ × V2 ℝ => (inner.mapM areaAndCentre).bind fun as : List (ℝ × V2 ℝ) =>
    if surfaceArea a.1 (as.map Prod.fst) = 0 then .error .zeroDivision else .ok (surfaceCentre a as)

/-- primitives3d.py:492-502 and 555-563 `ExtrudedProfile.volume`. -/
noncomputable def profileVolume (frame : Frame3 ℝ) (outer : List Edge) (inner : List (List Edge)) (length : ℝ) : Except PyErr ℝ :=
  (contourArea outer).bind fun a : ℝ => (inner.mapM contourArea).bind fun as : List ℝ => extrudedVolume frame a as length

end Volmdlr.Profile
