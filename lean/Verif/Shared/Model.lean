import Verif.Segment.Model
import Verif.Intersect.Model

/-!
# Sections shared by two line segments (edges.py)

Model of `LineSegment.get_shared_section` and `delete_shared_section` for two `LineSegment3D`.  `none` of the distance to a segment (its
ends are equal: the constructor refuses that) is a division by zero.
-/

namespace Volmdlr.Shared

open Volmdlr.Angle Volmdlr.Intersect

open Classical in
/-- edges.py:772-788 `LineSegment.point_belongs` (4413-4422 for the distance). -/
noncomputable def belongs (e : Seg3) (p : V3 ℝ) (tol : ℝ) : Except PyErr Bool :=
  match linesegment3dPointDistance e.start e.stop p with
  | none => .error .zeroDivision
  | some d => .ok (decide (mathIsClose d.1 0 tol))

/-- `all(edge.point_belongs(point, abs_tol) for point in points)` (edges.py:545, 559, 562): stops at the first `False`. -/
noncomputable def allBelong (e : Seg3) (tol : ℝ) : List (V3 ℝ) → Except PyErr Bool
  | [] => .ok true
  | p :: ps => (belongs e p tol).bind fun b => if b then allBelong e tol ps else .ok false

/-- `any(edge.point_belongs(point, abs_tol) for point in points)` (edges.py:754-756): stops at the first `True`. -/
noncomputable def anyBelong (e : Seg3) (tol : ℝ) : List (V3 ℝ) → Except PyErr Bool
  | [] => .ok false
  | p :: ps => (belongs e p tol).bind fun b => if b then .ok true else anyBelong e tol ps

/-- edges.py:538-549 `_get_shared_section_from_split`: the first piece whose start, middle and end belong to the other edge. -/
noncomputable def fromSplit (other : Seg3) (tol : ℝ) : List (Option Seg3) → Except PyErr (List Seg3)
  | [] => .ok []
  | none :: es => fromSplit other tol es
  | some e :: es => (allBelong other tol [e.start, e.middlePoint, e.stop]).bind fun b => if b then .ok [e] else fromSplit other tol es

/-- edges.py:551-571 `generic_get_shared_section`. -/
noncomputable def genericShared (self other : Seg3) (tol : ℝ) : Except PyErr (List Seg3) :=
  (allBelong self tol [other.start, other.middlePoint, other.stop]).bind fun b1 =>
    if b1 then .ok [other]
    else match self.pointAtAbscissa (self.length * (1 / 2)) with
      | none => .error .zeroDivision
      | some mid => (allBelong other tol [self.start, mid, self.stop]).bind fun b2 =>
        if b2 then .ok [self]
        else (belongs self other.start tol).bind fun b3 =>
          if b3 then (self.split other.start tol).bind fun es => fromSplit other tol [es.1, es.2]
          else (belongs self other.stop tol).bind fun b4 =>
            if b4 then (self.split other.stop tol).bind fun es => fromSplit other tol [es.1, es.2]
            else .error .notImplemented

/-- edges.py:741-758 `LineSegment.get_shared_section`, for two segments of the same class. -/
noncomputable def getShared (self other : Seg3) (tol : ℝ) : Except PyErr (List Seg3) :=
  if isColinear (self.stop - self.start) (other.stop - other.start) (1 / 10 ^ 5) = false then .ok []
  else (anyBelong self tol [other.start, other.stop]).bind fun b1 =>
    if b1 then genericShared self other tol
    else (anyBelong other tol [self.start, self.stop]).bind fun b2 =>
      if b2 then genericShared self other tol else .ok []

/-- edges.py:588-591: the pieces that do not contain a point. -/
noncomputable def without (mid : V3 ℝ) (tol : ℝ) : List (Option Seg3) → Except PyErr (List Seg3)
  | [] => .ok []
  | none :: es => without mid tol es
  | some e :: es => (belongs e mid tol).bind fun b => (without mid tol es).map fun l => if b then l else e :: l

/-- edges.py:573-592 `delete_shared_section`; `shared_section == self` (584) compares a list with an edge and is false; `split` (586-587)
is called with its default tolerance. -/
noncomputable def deleteShared (self other : Seg3) (tol : ℝ) : Except PyErr (List Seg3) :=
  (getShared self other tol).bind fun shared => match shared with
    | [] => .ok [self]
    | x :: _ =>
      (self.split x.start (1 / 10 ^ 6)).bind fun s1 =>
        (self.split x.stop (1 / 10 ^ 6)).bind fun s2 =>
          without x.middlePoint tol [s1.1, s1.2, s2.1, s2.2]

end Volmdlr.Shared
