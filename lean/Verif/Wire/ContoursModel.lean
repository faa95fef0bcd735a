import Verif.Wire.SplitModel

/-!
# Model of the construction of contours from loose edges (wires.py:1534-1605)
-/

namespace Volmdlr.Wire

variable {E P K : Type} [Field K] [LinearOrder K] [IsStrictOrderedRing K] (k : EdgeKit E P K)

/-- wires.py:1548-1570, the `for` loop: the edges to try, the first and the last edge of the contour being built.  Gives the edges left
(`list_edges.pop(i)`), the edge found, turned in the direction of the contour, and whether it goes to the front.  `sameEdge` is
`direction_independent_is_close` (edges.py:97-106) with its default tolerance. -/
def contourStep (sameEdge : E → E → Bool) (tol : K) (first last : E) : List E → Option (List E × E × Bool)
  | [] => none
  | e :: es =>
    if isExtremity k e (k.fin last) tol && !sameEdge e last then
      some (es, if isClose k (k.fin last) (k.start e) tol then e else k.reverse e, false)
    else if isExtremity k e (k.start first) tol && !sameEdge e first then
      some (es, if isClose k (k.start first) (k.fin e) tol then e else k.reverse e, true)
    else (contourStep sameEdge tol first last es).map fun (r : List E × E × Bool) => (e :: r.1, r.2)

/-- core.py:96-106 `get_point_index_in_list`. -/
def pointIndex (p : P) (points : List P) : Option ℕ := points.findIdx? fun q => decide (k.dist q p ≤ 1 / 10 ^ 6)

/-- wires.py:1547-1597, the `while True` loop, with the edges left, the points and the primitives of the contour being built and the contours
found.  Every turn takes an edge of the list or ends the loop: the fuel is the number of edges plus one.  An `IndexError` is raised by
`contour_primitives[-1]` when the contour being built is empty. -/
def contourLoop [DecidableEq P] (sameEdge : E → E → Bool) (tol : K) : ℕ → List E → List P → List E → List (List E) →
    Except WireError (List (List E))
  | 0, _, _, _, _ => .error .notImplemented
  | n + 1, edges, points, prims, found =>
    match prims.head?, prims.getLast? with
    | some first, some last =>
      match contourStep k sameEdge tol first last edges with
      | none =>
        match edges with
        | [] => .ok (found ++ [prims])
        | e :: es => contourLoop sameEdge tol n es [k.start e, k.fin e] [e] (found ++ [prims])
      | some (rest, e', front) =>
        let prims' := if front then e' :: prims else prims ++ [e']
        let point := if front then k.start e' else k.fin e'
        let points' := if front then point :: points else points ++ [point]
        if inList k point points then
          match points.head?, pointIndex k point points with
          | some p0, some i =>
            if isClose k point p0 (1 / 10 ^ 6) then
              match rest with
              | [] => .ok (found ++ [prims'])
              | e :: es => contourLoop sameEdge tol n es [k.start e, k.fin e] [e] (found ++ [prims'])
            else if points'.head? = some point then
              contourLoop sameEdge tol n rest (points'.drop (i + 1)) (prims'.drop (i + 1)) (found ++ [prims'.take (i + 1)])
            else
              contourLoop sameEdge tol n rest (points'.take (i + 1)) (prims'.take i) (found ++ [prims'.drop i])
          | _, _ => .error .indexError
        else contourLoop sameEdge tol n rest points' prims' found
    | _, _ => if edges.isEmpty then .ok (found ++ [prims]) else .error .indexError

/-- wires.py:1598-1605, the contours which do not superpose one already kept. -/
def keepDifferent (superposing : List E → List E → Bool) : List (List E) → List (List E) → List (List E)
  | kept, [] => kept
  | kept, c :: cs => if kept.any (fun c2 => superposing c c2) then keepDifferent superposing kept cs
    else keepDifferent superposing (kept ++ [c]) cs

/-- wires.py:1534-1605 `ContourMixin.contours_from_edges`, as the lists of the primitives of the contours. -/
def contoursFromEdges [DecidableEq P] (sameEdge : E → E → Bool) (superposing : List E → List E → Bool) (tol : K) (edges : List E) :
    Except WireError (List (List E)) :=
  match edges with
  | [] => .ok []
  | [e] => .ok [[e]]
  | e :: es =>
    match contourLoop k sameEdge tol (es.length + 1) es [k.start e, k.fin e] [e] [] with
    | .error err => .error err
    | .ok [] => .error .indexError
    | .ok (c :: cs) => .ok (keepDifferent superposing [c] cs)

end Volmdlr.Wire
