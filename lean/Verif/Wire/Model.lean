import Mathlib.Algebra.Order.Field.Basic
import Mathlib.Algebra.Order.Floor.Ring
import Mathlib.Algebra.BigOperators.Group.List.Basic
import Mathlib.Tactic.Linarith

/-!
# Model of wires and contours as lists of edges

Edges are abstract: the functions of the wires only use the methods of the edges listed in `EdgeKit`.
-/

namespace Volmdlr.Wire

/-- The methods of an edge used by wires.py, and of its points: edges.py `Edge.start`, `Edge.end`, `Edge.reverse`
(91-95), `Edge.length` (108), `Edge.point_at_abscissa` (114), `Edge.is_close`, and core_compiled.pyx `point_distance`.
The fields ending the structure are what every edge class provides: a reversed edge has its extremities exchanged and the same
length, lengths and distances are not negative and distances are symmetric. -/
structure EdgeKit (E P K : Type) [Field K] [LinearOrder K] where
  start : E → P
  fin : E → P
  reverse : E → E
  length : E → K
  pointAt : E → K → P
  edgeClose : E → E → K → Bool
  dist : P → P → K
  reverse_start : ∀ e, start (reverse e) = fin e
  reverse_fin : ∀ e, fin (reverse e) = start e
  reverse_length : ∀ e, length (reverse e) = length e
  length_nonneg : ∀ e, 0 ≤ length e
  dist_nonneg : ∀ p q, 0 ≤ dist p q
  dist_comm : ∀ p q, dist p q = dist q p

variable {E P K : Type} [Field K] [LinearOrder K] [IsStrictOrderedRing K] (k : EdgeKit E P K)

/-- `math.isclose(a, b, abs_tol=tol)`, with its default relative tolerance. -/
def mathIsClose (a b tol : K) : Bool := decide (|a - b| ≤ max (1 / 10 ^ 9 * max |a| |b|) tol)

/-- core_compiled.pyx:658-675, 1447-1464 `is_close`. -/
def isClose (p q : P) (tol : K) : Bool := mathIsClose (k.dist p q) 0 tol

/-- edges.py:461-473 `is_point_edge_extremity`. -/
def isExtremity (e : E) (p : P) (tol : K) : Bool := isClose k (k.start e) p tol || isClose k (k.fin e) p tol

/-- The exceptions. -/
inductive WireError
  | notImplemented
  | indexError
  | valueError
  | zeroDivision
  deriving DecidableEq

/-- wires.py:195-202 `WireMixin.length`.  The cache is not modelled. -/
def wireLength (prims : List E) : K := prims.foldl (fun length primitive => length + k.length primitive) 0

/-- wires.py:299-305 `WireMixin.is_ordered`. -/
def wireIsOrdered (tol : K) : List E → Bool
  | a :: b :: l => if k.dist (k.fin a) (k.start b) > tol then false else wireIsOrdered tol (b :: l)
  | _ => true

/-- wires.py:320-334, one pass of the `for` loop over `primitives`: the remaining primitives still to try, the list
`new_primitives`; gives the primitive to be removed and the new list. -/
def orderStep (tol : K) : List E → List E → Option (E × List E)
  | [], _ => none
  | e :: es, new =>
    match new.head?, new.getLast? with
    | some first, some last =>
      if isExtremity k e (k.fin last) tol then
        if isClose k (k.fin last) (k.start e) tol then some (e, new ++ [e]) else some (e, new ++ [k.reverse e])
      else if isExtremity k e (k.start first) tol then
        if isClose k (k.start first) (k.fin e) tol then some (e, e :: new) else some (e, k.reverse e :: new)
      else orderStep tol es new
    | _, _ => none

/-- wires.py:317-342, the `while True` loop; it runs at most once per primitive, which is the fuel. -/
def orderLoop [DecidableEq E] (tol : K) : ℕ → List E → List E → Except WireError (List E)
  | _, [], new => .ok new
  | 0, _, _ => .error .notImplemented
  | n + 1, prims, new =>
    match orderStep k tol prims new with
    | none => .error .notImplemented
    | some (e, new') => orderLoop tol n (prims.erase e) new'

/-- wires.py:314, the primitives which are not degenerate. -/
def notDegenerate (tol : K) (prims : List E) : List E := prims.filter fun e => !mathIsClose (k.length e) 0 tol

/-- wires.py:307-342 `WireMixin.ordering_primitives`.  `list.remove` compares with `==`, which is `List.erase`. -/
def orderingPrimitives [DecidableEq E] (tol : K) (prims : List E) : Except WireError (List E) :=
  match notDegenerate k tol prims with
  | [] => .error .indexError
  | e :: es => orderLoop k tol es.length es [e]

/-- wires.py:344-349 `WireMixin.order_wire`. -/
def orderWire [DecidableEq E] (tol : K) (prims : List E) : Except WireError (List E) :=
  if wireIsOrdered k tol prims then .ok prims else orderingPrimitives k tol prims

/-- wires.py:1506-1520 `ContourMixin.is_ordered`.  `sameEdge` is `direction_independent_is_close` (edges.py:97-106) with its
default tolerance. -/
def contourIsOrdered (sameEdge : E → E → Bool) (tol : K) (prims : List E) : Except WireError Bool :=
  match prims with
  | [] => .error .indexError
  | first :: _ =>
    if prims.length = 1 ∧ k.length first ≤ tol then .ok false
    else if prims.length = 2 ∧ (∃ second ∈ prims[1]?, sameEdge first second = true) then .ok false
    else .ok ((prims.zip (prims.tail ++ [first])).all fun ab => isClose k (k.fin ab.1) (k.start ab.2) tol)

/-- wires.py:1522-1532 `ContourMixin.order_contour`. -/
def orderContour [DecidableEq E] (sameEdge : E → E → Bool) (tol : K) (prims : List E) : Except WireError (List E) :=
  match contourIsOrdered k sameEdge tol prims with
  | .error e => .error e
  | .ok b => if b = true ∨ prims.length < 2 then .ok prims else orderingPrimitives k tol prims

/-- wires.py:374-377 `inverted_primitives`, 379-381 `invert`. -/
def invert (prims : List E) : List E := prims.reverse.map k.reverse

/-- wires.py:218-230 `WireMixin.point_at_abscissa`: the loop, with the length already travelled. -/
def pointAtLoop (s : K) : K → List E → K ⊕ P
  | acc, [] => .inl acc
  | acc, e :: es => if acc + k.length e > s then .inr (k.pointAt e (s - acc)) else pointAtLoop s (acc + k.length e) es

/-- wires.py:218-230 `WireMixin.point_at_abscissa`. -/
def pointAtAbscissa (prims : List E) (s : K) : Except WireError P :=
  match pointAtLoop k s 0 prims with
  | .inr p => .ok p
  | .inl length =>
    if mathIsClose s length (1 / 10 ^ 6) then
      match prims.getLast? with
      | some e => .ok (k.fin e)
      | none => .error .indexError
    else .error .valueError

/-- wires.py:204-216 `WireMixin.discretization_points` for the number of intervals `n` (`number_points - 1`, or computed from
`angle_resolution`). -/
def discretizationPoints (prims : List E) (n : ℕ) : Except WireError (List P) :=
  if n = 0 then .error .zeroDivision
  else (List.range (n + 1)).mapM fun i : ℕ => pointAtAbscissa k prims ((i : K) / n * wireLength k prims)

/-- wires.py:212-213, the number of intervals given by `angle_resolution`. -/
def intervalsFromResolution [FloorRing K] (prims : List E) (resolution : K) : ℕ :=
  (⌊wireLength k prims / resolution⌋ + 1).toNat

/-- wires.py:279-293 `WireMixin.abscissa`: `belongs` is the membership test of the edges, `abscissa` their method. -/
def wireAbscissa (belongs : E → P → Bool) (abscissa : E → P → K) (prims : List E) (p : P) : Except WireError K :=
  if prims.any fun e => belongs e p then
    let rec loop (acc : K) : List E → K
      | [] => acc
      | e :: es => if belongs e p then acc + abscissa e p else loop (acc + k.length e) es
    .ok (loop 0 prims)
  else .error .valueError

/-- `distances.index(min(distances))`. -/
def argmin : List K → ℕ
  | [] => 0
  | [_] => 0
  | a :: b :: l => if ∀ x ∈ b :: l, a ≤ x then 0 else argmin (b :: l) + 1

/-- wires.py:138-176, the loop connecting the next edges: the last edge and the list built. -/
def connectNext (sameEdge : E → E → Bool) : List E → E → List E → Option (List E)
  | [], _, new => some new
  | e :: es, last, new =>
    if sameEdge e last then connectNext sameEdge es last new
    else
      let d0 := k.dist (k.start e) (k.fin last)
      let d1 := k.dist (k.fin e) (k.fin last)
      if min d0 d1 > 1 / 10 ^ 3 then none
      else
        let last' := if argmin [d0, d1] = 0 then e else k.reverse e
        connectNext sameEdge es last' (new ++ [last'])

/-- wires.py:86-89, the first test. -/
def isReversedChain (raw : List E) : Bool :=
  ((raw.reverse.tail).zip raw.reverse).all fun ab => decide (k.dist (k.start ab.1) (k.fin ab.2) < 1 / 10 ^ 6)

/-- wires.py:83-176 `reorder_contour3d_edges_from_step`; `.ok none` is a returned `None` (after a warning, not modelled). -/
def reorderFromStep (sameEdge : E → E → Bool) (raw : List E) : Except WireError (Option (List E)) :=
  if isReversedChain k raw then .ok (some raw.reverse)
  else
    match raw with
    | a :: b :: rest =>
      let ds := [k.dist (k.fin a) (k.start b), k.dist (k.start a) (k.start b), k.dist (k.fin a) (k.fin b), k.dist (k.start a) (k.fin b)]
      if ∀ d ∈ ds, d > 1 / 10 ^ 3 then .ok none
      else
        let i := argmin ds
        let a' := if i = 0 ∨ i = 2 then a else k.reverse a
        let b' := if i = 0 ∨ i = 1 then b else k.reverse b
        .ok (connectNext k sameEdge rest b' [a', b'])
    | _ => .error .indexError

end Volmdlr.Wire
