import Verif.Wire.Model

/-!
# Model of the construction of wires from loose edges (wires.py:518-574) and of the splitting of wires
-/

namespace Volmdlr.Wire

variable {E P K : Type} [Field K] [LinearOrder K] [IsStrictOrderedRing K] (k : EdgeKit E P K)

/-- wires.py:543-569, the `while to_continue` loop: the edges left in the caller's list and the wire being built; gives the wire
and the list left.  Its `for` loop has the same body as that of `ordering_primitives` (wires.py:320-334), `orderStep`.  The loop
stops when the `for` loop ran to its end without a `break` (then `index_primitive + 1` is the length of the list) or when the list
is empty; it runs at most once per edge, plus once, which is the fuel. -/
def growWire [DecidableEq E] (tol : K) : ℕ → List E → List E → List E × List E
  | 0, edges, wire => (wire, edges)
  | n + 1, edges, wire =>
    match orderStep k tol edges wire with
    | none => (wire, edges)
    | some (e, wire') => growWire tol n (edges.erase e) wire'

/-- wires.py:538-569, the `while list_edges` loop, with the fuel: one wire at least takes one edge.  Gives the wires and what is
left of the caller's list. -/
def wiresLoop [DecidableEq E] (tol : K) : ℕ → List E → List (List E) × List E
  | _, [] => ([], [])
  | 0, edges => ([], edges)
  | n + 1, e :: edges =>
    let grown := growWire k tol (edges.length + 1) edges [e]
    let rest := wiresLoop tol n grown.2
    (grown.1 :: rest.1, rest.2)

/-- wires.py:518-574 `WireMixin.wires_from_edges`: the wires, as the lists of their primitives, and what the list given by the
caller contains afterwards (the function removes its elements one by one). -/
def wiresFromEdges [DecidableEq E] (tol : K) (edges : List E) : List (List E) × List E :=
  match edges with
  | [] => ([], [])
  | [e] => ([[e]], [e])
  | _ => wiresLoop k tol edges.length edges

/-- wires.py:251-276, the body of the `for` loop of `split_with_two_points`: what one primitive adds to `primitives1` and to
`primitives2`.  `split` and `trim` are the methods of the edges (`None` is `none`). -/
def splitPrimitive (split : E → P → Option E × Option E) (trim : E → P → P → E) (s1 s2 : K) (p1 p2 : P) (current : K) (e : E) :
    Except WireError (List E × List E) :=
  if s1 < current ∧ current + k.length e < s2 then .ok ([e], [])
  else if current > s2 ∨ current + k.length e < s1 then .ok ([], [e])
  else if (current ≤ s1 ∧ s1 ≤ current + k.length e) ∧ (current ≤ s2 ∧ s2 ≤ current + k.length e) then
    .ok ([trim e p1 p2], (split e p1).1.toList ++ (split e p2).2.toList)
  else if current ≤ s1 ∧ s1 ≤ current + k.length e then .ok ((split e p1).2.toList, (split e p1).1.toList)
  else if current ≤ s2 ∧ s2 ≤ current + k.length e then .ok ((split e p2).1.toList, (split e p2).2.toList)
  else .error .notImplemented

/-- wires.py:248-277, the `for` loop of `split_with_two_points`. -/
def splitLoop (split : E → P → Option E × Option E) (trim : E → P → P → E) (s1 s2 : K) (p1 p2 : P) :
    K → List E → Except WireError (List E × List E)
  | _, [] => .ok ([], [])
  | current, e :: es =>
    match splitPrimitive k split trim s1 s2 p1 p2 current e with
    | .error err => .error err
    | .ok parts =>
      match splitLoop split trim s1 s2 p1 p2 (current + k.length e) es with
      | .error err => .error err
      | .ok rest => .ok (parts.1 ++ rest.1, parts.2 ++ rest.2)

/-- wires.py:232-277 `WireMixin.split_with_two_points`; `abscissa` is the method of the wire (`wireAbscissa`). -/
def splitWithTwoPoints (split : E → P → Option E × Option E) (trim : E → P → P → E) (abscissa : P → Except WireError K)
    (prims : List E) (p1 p2 : P) : Except WireError (List E × List E) :=
  match abscissa p1 with
  | .error err => .error err
  | .ok s1 =>
    match abscissa p2 with
    | .error err => .error err
    | .ok s2 =>
      if s1 > s2 then splitLoop k split trim s2 s1 p2 p1 0 prims else splitLoop k split trim s1 s2 p1 p2 0 prims

/-- wires.py:460-473 `extract_with_points`. -/
def extractWithPoints (split : E → P → Option E × Option E) (trim : E → P → P → E) (abscissa : P → Except WireError K)
    (prims : List E) (p1 p2 : P) (inside : Bool) : Except WireError (List E) :=
  match splitWithTwoPoints k split trim abscissa prims p1 p2 with
  | .error err => .error err
  | .ok parts => .ok (if inside then parts.1 else parts.2)

/-- core_compiled.pyx:1351-1353, 2162-2201 `in_list`: the comparison of the squares of a distance and of the tolerance 1e-6, both not
negative, is taken as the comparison of the distance and of the tolerance. -/
def inList (p : P) (points : List P) : Bool := points.any fun q => decide (k.dist p q ≤ 1 / 10 ^ 6)

/-- wires.py:494-500, the points used by `split_with_sorted_points`: for a wire whose ends are apart, its ends are added. -/
def completedPoints (first last : E) (points : List P) : List P :=
  if isClose k (k.start first) (k.fin last) (1 / 10 ^ 6) then points
  else
    let points1 := if inList k (k.start first) points then points else k.start first :: points
    if inList k (k.fin last) points1 then points1 else points1 ++ [k.fin last]

/-- wires.py:494-500, what the list of the caller contains afterwards: `[start] + sorted_points` is a new list, while `append` changes
the list it is given. -/
def callerPoints (first last : E) (points : List P) : List P :=
  if isClose k (k.start first) (k.fin last) (1 / 10 ^ 6) then points
  else if inList k (k.start first) points then
    (if inList k (k.fin last) points then points else points ++ [k.fin last])
  else points

/-- wires.py:507-515, the sections between a point and the next one (`extract` with `inside=True`, then `order_wire`). -/
def insideSections [DecidableEq E] (split : E → P → Option E × Option E) (trim : E → P → P → E) (abscissa : P → Except WireError K)
    (prims : List E) : List P → Except WireError (List (List E))
  | p :: q :: points =>
    match extractWithPoints k split trim abscissa prims p q true with
    | .error err => .error err
    | .ok section_ =>
      match orderWire k (1 / 10 ^ 6) section_ with
      | .error err => .error err
      | .ok ordered =>
        match insideSections split trim abscissa prims (q :: points) with
        | .error err => .error err
        | .ok rest => .ok (ordered :: rest)
  | _ => .ok []

/-- wires.py:487-516 `WireMixin.split_with_sorted_points`. -/
def splitWithSortedPoints [DecidableEq E] (split : E → P → Option E × Option E) (trim : E → P → P → E)
    (abscissa : P → Except WireError K) (prims : List E) (points : List P) : Except WireError (List (List E)) :=
  match prims.head?, prims.getLast? with
  | some first, some last =>
    let points' := completedPoints k first last points
    if isClose k (k.start first) (k.fin last) (1 / 10 ^ 6) then
      match points'.head?, points'.getLast? with
      | some p0, some pn =>
        match insideSections k split trim abscissa prims points' with
        | .error err => .error err
        | .ok sections =>
          match extractWithPoints k split trim abscissa prims pn p0 false with
          | .error err => .error err
          | .ok section_ =>
            match orderWire k (1 / 10 ^ 6) section_ with
            | .error err => .error err
            | .ok ordered => .ok (sections ++ [ordered])
      | _, _ => .error .indexError
    else if points'.length = 2 ∧ (∃ p ∈ points'[0]?, isClose k p (k.start first) (1 / 10 ^ 6) = true) ∧
        (∃ q ∈ points'[1]?, isClose k q (k.fin last) (1 / 10 ^ 6) = true) then .ok [prims]
    else insideSections k split trim abscissa prims points'
  | _, _ => .error .indexError

end Volmdlr.Wire
