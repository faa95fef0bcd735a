import Verif.Frame.Model

/-!
# Model of `ClosedPolygon2D` measures and of the point-in-polygon tests

`volmdlr/wires.py` (`ClosedPolygon2D.area`, `center_of_mass`, `barycenter`, `second_moment_area`,
`Triangle2D.area`) and `volmdlr/core_compiled.pyx` (`polygon_point_belongs`, `points_in_polygon`).
A polygon is its list of points.
-/

namespace Volmdlr
section
variable {K : Type*} [Field K] [LinearOrder K]

/-- Python `[x[-1]] + x[0:-1]` of a list. -/
def rollRight {α : Type*} (l : List α) : List α :=
  match l.getLast? with
  | none => []
  | some z => z :: l.dropLast

/-- `numpy.roll(x, -1)`; also Python `x[1:] + [x[0]]`. -/
def rollLeft {α : Type*} (l : List α) : List α :=
  match l with
  | [] => []
  | a :: t => t ++ [a]

/-- wires.py:2915-2927 `ClosedPolygon2D.area`. -/
def polygonArea (points : List (V2 K)) : K :=
  if points.length < 3 then 0
  else
    let x := points.map V2.x
    let y := points.map V2.y
    let x1 := rollRight x
    let y1 := rollRight y
    1 / 2 * |(List.zipWith (· * ·) x y1).sum - (List.zipWith (· * ·) y x1).sum|

/-- wires.py:4058-4067 `Triangle2D.area`; `Vector2D.cross` is core_compiled.pyx `u.x*v.y - u.y*v.x`. -/
def triangleArea (p1 p2 p3 : V2 K) : K :=
  let u := p2 - p1
  let v := p3 - p1
  |u.x * v.y - u.y * v.x| / 2

/-- wires.py:2929-2954 `center_of_mass`; the `NotImplementedError` of a flat polygon is an error. -/
def polygonCenterOfMass (points : List (V2 K)) : Except PyErr (V2 K) :=
  match points with
  | [] => .ok ⟨0, 0⟩
  | [p] => .ok p
  | [p, q] => .ok ⟨(p.x + q.x) * (1 / 2), (p.y + q.y) * (1 / 2)⟩
  | _ =>
    let x := points.map V2.x
    let y := points.map V2.y
    let xi_xi1 := List.zipWith (· + ·) x (rollLeft x)
    let yi_yi1 := List.zipWith (· + ·) y (rollLeft y)
    let xi_yi1 := List.zipWith (· * ·) x (rollLeft y)
    let xi1_yi := List.zipWith (· * ·) (rollLeft x) y
    let diff := List.zipWith (· - ·) xi_yi1 xi1_yi
    let signed_area := 1 / 2 * diff.sum
    if ¬ |signed_area| ≤ 1 / 10 ^ 12 then
      .ok ⟨(List.zipWith (· * ·) xi_xi1 diff).sum / 6 / signed_area,
           (List.zipWith (· * ·) yi_yi1 diff).sum / 6 / signed_area⟩
    else .error .notImplemented

/-- wires.py:2956-2965 `barycenter` (`IndexError` on an empty polygon). -/
def polygonBarycenter (points : List (V2 K)) : Except PyErr (V2 K) :=
  match points with
  | [] => .error .indexError
  | p :: ps =>
    let s := ps.foldl (fun b point => b + point) p
    .ok ⟨s.x / points.length, s.y / points.length⟩

/-- wires.py:2993-3007 `second_moment_area`: the accumulation loop then the sign normalisation. -/
def secondMomentArea (points : List (V2 K)) (point : V2 K) : K × K × K :=
  let s := (points.zip (rollLeft points)).foldl (fun (acc : K × K × K) (pq : V2 K × V2 K) =>
    let xi := pq.1.x - point.x
    let yi := pq.1.y - point.y
    let xj := pq.2.x - point.x
    let yj := pq.2.y - point.y
    (acc.1 + (yi ^ 2 + yi * yj + yj ^ 2) * (xi * yj - xj * yi),
     acc.2.1 + (xi ^ 2 + xi * xj + xj ^ 2) * (xi * yj - xj * yi),
     acc.2.2 + (xi * yj + 2 * xi * yi + 2 * xj * yj + xj * yi) * (xi * yj - xj * yi))) (0, 0, 0)
  let s := if s.1 < 0 then (-s.1, -s.2.1, -s.2.2) else s
  (s.1 / 12, s.2.1 / 12, s.2.2 / 24)

/-- The edges `(polygon[i], polygon[(i+1) % n])` in order. -/
def polygonEdges (poly : List (V2 K)) : List (V2 K × V2 K) := poly.zip (rollLeft poly)

/-- core_compiled.pyx:206-211: the test that stops the loop when the projection is on the edge and close.
The comparison `sqrt(d2) <= tol` is written `d2 ≤ tol²` (the same for `tol ≥ 0`). -/
def projTest (pt proj : V2 K) (t tol : K) : Bool :=
  decide (0 ≤ t) && decide (t ≤ 1) && decide ((proj.x - pt.x) ^ 2 + (proj.y - pt.y) ^ 2 ≤ tol ^ 2)

/-- core_compiled.pyx:212-219: the exact test of a point on the edge. -/
def onEdgeTest (p1 p2 pt : V2 K) : Bool :=
  if min p1.y p2.y ≤ pt.y ∧ pt.y ≤ max p1.y p2.y ∧ min p1.x p2.x ≤ pt.x ∧ pt.x ≤ max p1.x p2.x then
    -- `xints` is only read when `p1y != p2y`
    decide (p1.y = p2.y) || decide (pt.x = (pt.y - p1.y) * (p2.x - p1.x) / (p2.y - p1.y) + p1.x)
  else false

/-- core_compiled.pyx:220-224: does the edge toggle `inside`? In the branch `p1y != p2y` always holds, so
`xints` is the computed abscissa. -/
def toggles (p1 p2 pt : V2 K) : Bool :=
  if min p1.y p2.y < pt.y ∧ pt.y ≤ max p1.y p2.y ∧ pt.x ≤ max p1.x p2.x then
    decide (p1.x = p2.x) || decide (pt.x < (pt.y - p1.y) * (p2.x - p1.x) / (p2.y - p1.y) + p1.x)
  else false

/-- core_compiled.pyx:193-225, the loop of `polygon_point_belongs` over the remaining edges.  An edge of
length zero makes Cython raise `ZeroDivisionError`. -/
def belongsLoop (pt : V2 K) (incl : Bool) (tol : K) : List (V2 K × V2 K) → Bool → Except PyErr Bool
  | [], inside => .ok inside
  | (p1, p2) :: es, inside =>
    let v : V2 K := ⟨p2.x - p1.x, p2.y - p1.y⟩
    let u : V2 K := ⟨pt.x - p1.x, pt.y - p1.y⟩
    let dot_product := u.x * v.x + u.y * v.y
    let length_squared := v.x ^ 2 + v.y ^ 2
    if length_squared = 0 then .error .zeroDivision
    else
      let t := dot_product / length_squared
      let proj : V2 K := ⟨p1.x + v.x * t, p1.y + v.y * t⟩
      if projTest pt proj t tol then .ok incl
      else if onEdgeTest p1 p2 pt then .ok incl
      else belongsLoop pt incl tol es (if toggles p1 p2 pt then !inside else inside)

/-- core_compiled.pyx:184-225 `polygon_point_belongs`. -/
def polygonPointBelongs (poly : List (V2 K)) (pt : V2 K) (incl : Bool) (tol : K) : Except PyErr Bool :=
  belongsLoop pt incl tol (polygonEdges poly) false

/-! ### `points_in_polygon` as a concurrent program

core_compiled.pyx:230-285: `for i in prange(m, nogil=True)`.  `x, y, inside, t, ...` are assigned in the
loop body and hence private to the thread; the C arrays `u`, `v`, `projection_point` (236) are only
*indexed*, so they are shared by all threads.  One thread per point; the state of a thread is the point,
the edges still to do, the position in the loop body and its private variables. -/

/-- Private state of the thread that processes one point. -/
structure PThread (K : Type*) where
  pt : V2 K
  rest : List (V2 K × V2 K)
  pc : ℕ
  t : K
  inside : Bool
  res : Option Bool
  deriving DecidableEq

/-- The shared C arrays (core_compiled.pyx:236). -/
structure PShared (K : Type*) where
  u : V2 K
  v : V2 K
  proj : V2 K
  deriving DecidableEq

/-- One step of a thread (core_compiled.pyx:240-285).  `pc` 0: write `v` (248-249); 1: write `u` (250-251);
2: compute `t` (252-254); 3: write `projection_point` when `0 <= t <= 1` (256-257); 4: the distance test
(258-266), the exact edge test (267-277) and the toggle (278-282).  With no edge left the `else` clause of
the loop (283-284) stores `inside`. -/
def PThread.step (incl : Bool) (tol : K) (sh : PShared K) (th : PThread K) : PShared K × PThread K :=
  match th.res with
  | some _ => (sh, th)
  | none =>
    match th.rest with
    | [] => (sh, { th with res := some th.inside })
    | (p1, p2) :: es =>
      match th.pc with
      | 0 => ({ sh with v := ⟨p2.x - p1.x, p2.y - p1.y⟩ }, { th with pc := 1 })
      | 1 => ({ sh with u := ⟨th.pt.x - p1.x, th.pt.y - p1.y⟩ }, { th with pc := 2 })
      | 2 =>
        let dot_product := sh.u.x * sh.v.x + sh.u.y * sh.v.y
        let length_squared := sh.v.x * sh.v.x + sh.v.y * sh.v.y
        (sh, { th with t := dot_product / length_squared, pc := 3 })
      | 3 =>
        if 0 ≤ th.t ∧ th.t ≤ 1 then
          ({ sh with proj := ⟨p1.x + sh.v.x * th.t, p1.y + sh.v.y * th.t⟩ }, { th with pc := 4 })
        else (sh, { th with pc := 4 })
      | _ =>
        if projTest th.pt sh.proj th.t tol then (sh, { th with res := some incl })
        else if onEdgeTest p1 p2 th.pt then (sh, { th with res := some incl })
        else (sh, { th with rest := es, pc := 0, inside := if toggles p1 p2 th.pt then !th.inside else th.inside })

/-- The whole program: shared arrays and one thread per point. -/
structure PState (K : Type*) where
  sh : PShared K
  threads : List (PThread K)

/-- The scheduler runs one step of thread `i` (nothing if there is no such thread). -/
def PState.step (incl : Bool) (tol : K) (s : PState K) (i : ℕ) : PState K :=
  match s.threads[i]? with
  | none => s
  | some th =>
    let r := th.step incl tol s.sh
    ⟨r.1, s.threads.set i r.2⟩

/-- Running a schedule. -/
def PState.run (incl : Bool) (tol : K) (s : PState K) (sched : List ℕ) : PState K :=
  sched.foldl (fun s i => s.step incl tol i) s

/-- core_compiled.pyx:230-241: the start of `points_in_polygon`; the arrays are uninitialised (any
content `sh`). -/
def PState.init (poly : List (V2 K)) (points : List (V2 K)) (sh : PShared K) : PState K :=
  ⟨sh, points.map fun p => ⟨p, polygonEdges poly, 0, 0, false, none⟩⟩

/-- The results array once all threads are done (core_compiled.pyx:285). -/
def PState.results (s : PState K) : List (Option Bool) := s.threads.map PThread.res

end
end Volmdlr
