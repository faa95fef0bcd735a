import Verif.Intersect.Model

/-!
# Model of `RoundedLineSegments` (primitives.py, primitives2d.py, primitives3d.py)

Polylines with rounded corners and their offsets.  The dictionary `radius` is a list of pairs (index, radius); the
optimisation of the radii (`adapt_radius=True`) calls `scipy.optimize.linprog`, of which only the specification is used.
-/

namespace Volmdlr.Fillet

open Real Volmdlr.Angle Volmdlr.Arc

/-! ## Indices -/

/-- Python indexing of a list by an integer: negative indices count from the end. -/
def pyIndex {α : Type*} (l : List α) (i : ℤ) : Except PyErr α :=
  let j := if i < 0 then i + l.length else i
  if j < 0 then .error .indexError
  else match l[j.toNat]? with
    | some a => .ok a
    | none => .error .indexError

/-- primitives.py:38-57 `RoundedLineSegments.get_points`. -/
def getPoints {α : Type*} (points : List α) (closed : Bool) (i : ℕ) : Except PyErr (α × α × α) :=
  let n := points.length
  if closed then do
    let pt1 ← pyIndex points (if i = 0 then -1 else (i : ℤ) - 1)
    let pti ← pyIndex points i
    let pt2 ← pyIndex points (if (i : ℤ) < (n : ℤ) - 1 then (i : ℤ) + 1 else 0)
    return (pt1, pti, pt2)
  else do
    let pt1 ← pyIndex points ((i : ℤ) - 1)
    let pti ← pyIndex points i
    let pt2 ← pyIndex points ((i : ℤ) + 1)
    return (pt1, pti, pt2)

/-! ## Corner arcs -/

/-- The result of `arc_features`: start, interior and end points of the arc, tangent length, half angle. -/
structure Feat (α : Type*) where
  start : α
  interior : α
  fin : α
  dist : ℝ
  alpha : ℝ

open Classical in
/-- primitives2d.py:44-75 `RoundedLineSegments2D.arc_features`.  (`tan alpha = 0` stands for both degenerate corners: folded,
`alpha = 0`, where the code divides by zero, and straight, `alpha = π/2`, where the floating tangent is about `1.6e16` and
the code goes on with a tangent length close to zero.) -/
noncomputable def arcFeatures2 (pt1 pti pt2 : V2 ℝ) (radius : ℝ) : Except PyErr (Feat (V2 ℝ)) :=
  let d1 := V2.norm (pt1 - pti)
  let d2 := V2.norm (pt2 - pti)
  let d3 := V2.norm (pt1 - pt2)
  if 2 * d1 * d2 = 0 then .error .zeroDivision
  else
    let alpha := Real.arccos (-(d3 ^ 2 - d1 ^ 2 - d2 ^ 2) / (2 * d1 * d2)) / 2
    if Real.tan alpha = 0 then .error .zeroDivision
    else
      let dist := radius / Real.tan alpha
      let u1 := V2.smul (1 / d1) (pt1 - pti)
      let u2 := V2.smul (1 / d2) (pt2 - pti)
      let p3 := pti + V2.smul dist u1
      let p4 := pti + V2.smul dist u2
      let w := u1 + u2
      match (if isClose2 w ⟨0, 0⟩ (1 / 10 ^ 6) then some w else V2.unitVector w), V2.unitVector (V2.normalVector u1) with
      | some w, some v1 =>
        let v1 := if V2.dot v1 w < 0 then -v1 else v1
        let center := p3 + V2.smul radius v1
        .ok ⟨p3, center - V2.smul radius w, p4, dist, alpha⟩
      | _, _ => .error .zeroDivision

/-- core_compiled.pyx:3770-3777 `line_point_belongs_with_points`; `none`: division by zero. -/
noncomputable def linePointBelongs (a b p : V3 ℝ) : Option Bool :=
  let v1 := p - a
  let v2 := b - a
  if V3.norm v2 = 0 then none else some (decide (V3.norm (V3.cross v1 v2) / V3.norm v2 < 1 / 10 ^ 6))

/-- core_compiled.pyx:3780-3804 `get_minimum_distance_points_lines`. -/
noncomputable def minimumDistancePointsLines (a b c d : V3 ℝ) : Option (V3 ℝ × V3 ℝ) :=
  match linePointBelongs a b c with
  | none => none
  | some true => some (c, c)
  | some false =>
    match linePointBelongs a b d with
    | none => none
    | some true => some (d, d)
    | some false =>
      let u := b - a
      let v := d - c
      let w := a - c
      let den := V3.dot u u * V3.dot v v - V3.dot u v ^ 2
      if den ≠ 0 then
        let s := (V3.dot u v * V3.dot v w - V3.dot v v * V3.dot u w) / den
        let t := (V3.dot u u * V3.dot v w - V3.dot u v * V3.dot u w) / den
        some (a + V3.smul s u, c + V3.smul t v)
      else some (a, c)

/-- primitives3d.py:56-83 `RoundedLineSegments3D.arc_features` (see `arcFeatures2` for `tan alpha = 0`). -/
noncomputable def arcFeatures3 (pt1 pti pt2 : V3 ℝ) (radius : ℝ) : Except PyErr (Feat (V3 ℝ)) :=
  let d1 := V3.norm (pt1 - pti)
  let d2 := V3.norm (pt2 - pti)
  let d3 := V3.norm (pt1 - pt2)
  if 2 * d1 * d2 = 0 then .error .zeroDivision
  else
    let alpha := Real.arccos (-(d3 ^ 2 - d1 ^ 2 - d2 ^ 2) / (2 * d1 * d2)) / 2
    if Real.tan alpha = 0 then .error .zeroDivision
    else
      let dist := radius / Real.tan alpha
      let u1 := V3.smul (1 / d1) (pt1 - pti)
      let u2 := V3.smul (1 / d2) (pt2 - pti)
      let p3 := pti + V3.smul dist u1
      let p4 := pti + V3.smul dist u2
      match V3.unitVector (V3.cross u1 u2), V3.unitVector (u1 + u2) with
      | some n, some w =>
        let v1 := V3.cross u1 n
        let v2 := V3.cross u2 n
        match minimumDistancePointsLines p3 (p3 + v1) p4 (p4 + v2) with
        | some (c, _) => .ok ⟨p3, c - V3.smul radius w, p4, dist, alpha⟩
        | none => .error .zeroDivision
      | _, _ => .error .zeroDivision

/-! ## The chain of primitives -/

/-- A primitive: a line segment or an arc given by three points. -/
inductive Prim (α : Type*) where
  | line (a b : α)
  | arc (s m e : α)

/-- First point of a primitive. -/
def Prim.start {α : Type*} : Prim α → α
  | .line a _ => a
  | .arc s _ _ => s
/-- Last point of a primitive. -/
def Prim.fin {α : Type*} : Prim α → α
  | .line _ b => b
  | .arc _ _ e => e

section chain
variable {α : Type*} (close : α → α → Bool) (point : ℕ → α) (arcs : ℕ → Option (α × α × α))

/-- primitives.py:206-225, one turn of the loop on lines. -/
def linePrims (i : ℕ) : List (Prim α) :=
  match arcs i with
  | some (s1, m1, e1) =>
    .arc s1 m1 e1 ::
      (match arcs (i + 1) with
       | some (s2, _, _) => if close e1 s2 then [] else [.line e1 s2]
       | none => if close e1 (point (i + 1)) then [] else [.line e1 (point (i + 1))])
  | none =>
    match arcs (i + 1) with
    | some (s2, _, _) => if close (point i) s2 then [] else [.line (point i) s2]
    | none => [.line (point i) (point (i + 1))]

/-- primitives.py:227-245, the closing line. -/
def closingPrims (n : ℕ) : List (Prim α) :=
  match arcs (n - 1) with
  | some (s1, m1, e1) =>
    .arc s1 m1 e1 ::
      (match arcs 0 with
       | some (s2, _, _) => if close e1 s2 then [] else [.line e1 s2]
       | none => [.line e1 (point 0)])
  | none =>
    match arcs 0 with
    | some (s2, _, _) => if close (point (n - 1)) s2 then [] else [.line (point (n - 1)) s2]
    | none => [.line (point (n - 1)) (point 0)]

/-- primitives.py:203-247 `RoundedLineSegments.primitives_from_arcs`, for `n` points. -/
def primitivesFromArcs (n : ℕ) (closed : Bool) : List (Prim α) :=
  (List.range (n - 1)).flatMap (fun i : ℕ => linePrims close point arcs i) ++
    (if closed then closingPrims close point arcs n else [])

end chain

/-! ## `_primitives` without `adapt_radius` -/

/-- The value of a key of the dictionary of radii. -/
def lookup (radius : List (ℕ × ℝ)) (i : ℕ) : Option ℝ := (radius.find? fun e => e.1 = i).map Prod.snd

/-- primitives2d.py:44-51 `RoundedLineSegments2D.arc_features(point_index)`: the radius and the three points of the corner `i`. -/
noncomputable def arcFeaturesAt (points : List (V2 ℝ)) (closed : Bool) (radius : List (ℕ × ℝ)) (i : ℕ) :
    Except PyErr (Feat (V2 ℝ)) :=
  match lookup radius i with
  | none => .error .keyError
  | some r => do
    let p ← getPoints points closed i
    arcFeatures2 p.1 p.2.1 p.2.2 r

/-- primitives.py:95-97 the length of the line before the point `i`. -/
noncomputable def lengthBefore (points : List (V2 ℝ)) (i : ℕ) : Except PyErr ℝ := do
  let a ← pyIndex points ((i : ℤ) - 1)
  let b ← pyIndex points i
  return V2.norm (b - a)

/-- primitives.py:80-112: the loop on the rounded corners, in increasing order of their indices: their features, and the test
on consecutive ones (`ValueError` when `adapt_radius` is false); `prev` is the last key treated with its tangent length. -/
noncomputable def checkRadii (points : List (V2 ℝ)) (closed : Bool) (radius : List (ℕ × ℝ)) :
    Option (ℕ × ℝ) → List ℕ → Except PyErr Unit
  | _, [] => .ok ()
  | prev, i :: keys => do
    let f ← arcFeaturesAt points closed radius i
    match prev with
    | none => checkRadii points closed radius (some (i, f.dist)) keys
    | some (j, dist1) =>
      if j + 1 = i then do
        let length ← lengthBefore points i
        if dist1 + f.dist ≤ length then checkRadii points closed radius (some (i, f.dist)) keys
        else .error .valueError
      else checkRadii points closed radius (some (i, f.dist)) keys

/-- primitives.py:196-201: the arcs. -/
noncomputable def makeArcs (points : List (V2 ℝ)) (closed : Bool) (radius : List (ℕ × ℝ)) :
    List ℕ → Except PyErr (List (ℕ × (V2 ℝ × V2 ℝ × V2 ℝ)))
  | [] => .ok []
  | i :: keys => do
    let f ← arcFeaturesAt points closed radius i
    let l ← makeArcs points closed radius keys
    return (i, (f.start, f.interior, f.fin)) :: l

open Classical in
/-- primitives.py:74-201 `RoundedLineSegments._primitives` in the plane with `adapt_radius=False`; the keys of `radius` are
sorted. -/
noncomputable def primitives2 (points : List (V2 ℝ)) (closed : Bool) (radius : List (ℕ × ℝ)) : Except PyErr (List (Prim (V2 ℝ))) := do
  let _ ← checkRadii points closed radius none (radius.map Prod.fst)
  let arcs ← makeArcs points closed radius (radius.map Prod.fst)
  return primitivesFromArcs (fun p q => decide (isClose2 p q (1 / 10 ^ 6))) (fun i => points.getD i ⟨0, 0⟩)
    (fun i => (arcs.find? fun e => e.1 = i).map Prod.snd) points.length closed

/-! ## `adapt_radius` -/

/-- primitives.py:80-114 with `adapt_radius`: the groups of consecutive rounded corners that overlap; `group` is the current
group, `prev` the last key treated with its tangent length. (The merging of the first and last groups of a closed polyline,
lines 116-121, needs the key `npoints` and never happens: `arc_features` has already raised an `IndexError` for it.) -/
noncomputable def groupsGo (points : List (V2 ℝ)) (dist : ℕ → ℝ) (prev : ℕ) (group : List ℕ) : List ℕ → Except PyErr (List (List ℕ))
  | [] => .ok [group]
  | i :: keys =>
    if prev + 1 = i then do
      let length ← lengthBefore points i
      if dist prev + dist i ≤ length then do
        let l ← groupsGo points dist i [i] keys
        return group :: l
      else groupsGo points dist i (group ++ [i]) keys
    else do
      let l ← groupsGo points dist i [i] keys
      return group :: l

/-- primitives.py:80-114, all the groups. -/
noncomputable def groupsOf (points : List (V2 ℝ)) (dist : ℕ → ℝ) : List ℕ → Except PyErr (List (List ℕ))
  | [] => .ok []
  | i :: keys => groupsGo points dist i [i] keys

/-- primitives.py:129-159: the radius of a corner alone in its group. -/
noncomputable def adaptSingle (points : List (V2 ℝ)) (closed : Bool) (dist alpha : ℕ → ℝ) (i : ℕ) (r : ℝ) : Except PyErr ℝ := do
  let p ← getPoints points closed i
  let m := min (V2.pointDistance p.1 p.2.1) (V2.pointDistance p.2.1 p.2.2)
  return if dist i > m then min r (m * Real.tan (alpha i)) else r

/-- primitives.py:161-187: the linear program given to `scipy.optimize.linprog`: one unknown for each corner of the groups
with several corners, bounded by zero and the tangent length asked for; two consecutive ones of a group fit in their common
line (`length i` is the length of the line after the point `i`). -/
def Feasible (length dist : ℕ → ℝ) (groups : List (List ℕ)) (x : ℕ → ℝ) : Prop :=
  ∀ g ∈ groups, (∀ j ∈ g, 0 ≤ x j ∧ x j ≤ dist j) ∧ g.IsChain (fun i j => x i + x j ≤ length i)

/-- primitives.py:171-187: `x` minimises `-Σ tan(alpha) x`. -/
def Optimal (length dist alpha : ℕ → ℝ) (groups : List (List ℕ)) (x : ℕ → ℝ) : Prop :=
  Feasible length dist groups x ∧ ∀ y, Feasible length dist groups y →
    (groups.flatten.map fun j => Real.tan (alpha j) * y j).sum ≤ (groups.flatten.map fun j => Real.tan (alpha j) * x j).sum

open Classical in
/-- primitives.py:189-194: the new tangent length of a corner of a group with several corners is `x` (the radius is
`x · tan(alpha)`); the rounding is removed when the radius is at most `1e-10`. -/
noncomputable def adaptGroup (alpha x : ℕ → ℝ) (j : ℕ) : Option ℝ :=
  let r := x j * Real.tan (alpha j)
  if r > 1 / 10 ^ 10 then some r else none

/-! ## Offset -/

open Classical in
/-- primitives2d.py:107-147 `_helper_offset_points_and_radii`, one corner: `prev` is the unit vector from the corner to the
previous point, `next` the unit vector to the next one; result: the offset corner, and whether the bisector was reversed;
`none`: division by zero. -/
noncomputable def offsetCorner (p prev next : V2 ℝ) (offset : ℝ) : Option (V2 ℝ × Bool) :=
  let normal := prev + next
  let r := if isClose2 normal ⟨0, 0⟩ (1 / 10 ^ 6) then some (V2.normalVector next, false)
    else match V2.unitVector normal with
      | none => none
      | some u => if V2.dot u (V2.normalVector prev) > 0 then some (-u, true) else some (u, false)
  match r, V2.unitVector (V2.normalVector prev), V2.unitVector (V2.normalVector next) with
  | some (b, check), some n1, some n2 =>
    let alpha := Real.arccos (V2.dot (-n1) n2)
    if Real.cos (alpha / 2) = 0 then none
    else some (p + V2.smul (offset / Real.cos (alpha / 2)) b, check)
  | _, _, _ => none

/-- primitives2d.py:130-139: the new radius of a corner; `none`: the corner is no longer rounded. -/
noncomputable def offsetRadius (radius offset : ℝ) (check adapt : Bool) : Option ℝ :=
  let r := if (check = true ∧ offset > 0) ∨ (check = false ∧ offset < 0) then radius + |offset| else radius - |offset|
  if r > 0 then some r else if adapt then some (1 / 10 ^ 6) else none

/-- primitives2d.py:149-185 `RoundedLineSegments2D.offset`, open polyline: the offset of the first and of the last point;
`v` is the unit vector to the next point, respectively to the previous point. -/
def offsetFirst (p v : V2 ℝ) (offset : ℝ) : V2 ℝ := p + V2.smul offset (V2.normalVector v)
/-- primitives2d.py:181-183, the last point. -/
def offsetLast (p v : V2 ℝ) (offset : ℝ) : V2 ℝ := p + V2.smul offset (-(V2.normalVector v))

/-- primitives2d.py:149-185 `RoundedLineSegments2D.offset`: the points of the offset of an open polyline. -/
noncomputable def offsetOpen (offset : ℝ) : List (V2 ℝ) → Option (List (V2 ℝ))
  | a :: b :: rest =>
    match V2.unitVector (b - a), go a b rest with
    | some v, some l => some (offsetFirst a v offset :: l)
    | _, _ => none
  | _ => none
where
  /-- The corners after the first point, and the last point. -/
  go (a b : V2 ℝ) : List (V2 ℝ) → Option (List (V2 ℝ))
    | [] =>
      match V2.unitVector (a - b) with
      | some v => some [offsetLast b v offset]
      | none => none
    | c :: rest =>
      match V2.unitVector (a - b), V2.unitVector (c - b), go b c rest with
      | some v1, some v2, some l =>
        match offsetCorner b v1 v2 offset with
        | some q => some (q.1 :: l)
        | none => none
      | _, _, _ => none

/-- primitives2d.py:149-185 `RoundedLineSegments2D.offset`, closed polyline: the offset of the corner `i`. -/
noncomputable def offsetClosedAt (offset : ℝ) (points : List (V2 ℝ)) (i : ℕ) : Option (V2 ℝ) :=
  let n := points.length
  let p := points.getD i ⟨0, 0⟩
  match V2.unitVector (points.getD ((i + n - 1) % n) ⟨0, 0⟩ - p), V2.unitVector (points.getD ((i + 1) % n) ⟨0, 0⟩ - p) with
  | some v1, some v2 => (offsetCorner p v1 v2 offset).map Prod.fst
  | _, _ => none

/-- primitives2d.py:149-185 `RoundedLineSegments2D.offset`: the points of the offset of a closed polyline. -/
noncomputable def offsetClosed (offset : ℝ) (points : List (V2 ℝ)) : Option (List (V2 ℝ)) :=
  (List.range points.length).mapM fun i : ℕ => offsetClosedAt offset points i

end Volmdlr.Fillet
