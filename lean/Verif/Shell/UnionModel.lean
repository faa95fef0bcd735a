import Verif.Frame.Model
import Mathlib.Data.List.Sort

/-!
# Model of `shells.py`: the set operations of closed shells

What the set operations decide on top of the geometry of the faces: the merging of a list of shells, the cases a set operation
settles without cutting any face, the clean-up of the resulting faces, the merging of coplanar faces and the ray casting test.
-/

namespace Volmdlr.SetOps

/-! ## Union of a list of shells -/

section
variable {S : Type*}

/-- What scanning the waiting shells gives (shells.py:49-60): a union of length other than two (51-56) with its first element, a shell
kept apart (57-60), or the end of the scan (61). The number is the position in the list of waiting shells. -/
inductive Scan (S : Type*)
  | merged (j : Nat) (s : S)
  | kept (j : Nat) (s : S)
  | none

/-- shells.py:49-60: the scan of the waiting shells. `move` says whether `len(list_shells) != len_previous_shells_list - 1`: it does
not change during a scan, since the list only changes on the way out. `union[0]` of an empty union is the error of Python. -/
def scan (union : S → S → List S) (u : S) (move : Bool) : Nat → List S → Except PyErr (Scan S)
  | _, [] => .ok .none
  | j, a :: rest =>
    match union u a with
    | [] => .error .indexError
    | [_, b] => if move then .ok (.kept j b) else scan union u move (j + 1) rest
    | c :: _ => .ok (.merged j c)

/-- The variables of the loop, shells.py:38-40; `callers` is the list object of the caller and `aliased` whether `list_shells` still is
that object (line 43 rebinds the name). -/
structure State (S : Type*) where
  shells : List S
  current : List S
  list : List S
  lenPrev : Nat
  callers : List S
  aliased : Bool

/-- `list_shells` gets a new content in place: the list of the caller with it when it is the same object. -/
def State.setList (st : State S) (l : List S) : State S :=
  { st with list := l, callers := if st.aliased then l else st.callers }

/-- shells.py:42-45. -/
def refill (st : State S) : State S :=
  match st.list, st.current with
  | [], u :: us => { st with list := us, lenPrev := (u :: us).length, current := [u], aliased := false }
  | _, _ => st

/-- shells.py:47-66, one turn of the loop: all the ways through the two `for` loops leave them after the first shell of
`union_shells`. `merge` is what `merge_faces` makes of a shell. -/
def turn (union : S → S → List S) (merge : S → S) (st : State S) : Except PyErr (State S) :=
  match st.current with
  | [] => .ok st
  | u :: us =>
    match scan union u (st.list.length + 1 != st.lenPrev) 0 st.list with
    | .error e => .error e
    | .ok (.merged j c) => .ok ({ st with current := merge c :: us }.setList (st.list.eraseIdx j))
    | .ok (.kept j b) => .ok ({ st with current := b :: u :: us }.setList (st.list.eraseIdx j))
    | .ok .none =>
      let st' := { st with shells := st.shells ++ [u], current := us }
      match us, st.list with
      | [], b :: rest => .ok ({ st' with current := [b] }.setList rest)
      | _, _ => .ok st'

/-- shells.py:41-68, with fuel: `none` when the fuel is spent. -/
def loop (union : S → S → List S) (merge : S → S) : Nat → State S → Option (Except PyErr (List S × List S))
  | 0, _ => none
  | fuel + 1, st =>
    match turn union merge (refill st) with
    | .error e => some (.error e)
    | .ok st' => if st'.current.isEmpty then some (.ok (st'.shells, st'.callers)) else loop union merge fuel st'

/-- shells.py:30-69 `union_list_of_shells`: the shells returned and what is left in the list of the caller. -/
def unionList (union : S → S → List S) (merge : S → S) (fuel : Nat) : List S → Option (Except PyErr (List S × List S))
  | [] => some (.error .indexError)
  | a :: rest => loop union merge fuel ⟨[], [a], rest, rest.length, rest, true⟩

end

/-! ## Cases settled without cutting faces -/

/-- What the set operations ask of the two shells before any cut: `is_disjoint_from` (1055-1063), `is_inside_shell` one way and the
other (1245-1258). -/
structure Answers where
  disjoint : Bool
  firstInside : Bool
  secondInside : Bool

section
variable {S : Type*}

/-- shells.py:1549-1564 `validate_set_operation`. -/
def validateSetOperation (ans : Answers) (a b : S) : List S :=
  if ans.disjoint then [a, b] else if ans.firstInside then [b] else if ans.secondInside then [a] else []

/-- shells.py:1606-1632 `union`; `cut` is what is made of the two shells from line 1614 on. -/
def union (ans : Answers) (cut : S → S → List S) (a b : S) : List S :=
  if (validateSetOperation ans a b).isEmpty then cut a b else validateSetOperation ans a b

/-- shells.py:1688-1709 `subtract`; `cut` is what is made of the two shells from line 1697 on. -/
def subtract (ans : Answers) (cut : S → S → List S) (a b : S) : List S :=
  if (validateSetOperation ans a b).isEmpty then cut a b else validateSetOperation ans a b

/-- shells.py:1711-1734 `subtract_to_closed_shell`; `cut` is what is made of the two shells from line 1721 on. -/
def subtractToClosed (ans : Answers) (cut : S → S → List S) (a b : S) : List S :=
  if ans.disjoint then [a] else cut a b

/-- shells.py:1736-1748 `validate_intersection_operation`. -/
def validateIntersection (ans : Answers) (a b : S) : List S :=
  if ans.firstInside then [a] else if ans.secondInside then [b] else []

/-- shells.py:1750-1776 `intersection`; `cut` is what is made of the two shells from line 1760 on. -/
def intersection (ans : Answers) (cut : S → S → List S) (a b : S) : List S :=
  if ans.disjoint then []
  else if (validateIntersection ans a b).isEmpty then cut a b else validateIntersection ans a b

end

/-! ## Faces -/

section
variable {F : Type*}

/-- shells.py:1391-1409 `validate_set_operations_faces`: `inside v f` is `v.face_inside(f)`; the accumulator is `valid_faces`. -/
def validFacesLoop (inside : F → F → Bool) : List F → List F → List F
  | valid, [] => valid
  | valid, f :: rest =>
    if valid.any fun v : F => inside v f then validFacesLoop inside valid rest else validFacesLoop inside (valid ++ [f]) rest

/-- shells.py:1391-1409. -/
def validFaces (inside : F → F → Bool) (faces : List F) : List F := validFacesLoop inside [] faces

/-- shells.py:1634-1646 `get_faces_to_be_merged`: the first face that has another face on a coincident surface, then these, in order.
The membership test of line 1642 is that of the equality of faces, `==`. -/
def facesToMerge [BEq F] (coincident : F → F → Bool) (faces : List F) : List F :=
  go 0 faces
where
  /-- One turn of the outer loop, shells.py:1638-1645; `i` is the index of the face. -/
  go (i : Nat) : List F → List F
    | [] => []
    | f :: rest =>
      let found := (faces.zipIdx).foldl (fun (acc : List F) (p : F × Nat) =>
        if p.2 != i && coincident f p.1 then (if acc.contains f then acc else acc ++ [f]) ++ [p.1] else acc) []
      if found.isEmpty then go (i + 1) rest else found

/-- `for face in faces: list.remove(face)`, shells.py:1678-1679 and 1658-1659: the error is that of `list.remove`. -/
def removeAll [BEq F] : List F → List F → Except PyErr (List F)
  | l, [] => .ok l
  | l, f :: rest => if l.contains f then removeAll (l.erase f) rest else .error .valueError

/-- shells.py:1648-1660 `clean_faces`; `inside f g` is `f.face_inside(g)`. -/
def cleanFaces [BEq F] (inside : F → F → Bool) (unionFaces newFaces : List F) : Except PyErr (List F) :=
  let removed := unionFaces.flatMap fun f1 : F => newFaces.flatMap fun f2 : F =>
    if inside f1 f2 then [f2] else if inside f2 f1 then [f1] else []
  removeAll (newFaces ++ unionFaces) removed

/-- shells.py:1673-1682, the loop of `merge_faces` with fuel: `union_faces` is the list of faces of the shell itself, so that
`len(self.faces)` is that of the faces that remain. `mergeGroup` is `PlaneFace3D.merge_faces`. The faces that remain and the new ones. -/
def mergeLoop [BEq F] (coincident : F → F → Bool) (mergeGroup : List F → List F) :
    Nat → Nat → List F → List F → Option (Except PyErr (List F × List F))
  | 0, _, _, _ => none
  | fuel + 1, count, faces, new =>
    let group := facesToMerge coincident faces
    let new' := if group.isEmpty then new else new ++ mergeGroup group
    match removeAll faces group with
    | .error e => some (.error e)
    | .ok faces' =>
      if faces'.length ≤ count + 1 ∧ group.isEmpty then some (.ok (faces', new'))
      else mergeLoop coincident mergeGroup fuel (count + 1) faces' new'

/-- shells.py:1662-1686 `merge_faces`: the faces the shell has afterwards. -/
def mergeFaces [BEq F] (coincident inside : F → F → Bool) (mergeGroup : List F → List F) (fuel : Nat) (faces : List F) :
    Option (Except PyErr (List F)) :=
  (mergeLoop coincident mergeGroup fuel 0 faces []).map fun r => r.bind fun p : List F × List F => cleanFaces inside p.1 p.2

end

/-! ## Merging of coplanar faces -/

/-- What `PlaneFace3D.merge_faces` asks of two faces and makes of them. -/
structure MergeKit (F K : Type*) where
  area : F → K
  /-- faces.py:1906: the outer contours share primitives. -/
  sharing : F → F → Bool
  /-- faces.py:1907-1921: the face of the merged outer contours; an error when there is no merged contour. -/
  joined : F → F → Except PyErr F
  /-- faces.py:1925: the second face is inside the first. -/
  inside : F → F → Bool
  /-- faces.py:1928-1947: the face of the second outer contour when the first outer contour shares primitives with inner contours of the
  second; an error when such an inner contour falls apart. -/
  filled : F → F → Except PyErr (Option F)

/-- faces.py:1906-1950, what is made of the current face and a face of the list: the new current face, or none when the face stays. -/
def attach {F K : Type*} (kit : MergeKit F K) (cur f : F) : Except PyErr (Option F) :=
  if kit.sharing cur f then (kit.joined cur f).map some
  else if kit.inside cur f then .ok (some cur)
  else kit.filled cur f

/-- faces.py:1905-1950, the `for` loop: the position of the first face that is attached, with the new current face. The removals of lines
1923, 1926 and 1938 take away that face: an equal one before it would have been attached. -/
def attachFirst {F K : Type*} (kit : MergeKit F K) (cur : F) : Nat → List F → Except PyErr (Option (Nat × F))
  | _, [] => .ok none
  | j, f :: rest =>
    match attach kit cur f with
    | .error e => .error e
    | .ok (some c) => .ok (some (j, c))
    | .ok none => attachFirst kit cur (j + 1) rest

/-- faces.py:1904-1956, with fuel. -/
def coplanarLoop {F K : Type*} (kit : MergeKit F K) : Nat → F → List F → List F → Option (Except PyErr (List F))
  | 0, _, _, _ => none
  | fuel + 1, cur, list, merged =>
    match attachFirst kit cur 0 list with
    | .error e => some (.error e)
    | .ok (some (j, c)) => coplanarLoop kit fuel c (list.eraseIdx j) merged
    | .ok none =>
      match list with
      | [] => some (.ok (merged ++ [cur]))
      | f :: rest => coplanarLoop kit fuel f rest (merged ++ [cur])

/-- faces.py:1898-1956 `PlaneFace3D.merge_faces`. -/
def mergeCoplanar {F K : Type*} [LinearOrder K] (kit : MergeKit F K) (fuel : Nat) (faces : List F) : Option (Except PyErr (List F)) :=
  match faces.insertionSort fun a b : F => kit.area a ≤ kit.area b with
  | [] => some (.error .indexError)
  | cur :: rest => coplanarLoop kit fuel cur rest []

/-! ## Ray casting -/

section
variable {P : Type*}

/-- What one ray gives, shells.py:1224-1239: an answer at once, a clean count or a count cut short. -/
inductive RayResult
  | onShell
  | clean (count : Nat)
  | dirty (count : Nat)
  deriving DecidableEq

/-- shells.py:1229-1234: the points of one face; the points met so far with the count, and whether a point was met twice. -/
def countFace (close : P → P → Bool) : List P → Nat → List P → List P × Nat × Bool
  | seen, n, [] => (seen, n, false)
  | seen, n, q :: rest => if seen.any (close q) then (seen, n, true) else countFace close (seen ++ [q]) (n + 1) rest

/-- shells.py:1226-1239: the intersections of a ray with the faces, face by face, each a non-empty list (`point_inters[0]`;
`linesegment_intersections`, shells.py:581-599, only keeps these). -/
def countRay (close : P → P → Bool) (p : P) : List P → Nat → List (List P) → Except PyErr RayResult
  | _, n, [] => .ok (.clean n)
  | seen, n, pts :: rest =>
    match pts with
    | [] => .error .indexError
    | q :: _ =>
      if close q p then .ok .onShell
      else
        let r := countFace close seen n pts
        if r.2.2 then .ok (.dirty r.2.1) else countRay close p r.1 r.2.1 rest

/-- shells.py:1222-1239: the rays in turn; `none` for the answer at once, else the last count. -/
def castRays (close : P → P → Bool) (p : P) : Nat → List (List (List P)) → Except PyErr (Option Nat)
  | last, [] => .ok (some last)
  | _, ray :: rest =>
    match countRay close p [] 0 ray with
    | .error e => .error e
    | .ok .onShell => .ok none
    | .ok (.clean n) => .ok (some n)
    | .ok (.dirty n) => castRays close p n rest

/-- shells.py:1210-1243 `ClosedShell3D.point_belongs`: `inBox` is the test of the bounding box, `rays` the intersections of the ten
random rays with the faces. -/
def pointBelongs (close : P → P → Bool) (inBox : Bool) (p : P) (rays : List (List (List P))) : Except PyErr Bool :=
  if !inBox then .ok false
  else (castRays close p 0 rays).map fun r : Option Nat => match r with | none => true | some n => !(n % 2 == 0)

end

end Volmdlr.SetOps
