import Verif.BBox.Model

/-!
# Model of the boxes of the intersection of two shells (`shells.py`)
-/

namespace Volmdlr.Scene
variable {K : Type*} [Field K] [LinearOrder K] [IsStrictOrderedRing K]

/-- What the two methods ask of a pair of shells: `face_intersections` gives, for two faces, a list of wires, each a list of edges given here by their ends;
`discretization_points` of the outer contour of a face; `point_belongs` of the other shell. -/
structure ShellPair (K F G : Type*) where
  faces1 : List F
  faces2 : List G
  intersections : F → G → List (List (V3 K × V3 K))
  outline : F → List (V3 K)
  contains : V3 K → Bool

/-- shells.py:727-733 and 754-760: the ends of the first edge of the first wire of the intersection of two faces; a wire has no edge: `IndexError`. -/
def crossPoints : List (List (V3 K × V3 K)) → Except PyErr (List (V3 K))
  | [] => .ok []
  | [] :: _ => .error .indexError
  | (e :: _) :: _ => .ok [e.1, e.2]

/-- shells.py:724-733: the two loops, over the pairs of faces in order. -/
def crossAll (inter : List (List (List (V3 K × V3 K)))) : Except PyErr (List (V3 K)) :=
  inter.foldlM (fun acc w => (crossPoints w).map fun ps => acc ++ ps) []

/-- shells.py:735-745 and 763-773: the volume of the box of the points. -/
def boxVolume (ps : List (V3 K)) : Except PyErr K :=
  if ps.length = 0 then .ok 0 else (Box3.fromPoints ps).map Box3.volume

/-- shells.py:720-745 `intersection_internal_aabb_volume`. -/
def ShellPair.internalVolume {F G : Type*} (s : ShellPair K F G) : Except PyErr K := do
  let crossing ← crossAll (s.faces1.flatMap fun f => s.faces2.map fun g => s.intersections f g)
  let inside := s.faces1.flatMap fun f => (s.outline f).filter fun p => s.contains p
  boxVolume (crossing ++ inside)

/-- shells.py:747-773 `intersection_external_aabb_volume`. -/
def ShellPair.externalVolume {F G : Type*} (s : ShellPair K F G) : Except PyErr K := do
  let crossing ← crossAll (s.faces1.flatMap fun f => s.faces2.map fun g => s.intersections f g)
  let outside := s.faces1.flatMap fun f => (s.outline f).filter fun p => !s.contains p
  boxVolume (crossing ++ outside)

end Volmdlr.Scene
