import Verif.Frame.Model
import Verif.BBox.Model
import Verif.Mesh.Model

/-!
# Volume models, compounds and assemblies (core.py:153-232, 1007-1610, 2147-2256)

Simplifications.  `Matrix33.vector_multiplication` sets coordinates below `1e-16` to zero; here it does not (the effect of
that is the subject of C03), as for all other rounding.  A shell, a wire or an edge is represented by the list of the points that
define it; its `frame_mapping` maps each of them (shells.py:520-528, faces, edges) and its box is the box of these points.
Names, colours and identifiers are dropped.
-/

namespace Volmdlr.Scene

deriving instance DecidableEq for Basis3
deriving instance DecidableEq for Frame3

variable {K : Type*} [Field K] [LinearOrder K]

/-- The two accepted values of the argument `side`. -/
inductive Side
  | old
  | new

/-- core_compiled.pyx:1665-1686 `frame_mapping` of a point, with exact products. -/
def mapPoint (g : Frame3 K) : Side → V3 K → Except PyErr (V3 K)
  | .old, p => .ok (g.basis.transfer.cMulVec p + g.origin)
  | .new, p => do let m ← g.basis.transfer.inverse; return m.cMulVec (p - g.origin)

/-- core_compiled.pyx:3475-3491 `frame_mapping` of a frame, with exact products. -/
def mapFrame (g : Frame3 K) : Side → Frame3 K → Except PyErr (Frame3 K)
  | .old, f => .ok ⟨g.basis.transfer.cMulVec f.origin + g.origin, ⟨g.basis.transfer.cMulVec f.basis.u,
      g.basis.transfer.cMulVec f.basis.v, g.basis.transfer.cMulVec f.basis.w⟩⟩
  | .new, f => do
    let m ← g.basis.transfer.inverse
    return ⟨m.cMulVec (f.origin - g.origin), ⟨m.cMulVec f.basis.u, m.cMulVec f.basis.v, m.cMulVec f.basis.w⟩⟩

/-- `volmdlr.OXYZ`. -/
def oxyz : Frame3 K := ⟨⟨0, 0, 0⟩, ⟨⟨1, 0, 0⟩, ⟨0, 1, 0⟩, ⟨0, 0, 1⟩⟩⟩

/-- geometry.py:52-62 `get_transfer_matrix_from_basis`: the rows of the matrix `T` with `A T = B`, by Cramer's rule.  `np.linalg.solve` is taken as an exact
solver that raises for a singular matrix. -/
def transferMatrix (a b : Basis3 K) : Except PyErr (V3 K × V3 K × V3 K) :=
  let d := V3.dot a.u (V3.cross a.v a.w)
  if d = 0 then .error .valueError
  else
    let row (x y z : K) : V3 K := V3.smul (x / d) b.u + V3.smul (y / d) b.v + V3.smul (z / d) b.w
    let vw := V3.cross a.v a.w
    let wu := V3.cross a.w a.u
    let uv := V3.cross a.u a.v
    .ok (row vw.x wu.x uv.x, row vw.y wu.y uv.y, row vw.z wu.z uv.z)

/-- core.py:173-177: `new_frame`. -/
def placementFrame (initial final : Frame3 K) : Except PyErr (Frame3 K) := do
  let t ← transferMatrix initial.basis final.basis
  return ⟨final.origin, ⟨t.1, t.2.1, t.2.2⟩⟩

/-- What a volume model can contain.  `shell` stands for the objects with `faces`; `curve` for edges and wires.  An `Assembly` (core.py:1025-1033) keeps its
components, their positions, its frame and the list `primitives` of the placed components. -/
inductive Prim (K : Type*) where
  | point (p : V3 K)
  | frame (f : Frame3 K)
  | curve (points : List (V3 K))
  | shell (points : List (V3 K))
  | compound (primitives : List (Prim K))
  | assembly (components : List (Prim K)) (positions : List (Frame3 K)) (frame : Frame3 K) (primitives : List (Prim K))

/-- core.py:171: `initial_frame == primitive`. -/
def Prim.isFrame : Prim K → Frame3 K → Bool
  | .frame f, g => decide (f = g)
  | _, _ => false

mutual
/-- `frame_mapping` of a primitive: core.py:1232-1240 for a compound, 1083-1091 (with the constructor, 1025-1033) for an assembly. -/
def Prim.frameMapping (g : Frame3 K) (s : Side) : Prim K → Except PyErr (Prim K)
  | .point p => (mapPoint g s p).map .point
  | .frame f => (mapFrame g s f).map .frame
  | .curve ps => (ps.mapM (mapPoint g s)).map .curve
  | .shell ps => (ps.mapM (mapPoint g s)).map .shell
  | .compound l => (mapAll g s l).map .compound
  | .assembly cs ps f _ =>
    match ps.mapM (mapFrame g s) with
    | .error e => .error e
    | .ok ps' => (placeAll f cs ps').map fun l => .assembly cs ps' f l
/-- The list comprehension of core.py:1238-1239, 1405-1406. -/
def mapAll (g : Frame3 K) (s : Side) : List (Prim K) → Except PyErr (List (Prim K))
  | [] => .ok []
  | p :: l => match Prim.frameMapping g s p, mapAll g s l with
    | .ok q, .ok r => .ok (q :: r)
    | .error e, _ => .error e
    | .ok _, .error e => .error e
/-- core.py:153-179 `map_primitive_with_initial_and_final_frames`, for the pairs of core.py:1030-1031. -/
def placeAll (frame : Frame3 K) : List (Prim K) → List (Frame3 K) → Except PyErr (List (Prim K))
  | c :: cs, p :: ps =>
    let placed : Except PyErr (Prim K) :=
      if frame = p then .ok c
      else if c.isFrame frame then .ok (.frame p)
      else match placementFrame frame p with
        | .error e => .error e
        | .ok g => if g = oxyz then .ok c else Prim.frameMapping g .old c
    match placed, placeAll frame cs ps with
    | .ok q, .ok r => .ok (q :: r)
    | .error e, _ => .error e
    | .ok _, .error e => .error e
  | _, _ => .ok []
end

/-- core.py:1025-1033 `Assembly.__init__`. -/
def Prim.newAssembly (components : List (Prim K)) (positions : List (Frame3 K)) (frame : Frame3 K) : Except PyErr (Prim K) :=
  (placeAll frame components positions).map fun l => .assembly components positions frame l

mutual
/-- core.py:2157-2162 `unpack_assembly` on one primitive (`get_shells` does the same at the top, 2164-2168). -/
def Prim.unpack : Prim K → List (Prim K)
  | .compound l => unpackAll l
  | .assembly _ _ _ l => unpackAll l
  | .shell ps => [.shell ps]
  | .point _ => []
  | .frame _ => []
  | .curve _ => []
/-- core.py:2158: the loop over `primitives`. -/
def unpackAll : List (Prim K) → List (Prim K)
  | [] => []
  | p :: l => p.unpack ++ unpackAll l
end

/-- core.py:1320-1325 `VolumeModel`: its primitives. -/
structure VolumeModel (K : Type*) where
  primitives : List (Prim K)

namespace VolumeModel
/-- core.py:2147-2170 `get_shells`. -/
def getShells (m : VolumeModel K) : List (Prim K) := unpackAll m.primitives
/-- core.py:1399-1407 `frame_mapping`. -/
def frameMapping (m : VolumeModel K) (g : Frame3 K) (s : Side) : Except PyErr (VolumeModel K) := (mapAll g s m.primitives).map VolumeModel.mk
end VolumeModel

/-- `translation` of a primitive; `none` is `AttributeError`: `Assembly` and `Compound` define neither `translation` nor `rotation`. -/
def Prim.translation (offset : V3 K) : Prim K → Option (Prim K)
  | .point p => some (.point (p + offset))
  | .frame f => some (.frame ⟨f.origin + offset, f.basis⟩)
  | .curve ps => some (.curve (ps.map fun p : V3 K => p + offset))
  | .shell ps => some (.shell (ps.map fun p : V3 K => p + offset))
  | .compound _ => none
  | .assembly _ _ _ _ => none

/-- core.py:1388-1397 `VolumeModel.translation`. -/
def VolumeModel.translation (m : VolumeModel K) (offset : V3 K) : Option (VolumeModel K) :=
  (m.primitives.mapM fun p : Prim K => p.translation offset).map VolumeModel.mk

/-! ## Bounding boxes -/

/-- The list of boxes computed one after the other, stopping at the first exception. -/
def sequence {α : Type*} : List (Except PyErr α) → Except PyErr (List α)
  | [] => .ok []
  | .error e :: _ => .error e
  | .ok a :: l => (sequence l).map (a :: ·)

/-- core.py:707-722: the coordinates of an object, when it is a point. -/
def Prim.asPoint : Prim K → Option (V3 K)
  | .point q => some q
  | _ => none

/-- core.py:707-722 `BoundingBox.from_points` of objects that should be points: reading the attribute `x` of anything but a point raises. -/
def boxOfPoints (l : List (Prim K)) : Except PyErr (Box3 K) :=
  match l.mapM Prim.asPoint with
  | some ps => Box3.fromPoints ps
  | none => .error .typeError

/-- core.py:1359: `BoundingBox.from_bounding_boxes` of boxes that may raise. -/
def boxesBox (bs : List (Except PyErr (Box3 K))) : Except PyErr (Box3 K) :=
  match sequence bs with
  | .ok bs => Box3.fromBoundingBoxes bs
  | .error e => .error e

/-- core.py:1053-1056, 1227-1230: the boxes of the primitives that have one, or else the box of the primitives taken as points. -/
def groupBox (l : List (Prim K)) (bs : List (Except PyErr (Box3 K))) : Except PyErr (Box3 K) :=
  if bs.isEmpty then boxOfPoints l else boxesBox bs

mutual
/-- `bounding_box` of a primitive: core.py:1049-1056 (`Assembly`), 1223-1230 (`Compound`); `none` for points and frames, which have no such attribute. -/
def Prim.boundingBox : Prim K → Option (Except PyErr (Box3 K))
  | .point _ => none
  | .frame _ => none
  | .curve ps => some (Box3.fromPoints ps)
  | .shell ps => some (Box3.fromPoints ps)
  | .compound l => some (groupBox l (boxes l))
  | .assembly _ _ _ l => some (groupBox l (boxes l))
/-- core.py:1053, 1227, 1359: `[p.bounding_box for p in primitives if hasattr(p, "bounding_box")]`. -/
def boxes : List (Prim K) → List (Except PyErr (Box3 K))
  | [] => []
  | p :: l => match p.boundingBox with
    | some b => b :: boxes l
    | none => boxes l
end

/-- core.py:1355-1359 `VolumeModel._bounding_box`. -/
def VolumeModel.boundingBox (m : VolumeModel K) : Except PyErr (Box3 K) :=
  boxesBox (boxes m.primitives)

/-! ## Meshes and display data -/

/-- core.py:1551-1557 `to_mesh3d`, from the triangulations of the primitives; the first index of an empty list raises. -/
def toMesh3d : List (Mesh K) → Except PyErr (Mesh K)
  | [] => .error .indexError
  | m :: l => .ok (l.foldl (fun acc t => acc.merge t true true) m)

/-- core.py:288-298 and shells.py:837-853: a babylon mesh: positions, and the meshes of the faces when they are not merged. -/
inductive BMesh (K : Type*) where
  | mk (positions : List (V3 K)) (primitivesMeshes : List (BMesh K))

mutual
/-- core.py:220-228 `_extract_positions`. -/
def BMesh.extract : BMesh K → List (V3 K)
  | .mk ps l => extractAll l ++ ps
/-- core.py:224-225: the loop over `primitives_meshes`. -/
def extractAll : List (BMesh K) → List (V3 K)
  | [] => []
  | m :: l => m.extract ++ extractAll l
end

/-- The numbers that `helper_babylon_data` adds. -/
structure Display (K : Type*) where
  maxLength : K
  center : V3 K

/-- core.py:182-217 `helper_babylon_data`: meshes, points of the lines, isolated points.  `min` of an empty array raises. -/
def helperBabylonData (meshes : List (BMesh K)) (lines : List (List (V3 K))) (displayPoints : List (V3 K)) : Except PyErr (Display K) :=
  let allPoints := lines.flatMap (fun l : List (V3 K) => l) ++ displayPoints
  match extractAll meshes ++ allPoints with
  | [] => .error .valueError
  | p :: l =>
    let lo : V3 K := ⟨listMin p.x (l.map V3.x), listMin p.y (l.map V3.y), listMin p.z (l.map V3.z)⟩
    let hi : V3 K := ⟨listMax p.x (l.map V3.x), listMax p.y (l.map V3.y), listMax p.z (l.map V3.z)⟩
    .ok ⟨max (max (hi.x - lo.x) (hi.y - lo.y)) (hi.z - lo.z), V3.smul (1 / 2) (lo + hi)⟩

/-! ## Moving volume models -/

/-- core.py:2179-2191 `MovingVolumeModel`: the constructor refuses steps with another number of frames. -/
structure Moving (K : Type*) where
  primitives : List (Prim K)
  stepFrames : List (List (Frame3 K))

/-- core.py:2179-2191 (`ConsistencyError` is written `valueError`). -/
def Moving.new (primitives : List (Prim K)) (stepFrames : List (List (Frame3 K))) : Except PyErr (Moving K) :=
  if stepFrames.all fun fs : List (Frame3 K) => fs.length == primitives.length then .ok ⟨primitives, stepFrames⟩ else .error .valueError

/-- The loop of core.py:2198-2200: `zip` of the primitives and the frames. -/
def mapZip : List (Prim K) → List (Frame3 K) → Except PyErr (List (Prim K))
  | p :: ps, f :: fs => match p.frameMapping f .old, mapZip ps fs with
    | .ok q, .ok r => .ok (q :: r)
    | .error e, _ => .error e
    | .ok _, .error e => .error e
  | _, _ => .ok []

/-- core.py:2193-2201 `step_volume_model`, for a step number that is not negative. -/
def Moving.stepVolumeModel (m : Moving K) (i : ℕ) : Except PyErr (VolumeModel K) :=
  match m.stepFrames[i]? with
  | none => .error .indexError
  | some fs => (mapZip m.primitives fs).map VolumeModel.mk

/-- core.py:2209-2214: the meshes, and for each primitive with `babylon_meshes` its number.  `meshes i` is what `babylon_meshes` returns for the `i`th
primitive (`none` when it has no such method). -/
def movingMeshes {M : Type*} (meshes : List (Option (List M))) : List M × List ℕ :=
  ((meshes.map fun o : Option (List M) => o.getD []).flatten,
   (List.range meshes.length).filter fun i => ((meshes.getD i none).isSome))

/-- core.py:2236-2246: for one step, the entries `(imesh, frame)`. -/
def movingStep {M : Type*} (meshes : List (Option (List M))) (frames : List (Frame3 K)) : List (ℕ × Frame3 K) :=
  (frames.zipIdx.filter fun fi : Frame3 K × ℕ => decide (fi.2 ∈ (movingMeshes meshes).2)).map fun fi : Frame3 K × ℕ =>
    ((movingMeshes meshes).2.idxOf fi.2, fi.1)

/-! ## Equality -/

/-- core.py:1330-1339 `VolumeModel.__eq__`, for objects of classes named `c` and `d`, from the equality of primitives. -/
def modelEq {P : Type*} (eq : P → P → Bool) (c d : String) (l r : List P) : Bool :=
  if c ≠ d then false
  else if l.length ≠ r.length then false
  else (l.zip r).foldl (fun equ pq => equ && eq pq.1 pq.2) true

/-- core.py:1327-1328 `VolumeModel.__hash__`. -/
def modelHash {P : Type*} (hash : P → ℤ) (l : List P) : ℤ := (l.map hash).sum

/-- core.py:1361-1371 `VolumeModel.volume`. -/
def modelVolume {P : Type*} (volume : P → K) (l : List P) : K := l.foldl (fun acc p => acc + volume p) 0

end Volmdlr.Scene
