import Mathlib.Data.List.Nodup
import Mathlib.Data.Set.Basic

/-!
# Model of the STEP export: identifiers and references

The text written by the `to_step` methods is a list of entities; of an entity only the identifier (`#id = `) and
the identifiers referenced in its arguments are kept.  Geometry only matters through its structure: the kinds of
edges and surfaces and the numbers of control points.  A B-spline with `n + 1` control points is given by `n`
(there is always at least one).
-/

namespace Volmdlr.StepExport

/-- One line `#id = NAME(... #ref ...);` of the DATA section. -/
structure Ent where
  id : ℕ
  refs : List ℕ
deriving DecidableEq

/-- Text written and identifier returned. -/
abbrev W := List Ent × ℕ

/-- core_compiled.pyx:2079-2101 `Point3D.to_step`. -/
def pointW (vertex : Bool) (c : ℕ) : W :=
  let pointId := c + 1
  if vertex then ([⟨pointId, []⟩, ⟨pointId + 1, [pointId]⟩], pointId + 1) else ([⟨pointId, []⟩], pointId)

/-- core_compiled.pyx:1853-1879 `Vector3D.to_step`. -/
def vectorW (vector : Bool) (c : ℕ) : W :=
  let directionId := c + 1
  if vector then ([⟨directionId, []⟩, ⟨directionId + 1, [directionId]⟩], directionId + 1)
  else ([⟨directionId, []⟩], directionId)

/-- core_compiled.pyx:3537-3553 `Frame3D.to_step`. -/
def frameW (c : ℕ) : W :=
  let o := pointW false c
  let w := vectorW false o.2
  let u := vectorW false w.2
  let cur := u.2 + 1
  (o.1 ++ (w.1 ++ u.1) ++ [⟨cur, [o.2, w.2, u.2]⟩], cur)

/-- curves.py:333-341 `Line3D.to_step`. -/
def lineW (c : ℕ) : W :=
  let p := pointW false c
  let u := vectorW true p.2
  (p.1 ++ u.1 ++ [⟨u.2 + 1, [p.2, u.2]⟩], u.2 + 1)

/-- The kinds of 3D edges that have a `to_step` method (an ellipse arc has none). -/
inductive EdgeK where
  | lineSegment
  | arc
  | fullArc
  | bspline (n : ℕ)
deriving DecidableEq

/-- edges.py:5092-5100: the loop over the control points, each written at `point_id` and `point_id` then
increased; returns text, point identifiers and `point_id`. -/
def ctrlPts : ℕ → ℕ → List Ent × List ℕ × ℕ
  | 0, c => ([], [], c)
  | n + 1, c =>
    let p := pointW false c
    let r := ctrlPts n (p.2 + 1)
    (p.1 ++ r.1, p.2 :: r.2.1, r.2.2)

/-- edges.py:797-808 `LineSegment3D.to_step`; 5955-5974 `Arc3D.to_step`; 6140-6158 `FullArc3D.to_step`;
5090-5133 `BSplineCurve3D.to_step` without `curve2d` (no caller gives one). -/
def edgeW : EdgeK → ℕ → W
  | .lineSegment, c =>
    let line := lineW c
    let start := pointW true line.2
    let stop := pointW true start.2
    let cur := stop.2 + 1
    (line.1 ++ (start.1 ++ stop.1) ++ [⟨cur, [start.2, stop.2, line.2]⟩], cur)
  | .arc, c =>
    let frame := frameW c
    let curveId := frame.2 + 1
    let start := pointW true curveId
    let stop := pointW true start.2
    let cur := stop.2 + 1
    (frame.1 ++ [⟨curveId, [frame.2]⟩] ++ (start.1 ++ stop.1) ++ [⟨cur, [start.2, stop.2, curveId]⟩], cur)
  | .fullArc, c =>
    let frame := frameW c
    let curveId := frame.2 + 1
    let p1 := pointW true curveId
    let edgeCurve := p1.2 + 1
    (frame.1 ++ [⟨curveId, [frame.2]⟩] ++ p1.1 ++ [⟨edgeCurve, [p1.2, p1.2, curveId]⟩], edgeCurve)
  | .bspline n, c =>
    let pts := ctrlPts (n + 1) c
    let curveId := pts.2.2
    let start := pointW true (curveId + 1)
    let stop := pointW true (start.2 + 1 + 1)
    let cur := stop.2 + 1
    (pts.1 ++ [⟨curveId, pts.2.1⟩] ++ (start.1 ++ stop.1) ++ [⟨cur, [start.2, stop.2, curveId]⟩], cur)

/-- wires.py:4270-4277: the loop over the edges of a contour; text, identifiers of the oriented edges, last id. -/
def contourLoop : List EdgeK → ℕ → List Ent × List ℕ × ℕ
  | [], c => ([], [], c)
  | e :: es, c =>
    let p := edgeW e c
    let cur := p.2 + 1
    let r := contourLoop es cur
    (p.1 ++ [⟨cur, [p.2]⟩] ++ r.1, cur :: r.2.1, r.2.2)

/-- wires.py:4259-4281 `Contour3D.to_step`. -/
def contourW (es : List EdgeK) (c : ℕ) : W :=
  let r := contourLoop es c
  (r.1 ++ [⟨r.2.2 + 1, r.2.1⟩], r.2.2 + 1)

/-- The surfaces: those given by a frame (plane, cylinder, torus, cone, sphere), extrusion, revolution and
B-spline surface. -/
inductive SurfaceK where
  | framed
  | extrusion (edge : EdgeK)
  | revolution (edge : EdgeK)
  | bspline (n : ℕ)
deriving DecidableEq

/-- surfaces.py:1368-1380 (plane), 2538-2550, 3178-3191, 4176-4188, 4945-4957 (by a frame), 6077-6087 (extrusion),
6500-6514 (revolution), 8451-8474 (B-spline): the list of identifiers they return always has one element. -/
def surfaceW : SurfaceK → ℕ → W
  | .framed, c =>
    let f := frameW c
    (f.1 ++ [⟨f.2 + 1, [f.2]⟩], f.2 + 1)
  | .extrusion e, c =>
    let w := edgeW e c
    let v := vectorW false (w.2 + 1)
    let cur := v.2 + 1
    (w.1 ++ v.1 ++ [⟨cur, [w.2, v.2]⟩], cur)
  | .revolution e, c =>
    let w := edgeW e c
    let p := pointW false (w.2 + 1)
    let a := vectorW false (p.2 + 1)
    let cur := a.2 + 1
    (w.1 ++ p.1 ++ a.1 ++ [⟨cur, [p.2, a.2]⟩] ++ [⟨cur + 1, [w.2, cur]⟩], cur + 1)
  | .bspline n, c =>
    let pts := ctrlPts (n + 1) c
    (pts.1 ++ [⟨pts.2.2, pts.2.1⟩], pts.2.2)

/-- A face: surface, outer contour, inner contours. -/
structure FaceK where
  surface : SurfaceK
  outer : List EdgeK
  inner : List (List EdgeK)

/-- faces.py:353-361: the loop over the inner contours; text, identifiers of the bounds, `current_id`. -/
def innerLoop : List (List EdgeK) → ℕ → List Ent × List ℕ × ℕ
  | [], c => ([], [], c)
  | k :: ks, c =>
    let w := contourW k c
    let bound := w.2 + 1
    let r := innerLoop ks (bound + 1)
    (w.1 ++ [⟨bound, [w.2]⟩] ++ r.1, bound :: r.2.1, r.2.2)

/-- faces.py:340-368 `Face3D.to_step`. -/
def faceW (f : FaceK) (c : ℕ) : W :=
  let s := surfaceW f.surface c
  let o := contourW f.outer s.2
  let r := innerLoop f.inner (o.2 + 2)
  (s.1 ++ o.1 ++ [⟨o.2 + 1, [o.2]⟩] ++ r.1 ++ [⟨r.2.2, (o.2 + 1) :: r.2.1 ++ [s.2]⟩], r.2.2)

/-- shells.py:340-348, 384-392: the loop over the faces; text, face identifiers, `current_id`. -/
def facesLoop : List FaceK → ℕ → List Ent × List ℕ × ℕ
  | [], c => ([], [], c)
  | f :: fs, c =>
    let w := faceW f c
    let r := facesLoop fs w.2
    (w.1 ++ r.1, w.2 :: r.2.1, r.2.2)

/-- shells.py:332-361 `Shell3D.to_step`. -/
def shellW (faces : List FaceK) (c : ℕ) : W :=
  let r := facesLoop faces c
  let shellId := r.2.2 + 1
  let manifoldId := shellId + 1
  (r.1 ++ [⟨shellId, r.2.1⟩] ++ [⟨manifoldId, [shellId]⟩], manifoldId)

/-- utils/step_writer.py:6-37 `product_writer`. -/
def productW (c : ℕ) : W :=
  let pdc := c + 1
  let pc := pdc + 1
  let p := pc + 1
  let pdf := p + 1
  let pd := pdf + 1
  let pds := pd + 1
  let sdr := pds + 1
  ([⟨pdc, [2]⟩, ⟨pc, [2]⟩, ⟨p, [pc]⟩, ⟨pdf, [p]⟩, ⟨pd, [pdf, pdc]⟩, ⟨pds, [pd]⟩, ⟨sdr, [pds, sdr + 1]⟩], sdr)

/-- utils/step_writer.py:40-64 `geometric_context_writer`. -/
def contextW (c : ℕ) : W :=
  let l := c + 1
  let a := l + 1
  let s := a + 1
  let u := s + 1
  let g := u + 1
  ([⟨l, []⟩, ⟨a, []⟩, ⟨s, []⟩, ⟨u, [l]⟩, ⟨g, [u, l, a, s]⟩], g)

/-- utils/step_writer.py:67-91 `assembly_definition_writer`. -/
def assemblyDefW (c : ℕ) (assembly component : ℕ × ℕ) (assemblyFrame componentFrame : ℕ) : W :=
  let cd := c + 1
  let rr := cd + 1
  let idt := rr + 1
  let pds := idt + 1
  let nauo := pds + 1
  ([⟨cd, [rr, pds]⟩, ⟨rr, [component.1, assembly.1, idt]⟩, ⟨idt, [assemblyFrame, componentFrame]⟩, ⟨pds, [nauo]⟩,
    ⟨nauo, [assembly.2, component.2]⟩], nauo)

/-- shells.py:441-445: one `STYLED_ITEM` per face of an open shell. -/
def styledLoop (pres : ℕ) : List ℕ → ℕ → List Ent
  | [], _ => []
  | f :: fs, c => ⟨c, [pres, f]⟩ :: styledLoop pres fs (c + 1)

/-- shells.py:363-463 `Shell3D.to_step_product`; `isOpen` is whether the class is `OpenShell3D`.  Text, last
identifier, and the pair returned (shape representation, product definition). -/
def shellProductW (isOpen : Bool) (faces : List FaceK) (c : ℕ) : List Ent × ℕ × (ℕ × ℕ) :=
  let prod := productW c
  let sdr := prod.2
  let brep := sdr + 1
  let productId := sdr - 4
  let productDefinitionId := sdr - 2
  let frame := frameW brep
  let manifold := frame.2 + 1
  let shell := manifold + 1
  let fl := facesLoop faces shell
  let ctx := contextW fl.2.2
  let prpc := ctx.2 + 1
  let dr := prpc + 1
  let col := dr + 1
  let cs := col + 1
  let fac := cs + 1
  let fas := fac + 1
  let ssf := fas + 1
  let sss := ssf + 1
  let ssu := sss + 1
  let ps := ssu + 1
  let si := ps + 1
  let styled : W := if isOpen then (styledLoop ps fl.2.1 si, si + fl.2.1.length - 1) else ([⟨si, [ps, manifold]⟩], si)
  let mech := styled.2 + 1
  (prod.1 ++ [⟨brep, [frame.2, manifold, ctx.2]⟩] ++ frame.1 ++ [⟨manifold, [shell]⟩] ++ [⟨shell, fl.2.1⟩] ++ fl.1 ++
    ctx.1 ++ [⟨prpc, [productId]⟩, ⟨dr, []⟩, ⟨col, []⟩, ⟨cs, [dr, col]⟩, ⟨fac, [col]⟩, ⟨fas, [fac]⟩, ⟨ssf, [fas]⟩,
      ⟨sss, [ssf]⟩, ⟨ssu, [sss]⟩, ⟨ps, [ssu, cs]⟩] ++ styled.1 ++ [⟨mech, [styled.2, ctx.2]⟩],
    mech, (brep, productDefinitionId))

/-- core.py:1284-1288: the loop over the shells of a compound. -/
def compoundLoop : List (List FaceK) → ℕ → List Ent × List ℕ × ℕ
  | [], c => ([], [], c)
  | s :: ss, c =>
    let w := shellW s c
    let r := compoundLoop ss w.2
    (w.1 ++ r.1, w.2 :: r.2.1, r.2.2)

/-- core.py:1271-1299 `Compound.to_step` (primitives that are not shells are skipped by the code, so only the shells
are kept). -/
def compoundW (shells : List (List FaceK)) (c : ℕ) : List Ent × ℕ × (ℕ × ℕ) :=
  let prod := productW c
  let pd := prod.2 - 2
  let brep := prod.2 + 1
  let frame := frameW brep
  let r := compoundLoop shells frame.2
  let ctx := contextW r.2.2
  (prod.1 ++ [⟨brep, r.2.1 ++ [ctx.2]⟩] ++ frame.1 ++ r.1 ++ ctx.1, ctx.2, (brep, pd))

/-- core.py:1157-1160: the loop over the frames of an assembly. -/
def framesLoop : ℕ → ℕ → List Ent × List ℕ × ℕ
  | 0, c => ([], [], c)
  | n + 1, c =>
    let w := frameW (c + 1)
    let r := framesLoop n w.2
    (w.1 ++ r.1, w.2 :: r.2.1, r.2.2)

/-- core.py:1145-1172 `Assembly.to_step_product` of an assembly with `n` components. -/
def assemblyProductW (n : ℕ) (c : ℕ) : List Ent × ℕ × (ℕ × ℕ) × List ℕ :=
  let prod := productW c
  let pd := prod.2 - 2
  let shape := prod.2 + 1
  let fr := framesLoop (n + 1) shape
  let ctx := contextW fr.2.2
  (prod.1 ++ [⟨shape, fr.2.1 ++ [ctx.2]⟩] ++ fr.1 ++ ctx.1, ctx.2, (shape, pd), fr.2.1)

/-- What a volume model or an assembly can contain. -/
inductive PrimK where
  | shell (isOpen : Bool) (faces : List FaceK)
  | compound (shells : List (List FaceK))
  | assembly (components : List PrimK)

/-- core.py:1107-1123: the text of a component that has no `to_step_product` or whose class is not a shell is appended
once at line 1117 and once more at line 1123; that of a shell only at line 1123. -/
def extraCopy : PrimK → List Ent → List Ent
  | .shell _ _, _ => []
  | .compound _, es => es
  | .assembly _, es => es

mutual
/-- core.py:1097-1126 `Assembly.to_step` and the choice between `to_step_product` and `to_step` made at
core.py:1107 and 1600: text, last id, (shape representation, product definition).  The Boolean in the loop below
is this choice; the else-branch of `Assembly.to_step` writes the text of the component twice (core.py:1117, 1123). -/
def primW : PrimK → ℕ → List Ent × ℕ × (ℕ × ℕ)
  | .shell o fs, c => shellProductW o fs c
  | .compound ss, c => compoundW ss c
  | .assembly comps, c =>
    let p := assemblyProductW comps.length c
    let r := componentsLoop comps p.2.2.1 p.2.2.2 0 p.2.1
    (p.1 ++ r.1, r.2, p.2.2.1)

/-- core.py:1106-1124: the loop over the components. -/
def componentsLoop : List PrimK → ℕ × ℕ → List ℕ → ℕ → ℕ → W
  | [], _, _, _, c => ([], c)
  | p :: ps, data, frames, i, c =>
    let w := primW p c
    let a := assemblyDefW w.2.1 data w.2.2 (frames.getD 0 0) (frames.getD (i + 1) 0)
    let r := componentsLoop ps data frames (i + 1) a.2
    (extraCopy p w.1 ++ w.1 ++ a.1 ++ r.1, r.2)
end

/-- core.py:1596-1606: the loop over the primitives of the model. -/
def modelLoop : List PrimK → ℕ → List Ent
  | [], _ => []
  | p :: ps, c =>
    let w := primW p c
    w.1 ++ modelLoop ps w.2.1

/-- core.py:1588-1610 `VolumeModel.to_step_stream`, with the two entities of `STEP_HEADER`
(utils/step_writer.py:112-113). -/
def toStep (primitives : List PrimK) : List Ent := [⟨1, [2]⟩, ⟨2, []⟩] ++ modelLoop primitives 2

end Volmdlr.StepExport
