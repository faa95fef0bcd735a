import Verif.Frame.Model
import Mathlib.Data.List.Dedup
import Mathlib.Logic.Function.Basic

/-!
# Model of the graphs of a shell (`shells.py`): vertices, graph of the faces, bridges, open shells, shells made from faces
-/

namespace Volmdlr.Topo

/-- What the graphs use of points and edges: `start`, `end`, `is_close`, `is_primitive_section_over_wire` (the edge, the primitives of
the contour) and `point_over_contour`. -/
structure Kit (P E : Type*) where
  start : E → P
  fin : E → P
  close : P → P → Bool
  over : E → List E → Bool
  pointOver : P → List E → Bool

/-- A face is its outer contour and its inner contours, lists of primitives. -/
structure Face (E : Type*) where
  outer : List E
  inner : List (List E)

section
variable {P E : Type*}

/-- `[face.outer_contour3d] + face.inner_contours3d`. -/
def Face.contours (f : Face E) : List (List E) := f.outer :: f.inner

/-- The primitives of all the contours (shells.py:248-250, 1029-1030). -/
def Face.edges (f : Face E) : List E := f.contours.flatten

/-- shells.py:153-156: a point is added when it is not in the list. -/
def addPoint (kit : Kit P E) (points : List P) (p : P) : List P :=
  if points.any fun q : P => kit.close q p then points else points ++ [p]

/-- shells.py:147-157 `_helper_getter_vertices_points`. -/
def verticesPoints (kit : Kit P E) (faces : List (Face E)) : List P :=
  (faces.flatMap Face.edges).foldl (fun (points : List P) (e : E) => addPoint kit (addPoint kit points (kit.start e)) (kit.fin e)) []

/-- core.py:81-106 `get_point_index_in_list`; the length of the list stands for `None`. -/
def indexIn (kit : Kit P E) (p : P) (points : List P) : ℕ := points.findIdx fun q : P => kit.close q p

/-- A graph of networkx by the calls of `add_edge`. -/
abbrev Graph := List (ℕ × ℕ)

/-- `j in graph.neighbors(i)`. -/
def Graph.Adj (g : Graph) (i j : ℕ) : Prop := (i, j) ∈ g ∨ (j, i) ∈ g

/-- `graph.neighbors(i)`. -/
def Graph.neighbors (g : Graph) (i : ℕ) : List ℕ :=
  (g.flatMap fun e : ℕ × ℕ => (if e.1 = i then [e.2] else []) ++ (if e.2 = i then [e.1] else [])).dedup

/-- `graph.nodes`: the nodes exist by their edges only. -/
def Graph.nodes (g : Graph) : List ℕ := (g.flatMap fun e : ℕ × ℕ => [e.1, e.2]).dedup

/-- shells.py:245-254, `face_vertices[i]`: the indices of the starts of the edges of a face. -/
def faceVertices (kit : Kit P E) (points : List P) (f : Face E) : List ℕ :=
  (f.edges.map fun e : E => indexIn kit (kit.start e) points).dedup

/-- shells.py:244, 253, `vertice_faces` as it is built: for an index, the faces with it. -/
def vertexFaces (fv : List (List ℕ)) (v : ℕ) : List ℕ :=
  (List.range fv.length).filter fun i : ℕ => decide (v ∈ fv.getD i [])

/-- shells.py:258-262: the vertices of the face `i`; the set of the faces of each vertex loses `i` (`discard` changes the dictionary). -/
def linkVertices (i : ℕ) (vs : List ℕ) (st : Graph × (ℕ → List ℕ)) : Graph × (ℕ → List ℕ) :=
  vs.foldl (fun (st : Graph × (ℕ → List ℕ)) (v : ℕ) =>
    let connected := (st.2 v).filter fun j : ℕ => decide (j ≠ i)
    (st.1 ++ connected.map fun j : ℕ => (i, j), Function.update st.2 v connected)) st

/-- shells.py:256-262, the loop over the faces from the index `i`; a face with no edge has no entry in `face_vertices`. -/
def linkFaces : ℕ → List (List ℕ) → Graph × (ℕ → List ℕ) → Except PyErr Graph
  | _, [], st => .ok st.1
  | i, vs :: rest, st => if vs.isEmpty then .error .keyError else linkFaces (i + 1) rest (linkVertices i vs st)

/-- shells.py:239-263 `_helper_create_faces_graph`, without the bridges. -/
def facesGraph (kit : Kit P E) (faces : List (Face E)) (points : List P) : Except PyErr Graph :=
  let fv := faces.map (faceVertices kit points)
  linkFaces 0 fv ([], vertexFaces fv)

/-! ## Bridges -/

/-- shells.py:211-220 `check_faces`: a vertex of the other face is over a contour of the face. -/
def checkFaces (kit : Kit P E) (points : List P) (fv : List (List ℕ)) (face : Face E) (other : ℕ) : Bool :=
  (fv.getD other []).any fun v : ℕ =>
    match points[v]? with
    | some p => face.contours.any fun c : List E => kit.pointOver p c
    | none => false

/-- shells.py:227-235: the loop over the faces of another group; the state is the graph and `found`. -/
def bridgeGroup (check : ℕ → ℕ → Bool) (i : ℕ) : List ℕ → Graph × Bool → Graph × Bool
  | [], st => st
  | j :: rest, st =>
    let st' :=
      if check i j then
        let g := st.1 ++ [(i, j)]
        (g ++ ((g.neighbors j).filter fun k : ℕ => check i k).map fun k : ℕ => (i, k), true)
      else st
    if st'.2 then st' else bridgeGroup check i rest st'

/-- shells.py:222-236, the stack of groups. -/
def searchBridges (check : ℕ → ℕ → Bool) : List (List ℕ) → Graph × Bool → Graph × Bool
  | [], st => st
  | group :: stack, st =>
    searchBridges check stack (group.foldl (fun (st : Graph × Bool) (i : ℕ) =>
      stack.foldl (fun (st : Graph × Bool) (other : List ℕ) => bridgeGroup check i other st) st) st)

/-- shells.py:239-268 `_helper_create_faces_graph` with `verify_connected_components`; `components` is `nx.connected_components`. -/
def facesGraphBridged (kit : Kit P E) (components : Graph → List (List ℕ)) (faces : List (Face E)) (points : List P) : Except PyErr Graph :=
  (facesGraph kit faces points).map fun g : Graph =>
    if (components g).length > 1 then
      (searchBridges (fun i j : ℕ =>
        match faces[i]? with
        | some f => checkFaces kit points (faces.map (faceVertices kit points)) f j
        | none => false) (components g) (g, false)).1
    else g

/-! ## Open shells, shells from faces -/

/-- shells.py:1015-1020 `is_primitive_on_neighbor_face`. -/
def onNeighbor (kit : Kit P E) (prim : E) (neighbor : Face E) : Bool := neighbor.contours.any fun c : List E => kit.over prim c

/-- shells.py:1022-1034, of a graph with the given nodes. -/
def isShellOpenGraph (kit : Kit P E) (faces : List (Face E)) (nodes : List ℕ) (g : Graph) : Bool :=
  nodes.any fun n : ℕ =>
    match faces[n]? with
    | none => false
    | some face => face.edges.any fun prim : E =>
        !(g.neighbors n).any fun m : ℕ => match faces[m]? with
          | none => false
          | some neighbor => onNeighbor kit prim neighbor

/-- shells.py:1009-1034 `is_shell_open` of a list of faces. -/
def isShellOpen (kit : Kit P E) (faces : List (Face E)) : Except PyErr Bool :=
  (facesGraph kit faces (verticesPoints kit faces)).map fun g : Graph => isShellOpenGraph kit faces g.nodes g

/-- shells.py:1037-1053 `from_faces`: for each shell, whether it is an `OpenShell3D`, and the indices of its faces. -/
def fromFaces (kit : Kit P E) (components : Graph → List (List ℕ)) (faces : List (Face E)) : Except PyErr (List (Bool × List ℕ)) :=
  (facesGraph kit faces (verticesPoints kit faces)).map fun g : Graph =>
    (components g).map fun c : List ℕ =>
      (isShellOpenGraph kit faces c (g.filter fun e : ℕ × ℕ => decide (e.1 ∈ c ∧ e.2 ∈ c)), c)

end

/-! ## The graphs kept by a shell -/

/-- shells.py:114-115: the graphs kept; `G` are the graphs of faces and `V` those of vertices. -/
structure ShellObj (G V : Type*) where
  facesGraph : Option G
  verticesGraph : Option V

inductive ShellCall
  | facesGraph (verify : Bool)
  | verticesGraph
  deriving DecidableEq

/-- What a call gives. -/
inductive ShellAnswer (G V : Type*)
  | faces (g : G)
  | vertices (v : Option V)
  deriving DecidableEq

/-- shells.py:166-181 `vertices_graph` and 270-279 `faces_graph`.  `build verify` and `buildVertices` compute the graphs; a graph with no node is
false. -/
def ShellObj.call {G V : Type*} (empty : G → Bool) (build : Bool → G) (buildVertices : V) (s : ShellObj G V) : ShellCall → ShellObj G V × ShellAnswer G V
  | .facesGraph verify =>
    match s.facesGraph with
    | some g => if empty g then ({ s with facesGraph := some (build verify) }, .faces (build verify)) else (s, .faces g)
    | none => ({ s with facesGraph := some (build verify) }, .faces (build verify))
  | .verticesGraph =>
    if (match s.facesGraph with
      | some g => empty g
      | none => true) then ({ s with verticesGraph := some buildVertices }, .vertices (some buildVertices))
    else (s, .vertices s.verticesGraph)

/-- The answers of a series of calls. -/
def ShellObj.run {G V : Type*} (empty : G → Bool) (build : Bool → G) (buildVertices : V) : ShellObj G V → List ShellCall → List (ShellAnswer G V)
  | _, [] => []
  | s, c :: cs => (s.call empty build buildVertices c).2 :: ShellObj.run empty build buildVertices (s.call empty build buildVertices c).1 cs

end Volmdlr.Topo
