import Verif.Fillet.Model

/-!
# gmsh files: reading `.msh`, meshes, `.vtk` (`gmsh_vm.py`)

Lines are read after `strip`.  Except in `readFile` and `physicalNames`, a line is the list of its words (`split()`), and a word is an integer, another number
or another text.
-/

namespace Volmdlr.Gmsh
variable {K : Type*} [Field K] [LinearOrder K]

/-- A word of a line (simplification: two words with the same meaning have the same text). -/
inductive Word (K : Type*) where
  | int (n : ℤ)
  | real (x : K)
  | text (s : String)
  deriving DecidableEq

/-- `int(word)`. -/
def Word.toInt : Word K → Except PyErr ℤ
  | .int n => .ok n
  | _ => .error .valueError

/-- `int(word)` where the code expects a number of lines (simplification: a negative number raises). -/
def Word.toCount : Word K → Except PyErr ℕ
  | .int n => if n < 0 then .error .valueError else .ok n.toNat
  | _ => .error .valueError

/-- `float(word)`. -/
def Word.toFloat : Word K → Except PyErr K
  | .int n => .ok n
  | .real x => .ok x
  | .text _ => .error .valueError

/-- The words of a line. -/
abbrev Line (K : Type*) := List (Word K)

/-- `l[i]`, for `i` not negative. -/
def field {α : Type*} (l : List α) (i : ℕ) : Except PyErr α :=
  match l[i]? with
  | some a => .ok a
  | none => .error .indexError

/-- `int(line[i])`. -/
def intAt (l : Line K) (i : ℕ) : Except PyErr ℤ := (field l i).bind Word.toInt
/-- `int(line[i])`, for a number of lines. -/
def countAt (l : Line K) (i : ℕ) : Except PyErr ℕ := (field l i).bind Word.toCount
/-- `float(line[i])`. -/
def floatAt (l : Line K) (i : ℕ) : Except PyErr K := (field l i).bind Word.toFloat

/-! ## Sections -/

/-- gmsh_vm.py:426-438: the keys of the dictionary. -/
def sectionNames : List String :=
  ["MeshFormat", "PhysicalNames", "Entities", "PartitionedEntities", "Nodes", "Elements", "Periodic", "GhostElements", "Parametrizations", "NodeData",
   "ElementData", "ElementNodeData", "InterpolationScheme"]

/-- How a loop ends: with a result or an exception, or not at all. -/
inductive Ending (α : Type*) where
  | done (r : Except PyErr α)
  | forever

/-- gmsh_vm.py:442-454 `read_file`, on the list of stripped lines; `inside` is the name of the section being read.  After the last line `readline` returns `''`
for ever: this ends the outer loop (line 444), but not the inner one (line 449). -/
def readLoop (inside : Option String) (data : String → List (List Char)) : List (List Char) → Ending (String → List (List Char))
  | [] => match inside with
    | none => .done (.ok data)
    | some _ => .forever
  | line :: rest => match inside with
    | none =>
      if line = [] then .done (.ok data)
      else if line.head? = some '$' then readLoop (some (String.ofList (line.drop 1))) data rest
      else readLoop none data rest
    | some name =>
      if line.take 4 = ['$', 'E', 'n', 'd'] then readLoop none data rest
      else if name ∈ sectionNames then readLoop inside (fun n => if n = name then data n ++ [line] else data n) rest
      else .done (.error .keyError)

/-- gmsh_vm.py:421-456 `read_file`. -/
def readFile (lines : List (List Char)) : Ending (String → List (List Char)) := readLoop none (fun _ => []) lines

/-! ## Nodes -/

/-- gmsh_vm.py:318-321: the coordinates of a line; further words are ignored. -/
def readPoint (l : Line K) : Except PyErr (V3 K) :=
  (floatAt l 0).bind fun x => (floatAt l 1).bind fun y => (floatAt l 2).bind fun z => .ok ⟨x, y, z⟩

/-- gmsh_vm.py:317-321: `n` lines from `step`. -/
def readPoints (lines : List (Line K)) (step n : ℕ) : Except PyErr (List (V3 K)) :=
  (List.range n).mapM fun j => (field lines (step + j)).bind readPoint

/-- `d.setdefault(key, []).append(value)`. -/
def addTo {κ α : Type*} [DecidableEq κ] (d : κ → Option (List α)) (key : κ) (value : α) : κ → Option (List α) :=
  fun k => if k = key then some ((d k).getD [] ++ [value]) else d k

/-- The variables of the loop of `from_file_nodes`. -/
structure NodeState (K : Type*) where
  byDim : Word K → Option (List (List (V3 K)))
  points : List (V3 K)

/-- gmsh_vm.py:305-329: one turn, from the header of a block; the next value of `step`. -/
def nodesTurn (lines : List (Line K)) (step : ℕ) (s : NodeState K) : Except PyErr (ℕ × NodeState K) :=
  (field lines step).bind fun line => (countAt line 3).bind fun n =>
    if n ≠ 0 then
      (field line 0).bind fun dim => (readPoints lines (step + n + 1) n).bind fun ps =>
        .ok (step + n + 1 + n, ⟨addTo s.byDim dim ps, s.points ++ ps⟩)
    else .ok (step + 1, s)

/-- gmsh_vm.py:304-332: the loop; `none` when it has not ended after `fuel` turns. -/
def nodesLoop (lines : List (Line K)) : ℕ → ℕ → NodeState K → Option (Except PyErr (NodeState K))
  | 0, _, _ => none
  | fuel + 1, step, s => match nodesTurn lines step s with
    | .error e => some (.error e)
    | .ok (step', s') => match (field lines 0).bind (fun l : Line K => intAt l 1) with
      | .error e => some (.error e)
      | .ok total => if (s'.points.length : ℤ) = total then some (.ok s') else nodesLoop lines fuel step' s'

/-- A node: `Node2D` or `Node3D`. -/
inductive Node (K : Type*) where
  | d2 (p : V2 K)
  | d3 (p : V3 K)
  deriving DecidableEq

/-- gmsh_vm.py:540-559 `check_2d`. -/
def check2d (l : List (V3 K)) : Bool := l.all fun p : V3 K => decide (p.z = 0)

/-- gmsh_vm.py:562-573 `to_2d`. -/
def to2d (l : List (V3 K)) : List (Node K) := l.map fun p : V3 K => .d2 ⟨p.x, p.y⟩

/-- The dictionary of nodes: `nodes_dim_…` and `all_nodes`. -/
structure Nodes (K : Type*) where
  byDim : Word K → Option (List (List (Node K)))
  all : Option (List (Node K))

/-- gmsh_vm.py:334-344: the end of `from_file_nodes`. -/
def finishNodes (s : NodeState K) : Nodes K :=
  if check2d s.points then
    ⟨fun k => (s.byDim k).map fun v : List (List (V3 K)) => v.map to2d, some (to2d s.points)⟩
  else
    ⟨fun k => (s.byDim k).map fun v : List (List (V3 K)) => v.map fun ps : List (V3 K) => ps.map .d3, some (s.points.map .d3)⟩

/-- gmsh_vm.py:293-344 `from_file_nodes`. -/
def fromFileNodes (fuel : ℕ) (lines : List (Line K)) : Option (Except PyErr (Nodes K)) :=
  if lines = [] then some (.ok ⟨fun _ => none, none⟩)
  else (nodesLoop lines fuel 1 ⟨fun _ => none, []⟩).map fun r : Except PyErr (NodeState K) => r.map finishNodes

/-! ## Elements -/

/-- gmsh_vm.py:118-119: an element: all the words of the line but the first, minus one. -/
def readElement (l : Line K) : Except PyErr (List ℤ) := (l.drop 1).mapM fun w : Word K => w.toInt.map (· - 1)

/-- gmsh_vm.py:116-121: `n` lines from `step`. -/
def readElements (lines : List (Line K)) (step n : ℕ) : Except PyErr (List (List ℤ)) :=
  (List.range n).mapM fun j => (field lines (step + j)).bind readElement

/-- The dictionary of elements: for each type, the list of blocks. -/
abbrev Elements (K : Type*) := Word K → Option (List (List (List ℤ)))

/-- gmsh_vm.py:104-124: one turn; `i` is the variable of the `for` loop, which keeps its last value.  The next values of `step` and `i`. -/
def elementsTurn (lines : List (Line K)) (step : ℕ) (i : Option ℕ) (els : Elements K) : Except PyErr (ℕ × Option ℕ × Elements K) :=
  (field lines step).bind fun line => (countAt line 3).bind fun n =>
    if n ≠ 0 then
      (field line 2).bind fun type => (readElements lines (step + 1) n).bind fun es =>
        .ok (step + n + 1, some (step + n), addTo els type es)
    else match i with
      | none => .error .unboundLocal
      | some i => .ok (i + 1, some i, els)

/-- gmsh_vm.py:102-127: the loop. -/
def elementsLoop (lines : List (Line K)) : ℕ → ℕ → Option ℕ → Elements K → Option (Except PyErr (Elements K))
  | 0, _, _, _ => none
  | fuel + 1, step, i, els => match elementsTurn lines step i els with
    | .error e => some (.error e)
    | .ok (step', i', els') => if step' = lines.length then some (.ok els') else elementsLoop lines fuel step' i' els'

/-- gmsh_vm.py:92-129 `from_file_elements`. -/
def fromFileElements (fuel : ℕ) (lines : List (Line K)) : Option (Except PyErr (Elements K)) :=
  if lines = [] then some (.ok fun _ => none) else elementsLoop lines fuel 1 none fun _ => none

/-! ## Meshes -/

/-- The nodes of an element of `k` nodes: gmsh_vm.py:473-474, 500-503, 526-533.  The constructors of elements are those of C59. -/
def pick (points : List (Node K)) (k : ℕ) (e : List ℤ) : Except PyErr (List (Node K)) :=
  (List.range k).mapM fun i => (field e i).bind fun t => Fillet.pyIndex points t

/-- The common part of the three functions below. -/
def defineMesh (type : ℤ) (k : ℕ) (nodes : Nodes K) (elements : Elements K) : Except PyErr (List (List (List (Node K)))) :=
  match nodes.all with
  | none => .error .keyError
  | some points => match elements (.int type) with
    | none => .error .keyError
    | some groups => groups.mapM fun g : List (List ℤ) => g.mapM fun e : List ℤ => pick points k e

/-- gmsh_vm.py:510-537 `define_triangular_element_mesh`: the nodes of the elements of each group. -/
def defineTriangular (nodes : Nodes K) (elements : Elements K) : Except PyErr (List (List (List (Node K)))) := defineMesh 2 3 nodes elements
/-- gmsh_vm.py:484-508 `define_tetrahedron_element_mesh`. -/
def defineTetrahedron (nodes : Nodes K) (elements : Elements K) : Except PyErr (List (List (List (Node K)))) := defineMesh 4 4 nodes elements
/-- gmsh_vm.py:458-482 `define_quadratic_tetrahedron_element_mesh`. -/
def defineQuadraticTetrahedron (nodes : Nodes K) (elements : Elements K) : Except PyErr (List (List (List (Node K)))) :=
  defineMesh 11 10 nodes elements

/-! ## `.vtk` files -/

/-- gmsh_vm.py:575-591 `get_lines_nodes`: the numbers of each line. -/
def nodeLines (nodes : Nodes K) : Except PyErr (List (List K)) :=
  match nodes.all with
  | none => .error .keyError
  | some [] => .error .indexError
  | some (.d2 p :: l) => .ok ((.d2 p :: l).map fun n : Node K => match n with
    | .d2 q => [q.x, q.y, 0]
    | .d3 q => [q.x, q.y, q.z, 0])
  | some (.d3 p :: l) => .ok ((.d3 p :: l).map fun n : Node K => match n with
    | .d2 q => [q.x, q.y]
    | .d3 q => [q.x, q.y, q.z])

/-- gmsh_vm.py:609-614: type of gmsh, first word, count of numbers. -/
def cellTable : List (ℤ × ℤ × ℕ) := [(1, 2, 3), (2, 3, 4), (4, 4, 5), (8, 3, 4), (9, 6, 7), (11, 10, 11)]

/-- The variables of `get_lines_cells`. -/
structure Cells where
  lines : List (List ℤ)
  cells0 : ℕ
  cells1 : ℕ

/-- gmsh_vm.py:616-627: one type. -/
def addCells (elements : Elements K) (c : Cells) (t : ℤ × ℤ × ℕ) : Cells :=
  match elements (.int t.1) with
  | none => c
  | some groups =>
    let cells := groups.flatten.length
    ⟨c.lines ++ groups.flatten.map (fun e : List ℤ => t.2.1 :: e), c.cells0 + cells, c.cells1 + cells * t.2.2⟩

/-- gmsh_vm.py:593-629 `get_lines_cells`: the numbers of each line and the two counts. -/
def cellLines (nodes : Nodes K) (elements : Elements K) : Except PyErr Cells :=
  match nodes.byDim (.int 0) with
  | none => .error .keyError
  | some d =>
    .ok (cellTable.foldl (addCells elements) ⟨(List.range d.length).map fun i : ℕ => [1, (i : ℤ)], d.length, d.length * 2⟩)

/-- gmsh_vm.py:642-647. -/
def typeTable : List (ℤ × ℕ) := [(1, 3), (2, 5), (4, 10), (8, 21), (9, 22), (11, 24)]

/-- gmsh_vm.py:649-656: one type. -/
def addTypes (elements : Elements K) (l : List ℕ) (t : ℤ × ℕ) : List ℕ :=
  match elements (.int t.1) with
  | none => l
  | some groups => l ++ List.replicate (groups.foldl (fun count (g : List (List ℤ)) => count + g.length) 0) t.2

/-- gmsh_vm.py:631-658 `get_lines_cells_type`. -/
def typeLines (nodes : Nodes K) (elements : Elements K) : Except PyErr (List ℕ) :=
  match nodes.byDim (.int 0) with
  | none => .error .keyError
  | some d => .ok (typeTable.foldl (addTypes elements) (List.replicate d.length 1))

/-! ## Physical names -/

/-- `line.split()[0]`, for a stripped line. -/
def firstWord (l : List Char) : Except PyErr (List Char) :=
  match l.takeWhile fun c : Char => c ≠ ' ' with
  | [] => .error .indexError
  | w => .ok w

/-- `int(c)` of one character. -/
def digit (c : Char) : Except PyErr ℕ := if c.isDigit then .ok (c.toNat - 48) else .error .valueError

/-- gmsh_vm.py:409-416: one line. -/
def physicalTurn (lines : List (List Char)) (d : List Char → Option (List (ℕ × List Char))) (i : ℕ) :
    Except PyErr (List Char → Option (List (ℕ × List Char))) :=
  (field lines i).bind fun line => (firstWord line).bind fun dim =>
    (field lines 1).bind fun first => (field first 0).bind fun c => (digit c).bind fun tag =>
      .ok (addTo d dim (tag, line.dropLast.drop 5))

/-- gmsh_vm.py:399-418 `from_file_physical_names`; `n` is the number in the first line. -/
def physicalNames (n : ℕ) (lines : List (List Char)) : Except PyErr (List Char → Option (List (ℕ × List Char))) :=
  (List.range n).foldlM (fun d i => physicalTurn lines d (i + 1)) fun _ => none

/-! ## Entities -/

/-- A point entity. -/
structure PointEntity (K : Type*) where
  tag : ℤ
  point : V3 K
  numPhysical : ℤ
  physical : Option ℤ

/-- gmsh_vm.py:171-180. -/
def readPointEntity (l : Line K) : Except PyErr (PointEntity K) :=
  (intAt l 0).bind fun tag => (floatAt l 1).bind fun x => (floatAt l 2).bind fun y => (floatAt l 3).bind fun z => (intAt l 4).bind fun n =>
    if n ≠ 0 then (intAt l 5).bind fun p => .ok ⟨tag, ⟨x, y, z⟩, n, some p⟩ else .ok ⟨tag, ⟨x, y, z⟩, n, none⟩

/-- A curve, a surface or a volume. -/
structure Entity (K : Type*) where
  tag : ℤ
  lo : V3 K
  hi : V3 K
  numPhysical : ℤ
  physical : Option ℤ
  numBounding : K
  bounding : List K

/-- gmsh_vm.py:182-201, 204-223, 226-245 (the three are alike, but the number of bounding entities is read with `float` in some places). -/
def readEntity (l : Line K) : Except PyErr (Entity K) :=
  (intAt l 0).bind fun tag => (floatAt l 1).bind fun x => (floatAt l 2).bind fun y => (floatAt l 3).bind fun z =>
    (floatAt l 4).bind fun x' => (floatAt l 5).bind fun y' => (floatAt l 6).bind fun z' => (intAt l 7).bind fun n =>
      if n ≠ 0 then
        (intAt l 8).bind fun p => (floatAt l 9).bind fun k => ((l.drop 10).mapM Word.toFloat).bind fun b =>
          .ok ⟨tag, ⟨x, y, z⟩, ⟨x', y', z'⟩, n, some p, k, b⟩
      else
        (floatAt l 8).bind fun k => ((l.drop 9).mapM Word.toFloat).bind fun b => .ok ⟨tag, ⟨x, y, z⟩, ⟨x', y', z'⟩, n, none, k, b⟩

/-- The dictionary of entities. -/
structure Entities (K : Type*) where
  points : List (PointEntity K)
  curves : List (Entity K)
  surfaces : List (Entity K)
  volumes : List (Entity K)

/-- `n` lines from `start`, read with `f`. -/
def readRange {α : Type*} (f : Line K → Except PyErr α) (lines : List (Line K)) (start n : ℕ) : Except PyErr (List α) :=
  (List.range n).mapM fun j => (field lines (start + j)).bind f

/-- gmsh_vm.py:158-248 `from_file_entities`, for lines that are not empty. -/
def fromFileEntities (lines : List (Line K)) : Except PyErr (Entities K) :=
  (field lines 0).bind fun l => (countAt l 0).bind fun a => (countAt l 1).bind fun b => (countAt l 2).bind fun c => (countAt l 3).bind fun _ =>
    (readRange readPointEntity lines 1 a).bind fun ps => (readRange readEntity lines (a + 1) b).bind fun cs =>
      (readRange readEntity lines (a + b + 1) c).bind fun ss =>
        (readRange readEntity lines (a + b + c + 1) (lines.length - (a + b + c + 1))).bind fun vs => .ok ⟨ps, cs, ss, vs⟩

end Volmdlr.Gmsh
