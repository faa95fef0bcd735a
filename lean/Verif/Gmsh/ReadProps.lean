import Verif.Gmsh.Model
import Mathlib.Tactic.Linarith
import Mathlib.Data.List.GetD

/-!
# Reading `.msh` files (C119-C122)
-/

namespace Volmdlr.Gmsh
set_option linter.unusedSectionVars false
variable {K : Type*} [Field K] [LinearOrder K]

/-! ## C119: sections -/

/-- A part of a file: a section, or a line outside sections. -/
inductive Item where
  | sect (name : String) (lines : List (List Char))
  | other (line : List Char)

/-- The lines of a part: `$Name`, the lines, `$EndName`. -/
def Item.render : Item → List (List Char)
  | .sect n ls => ('$' :: n.toList) :: (ls ++ ['$' :: 'E' :: 'n' :: 'd' :: n.toList])
  | .other l => [l]

/-- A known section none of whose lines looks like an end, or a comment that does not look like a section. -/
def Item.Fine : Item → Prop
  | .sect n ls => n ∈ sectionNames ∧ ∀ l ∈ ls, l.take 4 ≠ ['$', 'E', 'n', 'd']
  | .other l => l ≠ [] ∧ l.head? ≠ some '$'

/-- The lines of the sections of a name, in order. -/
def content (items : List Item) (name : String) : List (List Char) :=
  items.flatMap fun i : Item => match i with
    | .sect n ls => if n = name then ls else []
    | .other _ => []

theorem readLoop_inside (name : String) (hn : name ∈ sectionNames) (rest : List (List Char)) :
    ∀ (ls : List (List Char)) (data : String → List (List Char)), (∀ l ∈ ls, l.take 4 ≠ ['$', 'E', 'n', 'd']) →
      readLoop (some name) data (ls ++ rest) = readLoop (some name) (fun n => data n ++ if name = n then ls else []) rest
  | [], data, _ => by
    congr 1
    funext n
    by_cases h : name = n <;> simp
  | l :: ls, data, h => by
    rw [List.cons_append, readLoop]
    rw [if_neg (h l (.head _)), if_pos hn, readLoop_inside name hn rest ls _ fun l hl => h l (.tail _ hl)]
    congr 1
    funext n
    by_cases h : n = name
    · subst h; simp
    · rw [if_neg h, if_neg (Ne.symm h), if_neg (Ne.symm h)]

theorem readLoop_items (rest : List (List Char)) : ∀ (items : List Item) (data : String → List (List Char)), (∀ i ∈ items, i.Fine) →
    readLoop none data (items.flatMap Item.render ++ rest) = readLoop none (fun n => data n ++ content items n) rest
  | [], data, _ => by simp [content]
  | .sect name ls :: items, data, h => by
    obtain ⟨h1, h2⟩ := h _ (.head _)
    rw [List.flatMap_cons, Item.render, List.cons_append, List.cons_append, readLoop]
    rw [if_neg (by simp), if_pos (by simp), List.append_assoc, List.append_assoc, List.drop_succ_cons, List.drop_zero, String.ofList_toList,
      readLoop_inside name h1 _ ls data h2, List.cons_append, List.nil_append, readLoop]
    rw [if_pos (by simp), readLoop_items rest items _ fun i hi => h i (.tail _ hi)]
    congr 1
    funext n
    simp [content, List.flatMap_cons, List.append_assoc]
  | .other l :: items, data, h => by
    obtain ⟨h1, h2⟩ := h _ (.head _)
    rw [List.flatMap_cons, Item.render, List.cons_append, List.nil_append, List.cons_append, readLoop]
    rw [if_neg h1, if_neg h2, readLoop_items rest items data fun i hi => h i (.tail _ hi)]
    congr 1

/-- **C119** reading a file of known sections, with comments between them: the data of a name are the lines of its sections, in order; everything after the first
empty line outside sections is ignored. -/
theorem C119_sections_partial (items : List Item) (h : ∀ i ∈ items, i.Fine) (after : List (List Char)) :
    readFile (items.flatMap Item.render) = .done (.ok (content items)) ∧
    readFile (items.flatMap Item.render ++ [] :: after) = .done (.ok (content items)) := by
  constructor
  · have := readLoop_items [] items (fun _ => []) h
    rw [List.append_nil] at this
    unfold readFile
    rw [this, readLoop]
    simp
  · unfold readFile
    rw [readLoop_items _ items _ h, readLoop]
    simp

/-- **C119** a section that is not closed is read for ever; an unknown section that is not empty raises `KeyError`. -/
theorem C119_unclosed (items : List Item) (h : ∀ i ∈ items, i.Fine) (name : String) (ls : List (List Char))
    (hl : ∀ l ∈ ls, l.take 4 ≠ ['$', 'E', 'n', 'd']) :
    (name ∈ sectionNames → readFile (items.flatMap Item.render ++ ('$' :: name.toList) :: ls) = .forever) ∧
    (name ∉ sectionNames → ls ≠ [] → ∀ after, readFile (items.flatMap Item.render ++ ('$' :: name.toList) :: (ls ++ after)) = .done (.error .keyError)) := by
  constructor
  · intro hn
    unfold readFile
    rw [readLoop_items _ items _ h, readLoop]
    rw [if_neg (by simp), if_pos (by simp), List.drop_succ_cons, List.drop_zero, String.ofList_toList]
    have := readLoop_inside name hn [] ls (fun n => [] ++ content items n) hl
    rw [List.append_nil] at this
    rw [this, readLoop]
  · intro hn hne after
    unfold readFile
    rw [readLoop_items _ items _ h, readLoop]
    rw [if_neg (by simp), if_pos (by simp), List.drop_succ_cons, List.drop_zero, String.ofList_toList]
    cases ls with
    | nil => exact absurd rfl hne
    | cons l ls =>
      rw [List.cons_append, readLoop]
      rw [if_neg (hl l (.head _)), if_neg hn]

/-- The full claim: empty lines between sections are allowed. -/
def C119_full_statement : Prop :=
  ∀ items : List Item, (∀ i ∈ items, i.Fine ∨ i = .other []) → readFile (items.flatMap Item.render) = .done (.ok (content items))

/-- **C119** a file that begins with an empty line is read as an empty file. -/
theorem C119_counterexample : ¬ C119_full_statement := by
  intro h
  have h1 := h [.other [], .sect "Nodes" [['0']]] (by
    intro i hi
    simp only [List.mem_cons, List.not_mem_nil, or_false] at hi
    rcases hi with rfl | rfl
    · exact .inr rfl
    · exact .inl ⟨by decide, by simp⟩)
  have h2 := (C119_sections_partial [] (by simp) ((Item.sect "Nodes" [['0']]).render)).2
  rw [show [Item.other [], .sect "Nodes" [['0']]].flatMap Item.render = [].flatMap Item.render ++ [] :: (Item.sect "Nodes" [['0']]).render by
    simp [Item.render], h2] at h1
  injection h1 with h1
  have := congrFun (Except.ok.inj h1) "Nodes"
  simp [content] at this

/-- A file of two sections. -/
def exampleItems : List Item := [.sect "Nodes" [['1', ' ', '2'], ['3']], .other ['#'], .sect "Elements" [['4']], .sect "Nodes" [['5']]]
theorem exampleItems_fine : ∀ i ∈ exampleItems, i.Fine := by
  intro i hi
  simp only [exampleItems, List.mem_cons, List.not_mem_nil, or_false] at hi
  rcases hi with rfl | rfl | rfl | rfl
  · exact ⟨by decide, by simp⟩
  · exact ⟨by simp, by decide⟩
  · exact ⟨by decide, by simp⟩
  · exact ⟨by decide, by simp⟩
example : ∃ d, readFile (exampleItems.flatMap Item.render) = .done (.ok d) ∧ d "Nodes" = [['1', ' ', '2'], ['3'], ['5']] :=
  ⟨_, (C119_sections_partial exampleItems exampleItems_fine []).1, by simp [content, exampleItems]⟩
example : readFile (exampleItems.flatMap Item.render ++ ('$' :: "Periodic".toList) :: [['1']]) = .forever :=
  (C119_unclosed exampleItems exampleItems_fine "Periodic" [['1']] (by simp)).1 (by decide)

/-! ## C120: nodes -/

theorem bind_ok {α : Type*} {β : Type*} (a : α) (f : α → Except PyErr β) : (Except.ok a : Except PyErr α).bind f = f a := rfl

theorem field_append {α : Type*} (pre post : List α) (a : α) : field (pre ++ a :: post) pre.length = .ok a := by
  unfold field
  rw [List.getElem?_append_right (le_refl _), Nat.sub_self]
  rfl

/-- Reading the lines of a list of records. -/
theorem mapM_block {α β : Type*} (f : Line K → Except PyErr α) (g : β → Line K) (h : β → α) (post : List (Line K)) :
    ∀ (bs : List β) (pre : List (Line K)), (∀ b ∈ bs, f (g b) = .ok (h b)) →
      (List.range bs.length).mapM (fun j => (field (pre ++ (bs.map g ++ post)) (pre.length + j)).bind f) = .ok (bs.map h)
  | [], _, _ => rfl
  | b :: bs, pre, hf => by
    rw [List.length_cons, List.range_succ_eq_map, List.mapM_cons, List.map_cons, List.cons_append, Nat.add_zero, field_append]
    have ih := mapM_block f g h post bs (pre ++ [g b]) fun b hb => hf b (.tail _ hb)
    rw [List.mapM_map]
    have e : (fun j => (field (pre ++ g b :: (bs.map g ++ post)) (pre.length + Nat.succ j)).bind f) =
        fun j => (field (pre ++ [g b] ++ (bs.map g ++ post)) ((pre ++ [g b]).length + j)).bind f := by
      funext j
      rw [List.append_assoc, List.cons_append, List.nil_append, List.length_append, List.length_singleton,
        show pre.length + 1 + j = pre.length + Nat.succ j by omega]
    change (f (g b) >>= fun r => List.mapM (fun j => (field (pre ++ g b :: (bs.map g ++ post)) (pre.length + Nat.succ j)).bind f) (List.range bs.length) >>=
      fun rs => pure (r :: rs)) = _
    rw [e, ih, hf b (.head _)]
    rfl

/-- A block of the section `Nodes` of a file: the entity, and for each node its tag, its coordinates and its parametric coordinates. -/
structure NodeBlock (K : Type*) where
  dim : ℤ
  tag : ℤ
  parametric : ℤ
  nodes : List (ℤ × V3 K × List (Word K))

/-- The lines of a block: the header, then all the tags, then all the coordinates. -/
def NodeBlock.render (b : NodeBlock K) : List (Line K) :=
  [.int b.dim, .int b.tag, .int b.parametric, .int b.nodes.length] ::
    (b.nodes.map (fun n : ℤ × V3 K × List (Word K) => [.int n.1]) ++
      b.nodes.map (fun n : ℤ × V3 K × List (Word K) => .real n.2.1.x :: .real n.2.1.y :: .real n.2.1.z :: n.2.2))

/-- The points of a block. -/
def NodeBlock.points (b : NodeBlock K) : List (V3 K) := b.nodes.map fun n : ℤ × V3 K × List (Word K) => n.2.1

/-- The lines of the section `Nodes`. -/
def nodesSection (blocks : List (NodeBlock K)) (lo hi : ℤ) : List (Line K) :=
  [.int blocks.length, .int (blocks.flatMap NodeBlock.points).length, .int lo, .int hi] :: blocks.flatMap NodeBlock.render

/-- What a block changes. -/
def addBlock (s : NodeState K) (b : NodeBlock K) : NodeState K :=
  if b.nodes = [] then s else ⟨addTo s.byDim (.int b.dim) b.points, s.points ++ b.points⟩

theorem nodesTurn_spec (pre post : List (Line K)) (b : NodeBlock K) (s : NodeState K) :
    nodesTurn (pre ++ (b.render ++ post)) pre.length s = .ok (pre.length + b.render.length, addBlock s b) := by
  unfold nodesTurn NodeBlock.render
  rw [List.cons_append, field_append]
  have hc : countAt [Word.int b.dim, .int b.tag, .int b.parametric, (.int b.nodes.length : Word K)] 3 = .ok b.nodes.length := by
    simp [countAt, field, Except.bind, Word.toCount]
  rw [bind_ok, hc, bind_ok]
  by_cases h : b.nodes = []
  · rw [if_neg (by simp [h]), addBlock, if_pos h]
    simp [h]
  · rw [if_pos (by simpa using h), addBlock, if_neg h]
    have hp : readPoints (pre ++ [Word.int b.dim, .int b.tag, .int b.parametric, .int b.nodes.length] ::
        (b.nodes.map (fun n : ℤ × V3 K × List (Word K) => [.int n.1]) ++
          b.nodes.map (fun n : ℤ × V3 K × List (Word K) => .real n.2.1.x :: .real n.2.1.y :: .real n.2.1.z :: n.2.2) ++ post))
        (pre.length + b.nodes.length + 1) b.nodes.length = .ok b.points := by
      have := mapM_block readPoint (fun n : ℤ × V3 K × List (Word K) => (.real n.2.1.x :: .real n.2.1.y :: .real n.2.1.z :: n.2.2 : Line K))
        (fun n : ℤ × V3 K × List (Word K) => n.2.1) post b.nodes
        (pre ++ [Word.int b.dim, .int b.tag, .int b.parametric, .int b.nodes.length] ::
          b.nodes.map (fun n : ℤ × V3 K × List (Word K) => [.int n.1])) (fun n _ => rfl)
      unfold readPoints NodeBlock.points
      rw [← this]
      congr 1
      funext j
      simp only [List.append_assoc, List.cons_append, List.length_append, List.length_cons, List.length_map]
      rw [show pre.length + (b.nodes.length + 1) + j = pre.length + b.nodes.length + 1 + j by omega]
    rw [show field [Word.int b.dim, .int b.tag, .int b.parametric, (.int b.nodes.length : Word K)] 0 = .ok (.int b.dim) from rfl, bind_ok, hp, bind_ok]
    congr 2
    simp
    omega

theorem addBlock_points (s : NodeState K) (b : NodeBlock K) : (addBlock s b).points = s.points ++ b.points := by
  unfold addBlock
  by_cases h : b.nodes = []
  · rw [if_pos h]; simp [NodeBlock.points, h]
  · rw [if_neg h]

theorem addBlocks_points (s : NodeState K) (bs : List (NodeBlock K)) : (bs.foldl addBlock s).points = s.points ++ bs.flatMap NodeBlock.points := by
  induction bs generalizing s with
  | nil => simp
  | cons b bs ih => rw [List.foldl_cons, ih, addBlock_points, List.flatMap_cons, List.append_assoc]

theorem addBlocks_empty (s : NodeState K) (bs : List (NodeBlock K)) (h : bs.flatMap NodeBlock.points = []) : bs.foldl addBlock s = s := by
  induction bs generalizing s with
  | nil => rfl
  | cons b bs ih =>
    rw [List.flatMap_cons, List.append_eq_nil_iff] at h
    have : b.nodes = [] := by simpa [NodeBlock.points] using h.1
    rw [List.foldl_cons, addBlock, if_pos this, ih s h.2]

theorem nodesLoop_spec (header : Line K) (total : ℤ) (ht : intAt header 1 = .ok total) :
    ∀ (bs : List (NodeBlock K)) (pre : List (Line K)) (s : NodeState K) (fuel : ℕ), pre.head? = some header → bs ≠ [] → bs.length ≤ fuel →
      ((s.points ++ bs.flatMap NodeBlock.points).length : ℤ) = total →
      nodesLoop (pre ++ bs.flatMap NodeBlock.render) fuel pre.length s = some (.ok (bs.foldl addBlock s))
  | [], _, _, _, _, h, _, _ => absurd rfl h
  | b :: bs, pre, s, 0, _, _, h, _ => by simp at h
  | b :: bs, pre, s, fuel + 1, hp, _, hf, hn => by
    rw [List.flatMap_cons, nodesLoop, nodesTurn_spec]
    have h0 : field (pre ++ (b.render ++ bs.flatMap NodeBlock.render)) 0 = .ok header := by
      cases pre with
      | nil => simp at hp
      | cons a pre =>
        simp only [List.head?_cons, Option.some.injEq] at hp
        subst hp
        rfl
    simp only [h0, Except.bind, ht]
    rw [List.flatMap_cons, ← List.append_assoc, ← addBlock_points] at hn
    by_cases hd : ((addBlock s b).points.length : ℤ) = total
    · rw [if_pos hd, List.foldl_cons, addBlocks_empty]
      rw [← hd, List.length_append] at hn
      push_cast at hn
      exact List.length_eq_zero_iff.1 (by omega)
    · rw [if_neg hd]
      have hbs : bs ≠ [] := by
        rintro rfl
        apply hd
        rw [← hn]
        simp
      have ih := nodesLoop_spec header total ht bs (pre ++ b.render) (addBlock s b) fuel (by
        cases pre with
        | nil => simp at hp
        | cons a pre => simpa using hp) hbs (by simpa using hf) hn
      rw [List.append_assoc, List.length_append] at ih
      exact ih

/-- A point as a node, in the plane or in space. -/
def asNode (flat : Bool) (p : V3 K) : Node K := if flat then .d2 ⟨p.x, p.y⟩ else .d3 p

theorem addBlocks_byDim (d : ℤ) (bs : List (NodeBlock K)) (s : NodeState K) :
    (bs.foldl addBlock s).byDim (.int d) =
      if (bs.filter fun b : NodeBlock K => decide (b.dim = d ∧ b.nodes ≠ [])) = [] then s.byDim (.int d)
      else some ((s.byDim (.int d)).getD [] ++ (bs.filter fun b : NodeBlock K => decide (b.dim = d ∧ b.nodes ≠ [])).map NodeBlock.points) := by
  induction bs generalizing s with
  | nil => simp
  | cons b bs ih =>
    rw [List.foldl_cons, ih]
    unfold addBlock
    by_cases h : b.nodes = []
    · rw [if_pos h, List.filter_cons_of_neg (by simp [h])]
    · by_cases hd : b.dim = d
      · rw [if_neg h, List.filter_cons_of_pos (by simp [h, hd])]
        simp only [addTo, hd, if_true, reduceCtorEq, if_false, Option.getD_some, List.map_cons]
        by_cases hf : (bs.filter fun b : NodeBlock K => decide (b.dim = d ∧ b.nodes ≠ [])) = []
        · rw [if_pos hf, hf]; simp
        · rw [if_neg hf]; simp
      · rw [if_neg h, List.filter_cons_of_neg (by simp [hd])]
        have e : addTo s.byDim (.int b.dim) b.points (.int d) = s.byDim (.int d) := if_neg (by simpa using Ne.symm hd)
        simp only [e]

/-- **C120** reading the section `Nodes` of a file with any number of blocks: it ends, `all_nodes` is the list of all the points in the order of the file,
`nodes_dim_d` the list of the points of each block of dimension `d` that is not empty, in order (and absent when there is none); all of them are points of the
plane exactly when every third coordinate is zero. -/
theorem C120_nodes (blocks : List (NodeBlock K)) (lo hi : ℤ) (h : blocks ≠ []) :
    ∃ (nodes : Nodes K) (flat : Bool), (∀ fuel, blocks.length ≤ fuel → fromFileNodes fuel (nodesSection blocks lo hi) = some (.ok nodes)) ∧
      (flat = true ↔ ∀ b ∈ blocks, ∀ n ∈ b.nodes, n.2.1.z = 0) ∧
      nodes.all = some ((blocks.flatMap NodeBlock.points).map (asNode flat)) ∧
      ∀ d : ℤ, (nodes.byDim (.int d) = none ↔ ∀ b ∈ blocks, b.dim = d → b.nodes = []) ∧
        ∀ l, nodes.byDim (.int d) = some l →
          l = (blocks.filter fun b : NodeBlock K => decide (b.dim = d ∧ b.nodes ≠ [])).map fun b : NodeBlock K => b.points.map (asNode flat) := by
  have hflat : check2d (blocks.flatMap NodeBlock.points) = true ↔ ∀ b ∈ blocks, ∀ n ∈ b.nodes, n.2.1.z = 0 := by
    simp only [check2d, List.all_eq_true, List.mem_flatMap, decide_eq_true_eq, NodeBlock.points, List.mem_map]
    constructor
    · intro h b hb n hn; exact h _ ⟨b, hb, n, hn, rfl⟩
    · rintro h p ⟨b, hb, n, hn, rfl⟩; exact h b hb n hn
  obtain ⟨s, hs⟩ : ∃ s, s = blocks.foldl addBlock (⟨fun _ => none, []⟩ : NodeState K) := ⟨_, rfl⟩
  have hpts : s.points = blocks.flatMap NodeBlock.points := by rw [hs, addBlocks_points]; rfl
  refine ⟨finishNodes s, check2d (blocks.flatMap NodeBlock.points), ?_, hflat, ?_, ?_⟩
  · intro fuel hf
    unfold fromFileNodes
    rw [if_neg (by simp [nodesSection])]
    have := nodesLoop_spec [(.int blocks.length : Word K), .int (blocks.flatMap NodeBlock.points).length, .int lo, .int hi]
      (blocks.flatMap NodeBlock.points).length rfl blocks
      [[(.int blocks.length : Word K), .int (blocks.flatMap NodeBlock.points).length, .int lo, .int hi]] ⟨fun _ => none, []⟩ fuel rfl h hf (by simp)
    rw [List.length_singleton, List.cons_append, List.nil_append] at this
    rw [nodesSection, this, ← hs]
    rfl
  · unfold finishNodes
    rw [hpts]
    by_cases hc : check2d (blocks.flatMap NodeBlock.points) = true
    · rw [if_pos hc, hc]; rfl
    · rw [if_neg hc, (Bool.not_eq_true _).mp hc]; rfl
  · intro d
    have hb := addBlocks_byDim d blocks (⟨fun _ => none, []⟩ : NodeState K)
    rw [← hs] at hb
    have hempty : (blocks.filter fun b : NodeBlock K => decide (b.dim = d ∧ b.nodes ≠ [])) = [] ↔ ∀ b ∈ blocks, b.dim = d → b.nodes = [] := by
      rw [List.filter_eq_nil_iff]
      simp
    rw [← hempty]
    unfold finishNodes
    rw [hpts]
    by_cases hf : (blocks.filter fun b : NodeBlock K => decide (b.dim = d ∧ b.nodes ≠ [])) = []
    · rw [if_pos hf] at hb
      have hb : s.byDim (.int d) = none := hb
      by_cases hc : check2d (blocks.flatMap NodeBlock.points) = true
      · rw [if_pos hc]; simp only [hb, hf]; simp
      · rw [if_neg hc]; simp only [hb, hf]; simp
    · rw [if_neg hf] at hb
      simp only [Option.getD_none, List.nil_append] at hb
      by_cases hc : check2d (blocks.flatMap NodeBlock.points) = true
      · rw [if_pos hc, hc]
        simp only [hb, Option.map_some, hf, iff_false]
        refine ⟨by simp, fun l hl => ?_⟩
        rw [← Option.some.inj hl, List.map_map]
        rfl
      · rw [if_neg hc, (Bool.not_eq_true _).mp hc]
        simp only [hb, Option.map_some, hf, iff_false]
        refine ⟨by simp, fun l hl => ?_⟩
        rw [← Option.some.inj hl, List.map_map]
        rfl

/-- Two points of dimension 0, an empty block, three nodes of dimension 2. -/
def exampleBlocks : List (NodeBlock ℚ) :=
  [⟨0, 1, 0, [(1, ⟨0, 0, 0⟩, [])]⟩, ⟨0, 2, 0, [(2, ⟨1, 0, 0⟩, [])]⟩, ⟨1, 1, 0, []⟩, ⟨2, 1, 1, [(3, ⟨1, 1, 0⟩, [.real (1/2), .real 1]), (4, ⟨0, 1, 0⟩, [])]⟩]
example : ∃ nodes, fromFileNodes 4 (nodesSection exampleBlocks 1 4) = some (.ok nodes) ∧ nodes.all = some [.d2 ⟨0, 0⟩, .d2 ⟨1, 0⟩, .d2 ⟨1, 1⟩, .d2 ⟨0, 1⟩] := by
  obtain ⟨nodes, flat, h1, h2, h3, -⟩ := C120_nodes exampleBlocks 1 4 (by decide)
  have : flat = true := h2.2 (by decide +kernel)
  subst this
  exact ⟨nodes, h1 4 (by decide), by rw [h3]; rfl⟩

/-! ## C121: elements -/

/-- A block of the section `Elements`: the entity, the type, and for each element its tag and the tags of its nodes. -/
structure ElementBlock where
  dim : ℤ
  tag : ℤ
  type : ℤ
  elements : List (ℤ × List ℤ)

/-- The lines of a block. -/
def ElementBlock.render (K : Type*) (b : ElementBlock) : List (Line K) :=
  [.int b.dim, .int b.tag, .int b.type, .int b.elements.length] :: b.elements.map fun e : ℤ × List ℤ => .int e.1 :: e.2.map .int

/-- The elements of a block: the tags of nodes, from 0. -/
def ElementBlock.indices (b : ElementBlock) : List (List ℤ) := b.elements.map fun e : ℤ × List ℤ => e.2.map (· - 1)

/-- The lines of the section `Elements`. -/
def elementsSection (K : Type*) (blocks : List ElementBlock) (total lo hi : ℤ) : List (Line K) :=
  [.int blocks.length, .int total, .int lo, .int hi] :: blocks.flatMap (ElementBlock.render K)

theorem readElement_spec (e : ℤ × List ℤ) : readElement (K := K) (.int e.1 :: e.2.map .int) = .ok (e.2.map (· - 1)) := by
  unfold readElement
  rw [List.drop_succ_cons, List.drop_zero]
  induction e.2 with
  | nil => rfl
  | cons a l ih => rw [List.map_cons, List.mapM_cons, ih]; rfl

theorem elementsTurn_spec (pre post : List (Line K)) (b : ElementBlock) (h : b.elements ≠ []) (i : Option ℕ) (els : Elements K) :
    elementsTurn (pre ++ (b.render K ++ post)) pre.length i els =
      .ok (pre.length + (b.render K).length, some (pre.length + b.elements.length), addTo els (.int b.type) b.indices) := by
  unfold elementsTurn ElementBlock.render
  rw [List.cons_append, field_append]
  have hc : countAt [Word.int b.dim, .int b.tag, .int b.type, (.int b.elements.length : Word K)] 3 = .ok b.elements.length := by
    simp [countAt, field, Except.bind, Word.toCount]
  rw [bind_ok, hc, bind_ok, if_pos (by simpa using h)]
  have hp : readElements (pre ++ [Word.int b.dim, .int b.tag, .int b.type, .int b.elements.length] ::
      (b.elements.map (fun e : ℤ × List ℤ => .int e.1 :: e.2.map .int) ++ post)) (pre.length + 1) b.elements.length = .ok b.indices := by
    have := mapM_block (K := K) readElement (fun e : ℤ × List ℤ => .int e.1 :: e.2.map .int) (fun e : ℤ × List ℤ => e.2.map (· - 1)) post b.elements
      (pre ++ [[Word.int b.dim, .int b.tag, .int b.type, .int b.elements.length]]) (fun e _ => readElement_spec e)
    unfold readElements ElementBlock.indices
    rw [← this]
    congr 1
    funext j
    simp [List.append_assoc]
  rw [show field [Word.int b.dim, .int b.tag, .int b.type, (.int b.elements.length : Word K)] 2 = .ok (.int b.type) from rfl, bind_ok, hp, bind_ok]
  congr 2
  simp
  omega

theorem elementsLoop_spec : ∀ (bs : List ElementBlock) (pre : List (Line K)) (i : Option ℕ) (els : Elements K) (fuel : ℕ), bs ≠ [] →
    (∀ b ∈ bs, b.elements ≠ []) → bs.length ≤ fuel →
    elementsLoop (pre ++ bs.flatMap (ElementBlock.render K)) fuel pre.length i els =
      some (.ok (bs.foldl (fun d b => addTo d (.int b.type) b.indices) els))
  | [], _, _, _, _, h, _, _ => absurd rfl h
  | b :: bs, _, _, _, 0, _, _, h => by simp at h
  | b :: bs, pre, i, els, fuel + 1, _, hb, hf => by
    rw [List.flatMap_cons, elementsLoop, elementsTurn_spec _ _ _ (hb b (.head _))]
    simp only
    cases bs with
    | nil =>
      rw [if_pos (by simp)]
      rfl
    | cons b' bs =>
      rw [if_neg (by
        rw [List.length_append, List.length_append, List.flatMap_cons, List.length_append]
        have : 0 < (b'.render K).length := by simp [ElementBlock.render]
        omega)]
      have := elementsLoop_spec (b' :: bs) (pre ++ b.render K) (some (pre.length + b.elements.length)) (addTo els (.int b.type) b.indices) fuel (by simp)
        (fun b hb' => hb b (.tail _ hb')) (by simpa using hf)
      rw [List.append_assoc, List.length_append] at this
      exact this

theorem addTo_fold (t : ℤ) (bs : List ElementBlock) (els : Elements K) :
    (bs.foldl (fun d b => addTo d (.int b.type) b.indices) els) (.int t) =
      if (bs.filter fun b : ElementBlock => decide (b.type = t)) = [] then els (.int t)
      else some ((els (.int t)).getD [] ++ (bs.filter fun b : ElementBlock => decide (b.type = t)).map ElementBlock.indices) := by
  induction bs generalizing els with
  | nil => simp
  | cons b bs ih =>
    rw [List.foldl_cons, ih]
    by_cases hd : b.type = t
    · rw [List.filter_cons_of_pos (by simp [hd])]
      simp only [addTo, hd, if_true, reduceCtorEq, if_false, Option.getD_some, List.map_cons]
      by_cases hf : (bs.filter fun b : ElementBlock => decide (b.type = t)) = []
      · rw [if_pos hf, hf]; simp
      · rw [if_neg hf]; simp
    · rw [List.filter_cons_of_neg (by simp [hd])]
      have e : addTo els (.int b.type) b.indices (.int t) = els (.int t) := if_neg (by simpa using Ne.symm hd)
      rw [e]

/-- The full claim: reading the section `Elements` ends, and gives for each type the list of its blocks, each of them the list of the elements with the tags of
their nodes counted from 0. -/
def C121_full_statement (K : Type) [Field K] [LinearOrder K] : Prop :=
  ∀ (blocks : List ElementBlock) (total lo hi : ℤ), blocks ≠ [] →
    ∃ els : Elements K, (∃ fuel, fromFileElements fuel (elementsSection K blocks total lo hi) = some (.ok els)) ∧
      ∀ t : ℤ, (els (.int t)).getD [] = (blocks.filter fun b : ElementBlock => decide (b.type = t ∧ b.elements ≠ [])).map ElementBlock.indices

/-- **C121** for files without empty blocks the claim holds, and the key of a type is absent exactly when there is no block of it. -/
theorem C121_elements_partial (blocks : List ElementBlock) (total lo hi : ℤ) (h : blocks ≠ []) (hb : ∀ b ∈ blocks, b.elements ≠ []) :
    ∃ els : Elements K, (∀ fuel, blocks.length ≤ fuel → fromFileElements fuel (elementsSection K blocks total lo hi) = some (.ok els)) ∧
      ∀ t : ℤ, (els (.int t) = none ↔ ∀ b ∈ blocks, b.type ≠ t) ∧
        ∀ l, els (.int t) = some l → l = (blocks.filter fun b : ElementBlock => decide (b.type = t)).map ElementBlock.indices := by
  refine ⟨blocks.foldl (fun d b => addTo d (.int b.type) b.indices) fun _ => none, ?_, ?_⟩
  · intro fuel hf
    unfold fromFileElements
    rw [if_neg (by simp [elementsSection])]
    exact elementsLoop_spec blocks [[.int blocks.length, .int total, .int lo, .int hi]] none (fun _ => none) fuel h hb hf
  · intro t
    rw [addTo_fold]
    by_cases hf : (blocks.filter fun b : ElementBlock => decide (b.type = t)) = []
    · rw [if_pos hf]
      rw [List.filter_eq_nil_iff] at hf
      exact ⟨⟨fun _ b hb => by simpa using hf b hb, fun _ => rfl⟩, fun l hl => by cases hl⟩
    · rw [if_neg hf]
      refine ⟨⟨fun h => by simp at h, fun h => absurd (List.filter_eq_nil_iff.2 fun b hb => by simpa using h b hb) hf⟩, fun l hl => ?_⟩
      rw [← Option.some.inj hl]
      rfl

/-- **C121** an empty block raises when it comes first, and makes the loop endless when it comes after others. -/
theorem C121_empty_block (before after : List ElementBlock) (b : ElementBlock) (hbefore : ∀ b ∈ before, b.elements ≠ []) (hb : b.elements = [])
    (total lo hi : ℤ) :
    (before = [] → ∀ fuel, 0 < fuel → fromFileElements fuel (elementsSection K (before ++ b :: after) total lo hi) = some (.error .unboundLocal)) ∧
    (before ≠ [] → ∀ fuel, fromFileElements fuel (elementsSection K (before ++ b :: after) total lo hi) = none) := by
  have hturn : ∀ (pre post : List (Line K)) (els : Elements K), elementsTurn (pre ++ (b.render K ++ post)) pre.length none els = .error .unboundLocal := by
    intro pre post els
    unfold elementsTurn ElementBlock.render
    rw [List.cons_append, field_append]
    simp [Except.bind, countAt, field, Word.toCount, hb]
  have hturn' : ∀ (pre post : List (Line K)) (els : Elements K) (i : ℕ), elementsTurn (pre ++ (b.render K ++ post)) pre.length (some i) els =
      .ok (i + 1, some i, els) := by
    intro pre post els i
    unfold elementsTurn ElementBlock.render
    rw [List.cons_append, field_append]
    simp [Except.bind, countAt, field, Word.toCount, hb]
  constructor
  · rintro rfl fuel hf
    obtain ⟨fuel, rfl⟩ : ∃ n, fuel = n + 1 := ⟨fuel - 1, by omega⟩
    unfold fromFileElements
    rw [if_neg (by simp [elementsSection]), elementsLoop]
    have := hturn [[.int ((([] : List ElementBlock) ++ b :: after).length : ℤ), .int total, .int lo, .int hi]] (after.flatMap (ElementBlock.render K)) fun _ => none
    rw [List.length_singleton] at this
    rw [elementsSection, List.nil_append, List.flatMap_cons]
    rw [List.nil_append] at this
    rw [List.cons_append, List.nil_append] at this
    rw [this]
  · intro hne
    -- once the header of the empty block is reached
    have stuck : ∀ (fuel : ℕ) (pre post : List (Line K)) (els : Elements K) (i : ℕ), i + 1 = pre.length →
        elementsLoop (pre ++ (b.render K ++ post)) fuel pre.length (some i) els = none := by
      intro fuel
      induction fuel with
      | zero => intros; rfl
      | succ fuel ih =>
        intro pre post els i hi
        rw [elementsLoop, hturn']
        simp only
        rw [if_neg (by
          rw [List.length_append, List.length_append]
          have : 0 < (b.render K).length := by simp [ElementBlock.render]
          omega), hi]
        exact ih pre post els i hi
    have run : ∀ (bs : List ElementBlock) (fuel : ℕ) (pre : List (Line K)) (els : Elements K) (i : Option ℕ), (∀ b ∈ bs, b.elements ≠ []) → bs ≠ [] →
        elementsLoop (pre ++ (bs ++ b :: after).flatMap (ElementBlock.render K)) fuel pre.length i els = none := by
      intro bs
      induction bs with
      | nil => intro _ _ _ _ _ h; exact absurd rfl h
      | cons c bs ih =>
        intro fuel pre els i hc _
        cases fuel with
        | zero => rfl
        | succ fuel =>
          rw [List.cons_append, List.flatMap_cons, elementsLoop, elementsTurn_spec _ _ _ (hc c (.head _))]
          simp only
          have hlen : ∀ q : List ElementBlock, 0 < ((q ++ b :: after).flatMap (ElementBlock.render K)).length := by
            intro q
            rw [List.flatMap_append, List.flatMap_cons, List.length_append, List.length_append]
            have : 0 < (b.render K).length := by simp [ElementBlock.render]
            omega
          rw [if_neg (by rw [List.length_append, List.length_append]; have := hlen bs; omega)]
          by_cases hbs : bs = []
          · subst hbs
            have := stuck fuel (pre ++ c.render K) (after.flatMap (ElementBlock.render K)) (addTo els (.int c.type) c.indices) (pre.length + c.elements.length) (by
              simp [ElementBlock.render]; omega)
            rw [List.append_assoc, List.length_append] at this
            rw [List.nil_append, List.flatMap_cons]
            exact this
          · have := ih fuel (pre ++ c.render K) (addTo els (.int c.type) c.indices) (some (pre.length + c.elements.length)) (fun b hb => hc b (.tail _ hb)) hbs
            rw [List.append_assoc, List.length_append] at this
            exact this
    intro fuel
    unfold fromFileElements
    rw [if_neg (by simp [elementsSection])]
    exact run before fuel [[.int (before ++ b :: after).length, .int total, .int lo, .int hi]] _ none hbefore hne

/-- **C121** false because of empty blocks. -/
theorem C121_counterexample : ¬ C121_full_statement ℚ := by
  intro h
  obtain ⟨els, ⟨fuel, hf⟩, -⟩ := h [⟨2, 1, 2, [(1, [1, 2, 3])]⟩, ⟨2, 2, 2, []⟩] 1 1 1 (by simp)
  have := (C121_empty_block (K := ℚ) [⟨2, 1, 2, [(1, [1, 2, 3])]⟩] [] ⟨2, 2, 2, []⟩ (by simp) rfl 1 1 1).2 (by simp) fuel
  rw [List.cons_append, List.nil_append] at this
  rw [this] at hf
  cases hf

/-- Two triangles in two blocks, and a line. -/
def exampleElements : List ElementBlock := [⟨1, 1, 1, [(1, [1, 2])]⟩, ⟨2, 1, 2, [(2, [1, 2, 3])]⟩, ⟨2, 2, 2, [(3, [1, 3, 4])]⟩]
example : ∃ els : Elements ℚ, fromFileElements 3 (elementsSection ℚ exampleElements 3 1 3) = some (.ok els) := by
  obtain ⟨els, h, -⟩ := C121_elements_partial (K := ℚ) exampleElements 3 1 3 (by simp [exampleElements]) (by simp [exampleElements])
  exact ⟨els, h 3 (by simp [exampleElements])⟩

/-! ## C122: meshes -/

/-- The nodes of the file, with their tags, in order. -/
def tagged (blocks : List (NodeBlock K)) : List (ℤ × V3 K) := blocks.flatMap fun b : NodeBlock K => b.nodes.map fun n : ℤ × V3 K × List (Word K) => (n.1, n.2.1)

/-- The tags of nodes are 1, 2, 3, … in the order of the file. -/
def InOrder (blocks : List (NodeBlock K)) : Prop := ∀ (i : ℕ) (h : i < (tagged blocks).length), ((tagged blocks)[i]).1 = i + 1

/-- The mesh is the mesh of the file: one group for each block of elements of the type, one element for each element of the block, whose nodes are the points
of the nodes with the tags given. -/
def MeshOf (blocks : List (NodeBlock K)) (flat : Bool) (ebs : List ElementBlock) (mesh : List (List (List (Node K)))) : Prop :=
  List.Forall₂ (fun (b : ElementBlock) (g : List (List (Node K))) =>
    List.Forall₂ (fun (e : ℤ × List ℤ) (ns : List (Node K)) =>
      List.Forall₂ (fun (t : ℤ) (n : Node K) => ∃ p, (t, p) ∈ tagged blocks ∧ n = asNode flat p) e.2 ns) b.elements g) ebs mesh

/-- The elements of gmsh that become meshes: triangles, tetrahedra, quadratic tetrahedra, with their numbers of nodes and their functions. -/
inductive Kind : ℤ → ℕ → (Nodes K → Elements K → Except PyErr (List (List (List (Node K))))) → Prop
  | triangle : Kind 2 3 defineTriangular
  | tetrahedron : Kind 4 4 defineTetrahedron
  | quadratic : Kind 11 10 defineQuadraticTetrahedron

/-- The full claim: for every file whose elements refer to nodes of the file and have the right number of nodes, the functions `define_…_mesh` return the mesh of
the file. -/
def C122_full_statement (K : Type) [Field K] [LinearOrder K] : Prop :=
  ∀ (blocks : List (NodeBlock K)) (lo hi : ℤ) (ebs : List ElementBlock) (total elo ehi type : ℤ) (k : ℕ)
    (define : Nodes K → Elements K → Except PyErr (List (List (List (Node K))))), Kind type k define → blocks ≠ [] →
    (∀ b ∈ ebs, b.elements ≠ []) → (∀ b ∈ ebs, ∀ e ∈ b.elements, b.type = type → e.2.length = k ∧ ∀ t ∈ e.2, ∃ p, (t, p) ∈ tagged blocks) →
    (∃ b ∈ ebs, b.type = type) →
    ∃ nodes els mesh flat, fromFileNodes blocks.length (nodesSection blocks lo hi) = some (.ok nodes) ∧
      fromFileElements ebs.length (elementsSection K ebs total elo ehi) = some (.ok els) ∧ define nodes els = .ok mesh ∧
      (flat = true ↔ ∀ b ∈ blocks, ∀ n ∈ b.nodes, n.2.1.z = 0) ∧ MeshOf blocks flat (ebs.filter fun b : ElementBlock => decide (b.type = type)) mesh

theorem pick_spec (blocks : List (NodeBlock K)) (flat : Bool) (ho : InOrder blocks) : ∀ (k : ℕ) (ts : List ℤ), ts.length = k →
    (∀ t ∈ ts, ∃ p, (t, p) ∈ tagged blocks) → ∃ ns, pick ((blocks.flatMap NodeBlock.points).map (asNode flat)) k (ts.map (· - 1)) = .ok ns ∧
      List.Forall₂ (fun (t : ℤ) (n : Node K) => ∃ p, (t, p) ∈ tagged blocks ∧ n = asNode flat p) ts ns := by
  intro k ts hk ht
  have hpts : blocks.flatMap NodeBlock.points = (tagged blocks).map Prod.snd := by
    unfold tagged NodeBlock.points
    rw [List.map_flatMap]
    simp [List.map_map, Function.comp_def]
  have hone : ∀ t : ℤ, (∃ p, (t, p) ∈ tagged blocks) → ∃ p, (t, p) ∈ tagged blocks ∧
      Fillet.pyIndex ((blocks.flatMap NodeBlock.points).map (asNode flat)) (t - 1) = .ok (asNode flat p) := by
    rintro t ⟨p, hp⟩
    obtain ⟨i, hi, he⟩ := List.getElem_of_mem hp
    have h1 := ho i hi
    rw [he] at h1
    simp only at h1
    refine ⟨p, hp, ?_⟩
    unfold Fillet.pyIndex
    have h2 : t - 1 = (i : ℤ) := by omega
    rw [h2, if_neg (by omega)]
    rw [if_neg (by omega), Int.toNat_natCast, hpts, List.map_map, List.getElem?_map, List.getElem?_eq_getElem hi, he]
    rfl
  subst hk
  unfold pick
  induction ts with
  | nil => exact ⟨[], rfl, .nil⟩
  | cons t ts ih =>
    obtain ⟨p, hp, hi⟩ := hone t (ht t (.head _))
    obtain ⟨ns, h1, h2⟩ := ih fun t h => ht t (.tail _ h)
    refine ⟨asNode flat p :: ns, ?_, .cons ⟨p, hp, rfl⟩ h2⟩
    rw [List.length_cons, List.range_succ_eq_map, List.mapM_cons, List.mapM_map]
    have e1 : (field ((t :: ts).map (· - 1)) 0).bind (fun t => Fillet.pyIndex ((blocks.flatMap NodeBlock.points).map (asNode flat)) t) =
        .ok (asNode flat p) := hi
    have e2 : (fun i => (field ((t :: ts).map (· - 1)) (Nat.succ i)).bind fun t => Fillet.pyIndex ((blocks.flatMap NodeBlock.points).map (asNode flat)) t) =
        fun i => (field (ts.map (· - 1)) i).bind fun t => Fillet.pyIndex ((blocks.flatMap NodeBlock.points).map (asNode flat)) t := rfl
    change ((field ((t :: ts).map (· - 1)) 0).bind (fun t => Fillet.pyIndex ((blocks.flatMap NodeBlock.points).map (asNode flat)) t) >>= fun r =>
      List.mapM (fun i => (field ((t :: ts).map (· - 1)) (Nat.succ i)).bind fun t => Fillet.pyIndex ((blocks.flatMap NodeBlock.points).map (asNode flat)) t)
        (List.range ts.length) >>= fun rs => pure (r :: rs)) = _
    rw [e1, e2, h1]
    rfl

/-- A list of computations that all succeed. -/
theorem mapM_forall₂ {α β : Type*} (f : α → Except PyErr β) (R : α → β → Prop) : ∀ l : List α, (∀ a ∈ l, ∃ b, f a = .ok b ∧ R a b) →
    ∃ r, l.mapM f = .ok r ∧ List.Forall₂ R l r
  | [], _ => ⟨[], rfl, .nil⟩
  | a :: l, h => by
    obtain ⟨b, h1, h2⟩ := h a (.head _)
    obtain ⟨r, h3, h4⟩ := mapM_forall₂ f R l fun a ha => h a (.tail _ ha)
    exact ⟨b :: r, by rw [List.mapM_cons, h1, h3]; rfl, .cons h2 h4⟩

/-- **C122** for files whose nodes are numbered 1, 2, 3, … in order the claim holds. -/
theorem C122_mesh_partial (blocks : List (NodeBlock K)) (lo hi : ℤ) (ebs : List ElementBlock) (total elo ehi type : ℤ) (k : ℕ)
    (define : Nodes K → Elements K → Except PyErr (List (List (List (Node K))))) (hk : Kind type k define) (hne : blocks ≠ [])
    (ho : InOrder blocks) (hb : ∀ b ∈ ebs, b.elements ≠ [])
    (he : ∀ b ∈ ebs, ∀ e ∈ b.elements, b.type = type → e.2.length = k ∧ ∀ t ∈ e.2, ∃ p, (t, p) ∈ tagged blocks) (hex : ∃ b ∈ ebs, b.type = type) :
    ∃ nodes els mesh flat, fromFileNodes blocks.length (nodesSection blocks lo hi) = some (.ok nodes) ∧
      fromFileElements ebs.length (elementsSection K ebs total elo ehi) = some (.ok els) ∧ define nodes els = .ok mesh ∧
      (flat = true ↔ ∀ b ∈ blocks, ∀ n ∈ b.nodes, n.2.1.z = 0) ∧ MeshOf blocks flat (ebs.filter fun b : ElementBlock => decide (b.type = type)) mesh := by
  obtain ⟨nodes, flat, n1, n2, n3, -⟩ := C120_nodes blocks lo hi hne
  obtain ⟨els, e1, e2⟩ := C121_elements_partial (K := K) ebs total elo ehi (by rintro rfl; obtain ⟨b, hb, -⟩ := hex; cases hb) hb
  have hdef : define nodes els = defineMesh type k nodes els := by cases hk <;> rfl
  obtain ⟨l, hl⟩ : ∃ l, els (.int type) = some l := by
    rw [← Option.ne_none_iff_exists']
    intro h
    obtain ⟨b, hb, ht⟩ := hex
    exact (e2 type).1.1 h b hb ht
  have hl' := (e2 type).2 l hl
  obtain ⟨mesh, m1, m2⟩ := mapM_forall₂ (fun b : ElementBlock => b.indices.mapM fun e : List ℤ => pick ((blocks.flatMap NodeBlock.points).map (asNode flat)) k e)
    (fun (b : ElementBlock) (g : List (List (Node K))) => List.Forall₂ (fun (e : ℤ × List ℤ) (ns : List (Node K)) =>
      List.Forall₂ (fun (t : ℤ) (n : Node K) => ∃ p, (t, p) ∈ tagged blocks ∧ n = asNode flat p) e.2 ns) b.elements g)
    (ebs.filter fun b : ElementBlock => decide (b.type = type)) (by
      intro b hbm
      obtain ⟨hb1, hb2⟩ := List.mem_filter.1 hbm
      have hb2 := of_decide_eq_true hb2
      obtain ⟨g, g1, g2⟩ := mapM_forall₂ (fun e : ℤ × List ℤ => pick ((blocks.flatMap NodeBlock.points).map (asNode flat)) k (e.2.map (· - 1)))
        (fun (e : ℤ × List ℤ) (ns : List (Node K)) =>
          List.Forall₂ (fun (t : ℤ) (n : Node K) => ∃ p, (t, p) ∈ tagged blocks ∧ n = asNode flat p) e.2 ns) b.elements (by
        intro e hem
        obtain ⟨h1, h2⟩ := he b hb1 e hem hb2
        exact pick_spec blocks flat ho k e.2 h1 h2)
      refine ⟨g, ?_, g2⟩
      unfold ElementBlock.indices
      rw [List.mapM_map]
      exact g1)
  refine ⟨nodes, els, mesh, flat, n1 _ le_rfl, e1 _ le_rfl, ?_, n2, m2⟩
  rw [hdef, defineMesh, n3]
  simp only [hl]
  rw [hl', List.mapM_map]
  exact m1

/-- **C122** without elements of the type, or without nodes, the functions raise `KeyError`. -/
theorem C122_missing (nodes : Nodes K) (els : Elements K) (type : ℤ) (k : ℕ)
    (define : Nodes K → Elements K → Except PyErr (List (List (List (Node K))))) (hk : Kind type k define) (h : nodes.all = none ∨ els (.int type) = none) :
    define nodes els = .error .keyError := by
  have hdef : define nodes els = defineMesh type k nodes els := by cases hk <;> rfl
  rw [hdef, defineMesh]
  cases hn : nodes.all with
  | none => rfl
  | some l =>
    rcases h with h | h
    · rw [h] at hn; cases hn
    · simp only [h]

/-- **C122** with other numbers the elements get the wrong points. -/
theorem C122_counterexample : ¬ C122_full_statement ℚ := by
  intro h
  obtain ⟨nodes, els, mesh, flat, h1, h2, h3, h4, h5⟩ := h [⟨2, 1, 0, [(2, ⟨0, 0, 1⟩, []), (1, ⟨1, 0, 1⟩, []), (3, ⟨0, 1, 1⟩, [])]⟩] 1 3
    [⟨2, 1, 2, [(1, [1, 2, 3])]⟩] 1 1 1 2 3 defineTriangular .triangle (by simp) (by simp) (by
      intro b hb e he _
      simp only [List.mem_cons, List.not_mem_nil, or_false] at hb
      subst hb
      simp only [List.mem_cons, List.not_mem_nil, or_false] at he
      subst he
      refine ⟨rfl, fun t ht => ?_⟩
      simp only [List.mem_cons, List.not_mem_nil, or_false] at ht
      rcases ht with rfl | rfl | rfl
      · exact ⟨⟨1, 0, 1⟩, by simp [tagged]⟩
      · exact ⟨⟨0, 0, 1⟩, by simp [tagged]⟩
      · exact ⟨⟨0, 1, 1⟩, by simp [tagged]⟩) (by simp)
  obtain ⟨nodes', flat', n1, n2, n3, -⟩ := C120_nodes (K := ℚ) [⟨2, 1, 0, [(2, ⟨0, 0, 1⟩, []), (1, ⟨1, 0, 1⟩, []), (3, ⟨0, 1, 1⟩, [])]⟩] 1 3 (by simp)
  have hn := n1 1 (by simp)
  rw [List.length_singleton] at h1
  rw [h1] at hn
  have hn := Except.ok.inj (Option.some.inj hn)
  subst hn
  have hf' : flat' = false := by
    rw [← Bool.not_eq_true, n2]
    decide +kernel
  have hf : flat = false := by
    rw [← Bool.not_eq_true, h4]
    decide +kernel
  subst hf hf'
  obtain ⟨els', e1, e2⟩ := C121_elements_partial (K := ℚ) [⟨2, 1, 2, [(1, [1, 2, 3])]⟩] 1 1 1 (by simp) (by simp)
  have he := e1 1 (by simp)
  rw [List.length_singleton] at h2
  rw [h2] at he
  have he := Except.ok.inj (Option.some.inj he)
  subst he
  obtain ⟨l, hl⟩ : ∃ l, els (.int 2) = some l := by
    rw [← Option.ne_none_iff_exists']
    intro h
    exact (e2 2).1.1 h _ (.head _) rfl
  have hl' := (e2 2).2 l hl
  have hm : mesh = [[[.d3 ⟨0, 0, 1⟩, .d3 ⟨1, 0, 1⟩, .d3 ⟨0, 1, 1⟩]]] := by
    unfold defineTriangular defineMesh at h3
    rw [n3, hl] at h3
    simp only [hl'] at h3
    exact (Except.ok.inj (Eq.trans rfl h3)).symm
  subst hm
  have h6 : MeshOf [⟨2, 1, 0, [((2 : ℤ), (⟨0, 0, 1⟩ : V3 ℚ), []), (1, ⟨1, 0, 1⟩, []), (3, ⟨0, 1, 1⟩, [])]⟩] false [⟨2, 1, 2, [(1, [1, 2, 3])]⟩]
    [[[.d3 ⟨0, 0, 1⟩, .d3 ⟨1, 0, 1⟩, .d3 ⟨0, 1, 1⟩]]] := h5
  unfold MeshOf at h6
  simp only [List.forall₂_cons] at h6
  obtain ⟨⟨⟨⟨p, hp, he⟩, -⟩, -⟩, -⟩ := h6
  have hp : (1, p) ∈ [((2 : ℤ), (⟨0, 0, 1⟩ : V3 ℚ)), (1, ⟨1, 0, 1⟩), (3, ⟨0, 1, 1⟩)] := hp
  simp only [List.mem_cons, Prod.mk.injEq, List.not_mem_nil, or_false] at hp
  rcases hp with ⟨h, -⟩ | ⟨-, rfl⟩ | ⟨h, -⟩
  · omega
  · exact absurd he (by decide +kernel)
  · omega

/-- The triangles of the example file. -/
example : ∃ nodes els mesh, fromFileNodes 4 (nodesSection exampleBlocks 1 4) = some (.ok nodes) ∧
    fromFileElements 3 (elementsSection ℚ exampleElements 3 1 3) = some (.ok els) ∧ defineTriangular nodes els = .ok mesh := by
  obtain ⟨nodes, els, mesh, flat, h1, h2, h3, -⟩ := C122_mesh_partial exampleBlocks 1 4 exampleElements 3 1 3 2 3 defineTriangular .triangle
    (by simp [exampleBlocks]) (by unfold InOrder; decide +kernel) (by simp [exampleElements]) (by
      intro b hb e he ht
      simp only [exampleElements, List.mem_cons, List.not_mem_nil, or_false] at hb
      rcases hb with rfl | rfl | rfl
      · simp at ht
      · simp only [List.mem_cons, List.not_mem_nil, or_false] at he
        subst he
        refine ⟨rfl, fun t ht => ?_⟩
        simp only [List.mem_cons, List.not_mem_nil, or_false] at ht
        rcases ht with rfl | rfl | rfl
        · exact ⟨⟨0, 0, 0⟩, by simp [tagged, exampleBlocks]⟩
        · exact ⟨⟨1, 0, 0⟩, by simp [tagged, exampleBlocks]⟩
        · exact ⟨⟨1, 1, 0⟩, by simp [tagged, exampleBlocks]⟩
      · simp only [List.mem_cons, List.not_mem_nil, or_false] at he
        subst he
        refine ⟨rfl, fun t ht => ?_⟩
        simp only [List.mem_cons, List.not_mem_nil, or_false] at ht
        rcases ht with rfl | rfl | rfl
        · exact ⟨⟨0, 0, 0⟩, by simp [tagged, exampleBlocks]⟩
        · exact ⟨⟨1, 1, 0⟩, by simp [tagged, exampleBlocks]⟩
        · exact ⟨⟨0, 1, 0⟩, by simp [tagged, exampleBlocks]⟩)
    ⟨_, .tail _ (.head _), rfl⟩
  exact ⟨nodes, els, mesh, h1, h2, h3⟩
example : defineTriangular (⟨fun _ => none, none⟩ : Nodes ℚ) (fun _ => none) = .error .keyError := C122_missing _ _ 2 3 _ .triangle (.inl rfl)

end Volmdlr.Gmsh
