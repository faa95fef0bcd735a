import Verif.Fem.Model
import Mathlib.Tactic.Linarith
import Mathlib.Tactic.NormNum
import Mathlib.Data.List.Dedup
import Mathlib.Data.List.Nodup
import Mathlib.Algebra.Order.Ring.Rat

/-!
# Properties C71 and C72: nodes of a mesh, merging of nodes
-/

namespace Volmdlr.Fem

variable {K : Type*} [Field K] [LinearOrder K]
variable {P : Type*} [DecidableEq P]

/-- Specification of a Python set built from a list: the same elements, each once, in any order. -/
def IsEnum (enum : List P → List P) : Prop := ∀ l, (enum l).Nodup ∧ ∀ x, x ∈ enum l ↔ x ∈ l

/-- Not vacuous: there is an enumeration. -/
lemma isEnum_dedup : IsEnum (List.dedup : List P → List P) := fun l => ⟨List.nodup_dedup l, fun _ => List.mem_dedup⟩

lemma mem_foldl {α β : Type*} (x : β) (f : List β → α → List β) (Q : α → Prop) (h : ∀ d a, x ∈ f d a ↔ x ∈ d ∨ Q a) (l : List α) :
    ∀ d, x ∈ l.foldl f d ↔ x ∈ d ∨ ∃ a ∈ l, Q a := by
  induction l with
  | nil => intro d; simp
  | cons a l ih =>
    intro d
    rw [List.foldl_cons, ih, h]
    simp only [List.mem_cons, exists_eq_or_imp, or_assoc]

/-! ## C71 -/

lemma dictGet_cons {V : Type*} (d : List (P × V)) (k k' : P) (v : V) :
    dictGet ((k, v) :: d) k' = if k = k' then some v else dictGet d k' := by
  unfold dictGet
  rw [List.find?_cons]
  by_cases h : k = k' <;> simp [h]

lemma dictGet_none {V : Type*} {d : List (P × V)} {k : P} (h : dictGet d k = none) (v : V) : (k, v) ∉ d := by
  unfold dictGet at h
  rw [Option.map_eq_none_iff, List.find?_eq_none] at h
  intro hm
  simpa using h _ hm

lemma dictGet_some {V : Type*} {d : List (P × V)} {k : P} {v : V} (h : dictGet d k = some v) : (k, v) ∈ d := by
  unfold dictGet at h
  rw [Option.map_eq_some_iff] at h
  obtain ⟨e, he, rfl⟩ := h
  have hm := List.mem_of_find?_eq_some he
  have hk := List.find?_some he
  simp only [decide_eq_true_eq] at hk
  subst hk
  exact hm

lemma dictGet_filter {V : Type*} (d : List (P × V)) (k k' : P) (h : k ≠ k') :
    dictGet (d.filter fun e => e.1 ≠ k) k' = dictGet d k' := by
  induction d with
  | nil => rfl
  | cons e d ih =>
    obtain ⟨a, v⟩ := e
    rw [List.filter_cons]
    by_cases ha : a = k
    · subst ha
      rw [if_neg (by simp), ih, dictGet_cons, if_neg h]
    · rw [if_pos (by simpa using ha), dictGet_cons, dictGet_cons, ih]

lemma dictGet_append {V : Type*} (d : List (P × List V)) (k k' : P) (v : V) :
    dictGet (dictAppend d k v) k' = if k = k' then some ((dictGet d k').getD [] ++ [v]) else dictGet d k' := by
  unfold dictAppend
  rcases h : dictGet d k with _ | l
  · dsimp only
    rw [dictGet_cons]
    by_cases hk : k = k'
    · subst hk; simp [h]
    · simp [hk]
  · dsimp only
    rw [dictGet_cons]
    by_cases hk : k = k'
    · subst hk; simp [h]
    · rw [if_neg hk, if_neg hk, dictGet_filter _ _ _ hk]

lemma dictGet_element (p : P) (element : List P) (l : List P) : ∀ d : List (P × List (List P)),
    (dictGet (l.foldl (fun d point => dictAppend d point element) d) p).getD [] =
      (dictGet d p).getD [] ++ List.replicate (l.count p) element ∧
    ((dictGet (l.foldl (fun d point => dictAppend d point element) d) p).isSome ↔ (dictGet d p).isSome ∨ p ∈ l) := by
  induction l with
  | nil => intro d; simp
  | cons a l ih =>
    intro d
    rw [List.foldl_cons]
    obtain ⟨i1, i2⟩ := ih (dictAppend d a element)
    rw [i1, i2, dictGet_append]
    by_cases ha : a = p
    · subst ha
      simp [List.replicate_succ]
    · rw [if_neg ha]
      simp [ha, List.count_cons, Ne.symm ha]

/-- **C71.** `elements_per_node` associates to each node exactly the elements having that point, in their order (once per occurrence of
the point), and has no other key. -/
theorem C71_elements_per_node (g : Group P) (p : P) :
    (dictGet g.elementsPerNode p = none ↔ ∀ e ∈ g.elements, p ∉ e) ∧
    ∀ l, dictGet g.elementsPerNode p = some l → l = g.elements.flatMap fun e => List.replicate (e.count p) e := by
  have key : ∀ (els : List (List P)) (d : List (P × List (List P))),
      (dictGet (els.foldl (fun d element => element.foldl (fun d point => dictAppend d point element) d) d) p).getD [] =
        (dictGet d p).getD [] ++ els.flatMap (fun e => List.replicate (e.count p) e) ∧
      ((dictGet (els.foldl (fun d element => element.foldl (fun d point => dictAppend d point element) d) d) p).isSome ↔
        (dictGet d p).isSome ∨ ∃ e ∈ els, p ∈ e) := by
    intro els
    induction els with
    | nil => intro d; simp
    | cons e els ih =>
      intro d
      rw [List.foldl_cons]
      obtain ⟨i1, i2⟩ := ih (e.foldl (fun d point => dictAppend d point e) d)
      obtain ⟨j1, j2⟩ := dictGet_element p e e d
      rw [i1, i2, j1, j2]
      simp [or_assoc]
  obtain ⟨k1, k2⟩ := key g.elements []
  unfold Group.elementsPerNode
  constructor
  · rw [← Option.not_isSome_iff_eq_none, k2]
    simp [dictGet]
  · intro l hl
    rw [hl] at k1
    simpa [dictGet] using k1

/-- **C71.** The set of nodes of a mesh: each point of an element, once. -/
theorem C71_nodes (enum : List P → List P) (he : IsEnum enum) (groups : List (Group P)) :
    (MeshState.make enum groups).nodes.Nodup ∧
    ∀ p, p ∈ (MeshState.make enum groups).nodes ↔ ∃ g ∈ groups, ∃ e ∈ g.elements, p ∈ e := by
  refine ⟨(he _).1, fun p => ?_⟩
  unfold MeshState.make
  dsimp only
  rw [(he _).2]
  simp [List.mem_flatMap, List.mem_flatten]

/-- **C71.** `node_to_index` is the inverse of the tuple of nodes, for every set of groups. -/
theorem C71_node_to_index (enum : List P → List P) (he : IsEnum enum) (groups : List (Group P)) (p : P) (i : ℕ) :
    dictGet (MeshState.make enum groups).nodeToIndex p = some i ↔ (MeshState.make enum groups).nodes[i]? = some p := by
  have hn := (C71_nodes enum he groups).1
  unfold MeshState.nodeToIndex
  generalize (MeshState.make enum groups).nodes = l at hn
  have inj : ∀ a b : P × ℕ, a ∈ l.zipIdx → b ∈ l.zipIdx → a.1 = b.1 → a = b := by
    rintro ⟨a, i⟩ ⟨b, j⟩ ha hb h
    simp only at h; subst h
    rw [List.mk_mem_zipIdx_iff_getElem?] at ha hb
    obtain ⟨hi, e1⟩ := List.getElem?_eq_some_iff.1 ha
    obtain ⟨hj, e2⟩ := List.getElem?_eq_some_iff.1 hb
    rw [(hn.getElem_inj_iff).1 (e1.trans e2.symm)]
  constructor
  · intro h
    exact List.mk_mem_zipIdx_iff_getElem?.1 (List.mem_reverse.1 (dictGet_some h))
  · intro h
    have hm : (p, i) ∈ l.zipIdx := List.mk_mem_zipIdx_iff_getElem?.2 h
    rcases hf : dictGet l.zipIdx.reverse p with _ | j
    · exact absurd (List.mem_reverse.2 hm) (dictGet_none hf i)
    · have := inj _ _ (List.mem_reverse.1 (dictGet_some hf)) hm rfl
      rw [Prod.mk.injEq] at this
      rw [this.2]

/-- **C71.** `point_to_element` of a mesh returns an element to which the point belongs, of the first group that has one; `None` exactly
when there is none. -/
theorem C71_point_to_element (m : MeshState P) (belongs : List P → Bool) :
    (m.pointToElement belongs = none ↔ ∀ g ∈ m.groups, ∀ e ∈ g.elements, belongs e = false) ∧
    ∀ e ∈ m.pointToElement belongs, belongs e = true ∧ ∃ g ∈ m.groups, e ∈ g.elements := by
  unfold MeshState.pointToElement Group.pointToElement
  constructor
  · simp
  · intro e he
    obtain ⟨g, hg, h⟩ := List.exists_of_findSome?_eq_some he
    exact ⟨List.find?_some h, g, hg, List.mem_of_find?_eq_some h⟩

/-- Not vacuous. -/
example : dictGet (Group.elementsPerNode ⟨[[1, 2, 3], [2, 3, 4]], [1, 2, 3, 4]⟩) 3 = some [[1, 2, 3], [2, 3, 4]] ∧
    dictGet (MeshState.make List.dedup [⟨[[1, 2, 3], [2, 3, 4]], [1, 2, 3, 4]⟩]).nodeToIndex 4 = some 3 := by decide +kernel

/-- **C71.** The bounding rectangle of a mesh bounds all of its nodes, with nodes on each of its sides. -/
theorem C71_bounding_rectangle {K : Type*} [Field K] [LinearOrder K] (m : MeshState (V2 K)) :
    (m.boundingRectangle = none ↔ m.nodes = []) ∧
    ∀ a b c d, m.boundingRectangle = some (a, b, c, d) →
      (∀ p ∈ m.nodes, a ≤ p.x ∧ p.x ≤ b ∧ c ≤ p.y ∧ p.y ≤ d) ∧
      (∃ p ∈ m.nodes, p.x = a) ∧ (∃ p ∈ m.nodes, p.x = b) ∧ (∃ p ∈ m.nodes, p.y = c) ∧ (∃ p ∈ m.nodes, p.y = d) := by
  unfold MeshState.boundingRectangle
  dsimp only
  rcases h1 : (m.nodes.map V2.x).min? with _ | a'
  · rw [List.min?_eq_none_iff, List.map_eq_nil_iff] at h1
    simp [h1]
  rcases h2 : (m.nodes.map V2.x).max? with _ | b'
  · rw [List.max?_eq_none_iff, List.map_eq_nil_iff] at h2
    simp [h2] at h1
  rcases h3 : (m.nodes.map V2.y).min? with _ | c'
  · rw [List.min?_eq_none_iff, List.map_eq_nil_iff] at h3
    simp [h3] at h1
  rcases h4 : (m.nodes.map V2.y).max? with _ | d'
  · rw [List.max?_eq_none_iff, List.map_eq_nil_iff] at h4
    simp [h4] at h1
  dsimp only
  refine ⟨⟨fun h => by simp at h, fun h => by rw [h] at h1; simp at h1⟩, ?_⟩
  intro a b c d h
  simp only [Option.some.injEq, Prod.mk.injEq] at h
  obtain ⟨rfl, rfl, rfl, rfl⟩ := h
  rw [List.min?_eq_some_iff] at h1 h3
  rw [List.max?_eq_some_iff] at h2 h4
  refine ⟨fun p hp => ⟨h1.2 _ (List.mem_map_of_mem hp), h2.2 _ (List.mem_map_of_mem hp), h3.2 _ (List.mem_map_of_mem hp),
    h4.2 _ (List.mem_map_of_mem hp)⟩, ?_, ?_, ?_, ?_⟩
  · exact List.mem_map.1 h1.1
  · exact List.mem_map.1 h2.1
  · exact List.mem_map.1 h3.1
  · exact List.mem_map.1 h4.1

/-! ## C72: merging the nodes of the groups on those of a reference group -/

/-- Specification: at a distance that calls for a merge. -/
def Near (dist : P → P → K) (tol : K) (p q : P) : Prop := 1 / 10 ^ 8 < dist p q ∧ dist p q < tol

/-- Specification of the point by which a point of another group is replaced. -/
def IsReplacement (dist : P → P → K) (tol : K) (ref : List P) (p q : P) : Prop :=
  (q = p ∧ ∀ r ∈ ref, ¬Near dist tol p r) ∨ (q ∈ ref ∧ Near dist tol p q)

/-- Specification of the mesh after merging: the reference group is the same; the other groups have as many elements, with as many
points, each replaced. -/
def IsMerged (dist : P → P → K) (tol : K) (ref : ℕ) (gs gs' : List (Group P)) : Prop :=
  ∃ g, gs[ref]? = some g ∧ gs'[ref]? = some g ∧
    List.Forall₂ (fun a b : Group P => List.Forall₂ (List.Forall₂ (IsReplacement dist tol g.nodes)) a.elements b.elements)
      (gs.eraseIdx ref) (gs'.eraseIdx ref)

/-- **C72, full statement.** Whatever was done before on the mesh, `delete_duplicated_nodes` merges the nodes, and `copy` gives a mesh with
the same groups. -/
def C72_full_statement (P : Type) [DecidableEq P] (K : Type) [Field K] [LinearOrder K] : Prop :=
  ∀ (enum : List P → List P) (dist : P → P → K) (m : MeshState P) (ref : ℕ) (tol : K), IsEnum enum →
    (∀ g ∈ m.groups, ∀ p, p ∈ g.nodes ↔ p ∈ g.elements.flatten) → ref < m.groups.length →
    (∃ m', (m.deleteDuplicatedNodes enum dist ref tol).1 = some m' ∧ IsMerged dist tol ref m.groups m'.groups) ∧
    (∃ m', m.copy enum = some m' ∧ m'.groups = m.groups)

lemma mem_corrections (dist : P → P → K) (tol : K) (groups : List (Group P)) (ref : List P) (e : P × P) :
    e ∈ corrections dist tol groups ref ↔ ∃ g ∈ groups, e.1 ∈ g.nodes ∧ e.2 ∈ ref ∧ Near dist tol e.1 e.2 := by
  unfold corrections
  rw [mem_foldl e _ (fun g => e.1 ∈ g.nodes ∧ e.2 ∈ ref ∧ Near dist tol e.1 e.2)]
  · simp
  · intro d g
    rw [mem_foldl e _ (fun n => e.1 = n ∧ e.2 ∈ ref ∧ Near dist tol e.1 e.2)]
    · simp
    · intro d n
      rw [mem_foldl e _ (fun r => e.1 = n ∧ e.2 = r ∧ Near dist tol e.1 e.2)]
      · constructor
        · rintro (h | ⟨r, hr, h1, h2, h3⟩)
          · exact Or.inl h
          · exact Or.inr ⟨h1, h2 ▸ hr, h3⟩
        · rintro (h | ⟨h1, h2, h3⟩)
          · exact Or.inl h
          · exact Or.inr ⟨_, h2, h1, rfl, h3⟩
      · intro d r
        obtain ⟨a, b⟩ := e
        split_ifs with h
        · rw [List.mem_cons, Prod.mk.injEq]
          constructor
          · rintro (⟨rfl, rfl⟩ | h')
            · exact Or.inr ⟨rfl, rfl, h⟩
            · exact Or.inl h'
          · rintro (h' | ⟨rfl, rfl, -⟩)
            · exact Or.inr h'
            · exact Or.inl ⟨rfl, rfl⟩
        · constructor
          · exact Or.inl
          · rintro (h' | ⟨rfl, rfl, h3⟩)
            · exact h'
            · exact absurd h3 h

lemma replacement (dist : P → P → K) (tol : K) (groups : List (Group P)) (ref : List P) (g : Group P) (hg : g ∈ groups) (p : P)
    (hp : p ∈ g.nodes) : IsReplacement dist tol ref p ((dictGet (corrections dist tol groups ref) p).getD p) := by
  rcases h : dictGet (corrections dist tol groups ref) p with _ | q
  · exact Or.inl ⟨rfl, fun r hr hn => dictGet_none h r ((mem_corrections dist tol groups ref (p, r)).2 ⟨g, hg, hp, hr, hn⟩)⟩
  · obtain ⟨-, -, -, h2, h3⟩ := (mem_corrections dist tol groups ref (p, q)).1 (dictGet_some h)
    exact Or.inr ⟨h2, h3⟩

/-- **C72 (partial).** On a mesh that comes from gmsh and whose corrections are not those of other arguments (none computed yet, or
computed with the same reference and tolerance), `delete_duplicated_nodes` replaces each point of the other groups by a node of the
reference group at a distance between `1e-8` and the tolerance whenever there is one, leaves it otherwise, and changes nothing else; a
second call with the same arguments gives the same groups.  Missing: other histories and meshes without gmsh (counterexamples below). -/
theorem C72_delete_duplicated_partial (enum : List P → List P) (he : IsEnum enum) (dist : P → P → K) (m : MeshState P) (ref : ℕ) (tol : K)
    (hwf : ∀ g ∈ m.groups, ∀ p, p ∈ g.nodes ↔ p ∈ g.elements.flatten) (g : Group P) (hg : m.groups[ref]? = some g)
    (hgm : m.gmsh = true) (hc : m.correction = [] ∨ m.correction = corrections dist tol (m.groups.eraseIdx ref) g.nodes) :
    ∃ m', (m.deleteDuplicatedNodes enum dist ref tol).1 = some m' ∧ IsMerged dist tol ref m.groups m'.groups ∧
      (∀ g' ∈ m'.groups, ∀ p, p ∈ g'.nodes ↔ p ∈ g'.elements.flatten) ∧
      ((m.deleteDuplicatedNodes enum dist ref tol).2.deleteDuplicatedNodes enum dist ref tol).1 = some m' := by
  set d := corrections dist tol (m.groups.eraseIdx ref) g.nodes with hd
  have hcor : ∀ m : MeshState P, m.groups[ref]? = some g → d = corrections dist tol (m.groups.eraseIdx ref) g.nodes →
      m.correction = [] ∨ m.correction = d → m.nodesCorrection dist ref tol = some (d, { m with correction := d }) := by
    intro m hg hd hc
    unfold MeshState.nodesCorrection
    by_cases hn : m.correction = []
    · rw [if_pos hn, hg]; dsimp only; rw [← hd]
    · rw [if_neg hn]
      have := hc.resolve_left hn
      rw [this]
      congr 2
      rw [← this]
  have hdel : m.deleteDuplicatedNodes enum dist ref tol =
      (some { MeshState.make enum (((m.groups.eraseIdx ref).map fun g => Group.make enum (g.elements.map (correctElement d))).insertIdx ref g) with
        correction := d, gmsh := true }, { m with correction := d }) := by
    unfold MeshState.deleteDuplicatedNodes
    rw [hg]
    dsimp only
    rw [hcor m hg hd hc]
    dsimp only
    rw [if_pos hgm]
  have hlen : ref < m.groups.length := by
    by_contra h; rw [List.getElem?_eq_none (not_lt.1 h)] at hg; cases hg
  have hle : ref ≤ ((m.groups.eraseIdx ref).map fun g => Group.make enum (g.elements.map (correctElement d))).length := by
    rw [List.length_map, List.length_eraseIdx_of_lt hlen]; omega
  rw [hdel]
  refine ⟨_, rfl, ⟨g, hg, ?_, ?_⟩, ?_, ?_⟩
  · change (List.insertIdx _ ref g)[ref]? = _
    rw [List.getElem?_insertIdx_self, if_pos hle]
  · change List.Forall₂ _ _ ((List.insertIdx _ ref g).eraseIdx ref)
    rw [List.eraseIdx_insertIdx_self, List.forall₂_map_right_iff, List.forall₂_same]
    intro g' hg'
    change List.Forall₂ _ _ (g'.elements.map _)
    rw [List.forall₂_map_right_iff, List.forall₂_same]
    intro e hee
    unfold correctElement
    rw [List.forall₂_map_right_iff, List.forall₂_same]
    intro p hp
    exact replacement dist tol _ _ g' hg' p
      ((hwf g' (List.mem_of_mem_eraseIdx hg') p).2 (List.mem_flatten.2 ⟨e, hee, hp⟩))
  · intro g' hg' p
    change g' ∈ List.insertIdx _ ref g at hg'
    rcases List.eq_or_mem_of_mem_insertIdx hg' with rfl | h
    · exact hwf _ (List.mem_of_getElem? hg) p
    · rw [List.mem_map] at h
      obtain ⟨g0, -, rfl⟩ := h
      exact (he _).2 p
  · have := hcor { m with correction := d } hg hd (Or.inr rfl)
    unfold MeshState.deleteDuplicatedNodes
    rw [show ({ m with correction := d } : MeshState P).groups[ref]? = some g from hg]
    dsimp only at this ⊢
    rw [this]
    dsimp only
    rw [if_pos hgm]

/-- The mesh of the examples: on the line, three groups of one element. -/
def sampleMesh (gmsh : Bool) : MeshState ℚ :=
  { MeshState.make List.dedup [Group.make List.dedup [[0, 1]], Group.make List.dedup [[1 + 1 / 10 ^ 5, 2]],
      Group.make List.dedup [[2 + 1 / 10 ^ 5, 3]]] with gmsh := gmsh }

/-- The groups of the result of the merge, as lists of elements. -/
def mergedElements (m : MeshState ℚ) (ref : ℕ) : Option (List (List (List ℚ))) :=
  ((m.deleteDuplicatedNodes List.dedup (fun a b => |a - b|) ref (1 / 10 ^ 4)).1).map fun m => m.groups.map Group.elements

/-- Not vacuous: merging on the first group, the node at `1 + 1e-5` becomes `1`. -/
example : mergedElements (sampleMesh true) 0 = some [[[0, 1]], [[1, 2]], [[2 + 1 / 10 ^ 5, 3]]] := by decide +kernel

/-- **C72.** Without gmsh both functions raise an error: the setter refuses `None`. -/
theorem C72_no_gmsh_counterexample (enum : List P → List P) (dist : P → P → K) (m : MeshState P) (h : m.gmsh = false) (ref : ℕ) (tol : K) :
    (m.deleteDuplicatedNodes enum dist ref tol).1 = none ∧ m.copy enum = none := by
  unfold MeshState.deleteDuplicatedNodes MeshState.copy
  rw [h]
  refine ⟨?_, by simp⟩
  split
  · rfl
  · split
    · rfl
    · simp

/-- **C72.** The corrections computed by a first call are used again by a second call with another reference: after a merge on the first
group, the merge on the last group leaves the second group apart (`2` instead of `2 + 1e-5`) and moves its other node to the first. -/
theorem C72_stale_counterexample :
    mergedElements ((sampleMesh true).deleteDuplicatedNodes List.dedup (fun a b => |a - b|) 0 (1 / 10 ^ 4)).2 2 =
      some [[[0, 1]], [[1, 2]], [[2 + 1 / 10 ^ 5, 3]]] ∧
    mergedElements (sampleMesh true) 2 = some [[[0, 1]], [[1 + 1 / 10 ^ 5, 2 + 1 / 10 ^ 5]], [[2 + 1 / 10 ^ 5, 3]]] := by
  decide +kernel

/-- **C72.** The full statement is false. -/
theorem C72_full_counterexample : ¬C72_full_statement ℚ ℚ := by
  intro h
  obtain ⟨⟨m', h1, -⟩, -⟩ := h List.dedup (fun a b => |a - b|) (sampleMesh false) 0 (1 / 10 ^ 4) isEnum_dedup (by
    intro g hg p
    simp only [sampleMesh, MeshState.make, List.mem_cons, List.not_mem_nil, or_false] at hg
    rcases hg with rfl | rfl | rfl <;> exact (isEnum_dedup _).2 p) (by decide +kernel)
  rw [(C72_no_gmsh_counterexample _ _ _ rfl _ _).1] at h1
  cases h1

/-- **C72 (partial).** `copy` of a mesh of gmsh has the same groups and corrections. -/
theorem C72_copy_partial (enum : List P → List P) (m : MeshState P) (h : m.gmsh = true) :
    ∃ m', m.copy enum = some m' ∧ m'.groups = m.groups ∧ m'.correction = m.correction ∧ m'.gmsh = true := by
  unfold MeshState.copy
  rw [if_pos h]
  exact ⟨_, rfl, rfl, rfl, rfl⟩

end Volmdlr.Fem
