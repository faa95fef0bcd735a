import Verif.Topo.GraphProps
import Mathlib.Logic.Relation
import Mathlib.Data.List.Perm.Basic

/-!
# C196, C197, C198, C199: bridges, open shells, shells from faces, the graphs kept by a shell

**C196** `faces_graph`: the bridges between the connected components join faces that touch.
**C197** `is_shell_open`: open when an edge is on no other face.
**C198** `from_faces`: the faces are shared out among shells with no common vertex.
**C199** `faces_graph`, `vertices_graph`: the answers do not depend on the calls made before.
-/

namespace Volmdlr.Topo

section
variable {P E : Type*}

/-- Two faces have a vertex in common (within the tolerance). -/
def ShareVertex (kit : Kit P E) (f f' : Face E) : Prop := ∃ p, IsVertexOf kit f p ∧ ∃ p', IsVertexOf kit f' p' ∧ kit.close p p' = true

/-- Connected components of a graph (specification of `nx.connected_components`): each node is in one, two nodes are in the same exactly when a path joins them. -/
def IsComponents (g : Graph) (comps : List (List ℕ)) : Prop :=
  comps.flatten.Perm g.nodes ∧ ∀ i j, (∃ c ∈ comps, i ∈ c ∧ j ∈ c) ↔ i ∈ g.nodes ∧ Relation.ReflTransGen g.Adj i j

lemma reach_symm (g : Graph) {i j : ℕ} (h : Relation.ReflTransGen g.Adj i j) : Relation.ReflTransGen g.Adj j i := by
  induction h with
  | refl => exact Relation.ReflTransGen.refl
  | tail _ hab ih => exact Relation.ReflTransGen.head (Graph.adj_comm.mp hab) ih

lemma reach_node (g : Graph) {i j : ℕ} (h : Relation.ReflTransGen g.Adj i j) (hi : i ∈ g.nodes) : j ∈ g.nodes := by
  induction h with
  | refl => exact hi
  | tail _ hab _ => exact (mem_nodes g _).mpr ⟨_, Graph.adj_comm.mp hab⟩

/-- Every graph has connected components. -/
lemma components_exist (g : Graph) : ∃ comps, IsComponents g comps := by
  classical
  let cls : ℕ → List ℕ := fun i => g.nodes.filter fun j => decide (Relation.ReflTransGen g.Adj i j)
  have hmem : ∀ i j, j ∈ cls i ↔ j ∈ g.nodes ∧ Relation.ReflTransGen g.Adj i j := by
    intro i j; simp [cls, List.mem_filter]
  have heq : ∀ i j, Relation.ReflTransGen g.Adj i j → cls i = cls j := by
    intro i j h
    refine List.filter_congr fun k _ => ?_
    rw [decide_eq_decide]
    exact ⟨fun hk => (reach_symm g h).trans hk, fun hk => h.trans hk⟩
  have hnd : g.nodes.Nodup := List.nodup_dedup _
  refine ⟨(g.nodes.map cls).dedup, ?_, ?_⟩
  · refine (List.perm_ext_iff_of_nodup ?_ hnd).mpr fun i => ?_
    · rw [List.nodup_flatten]
      refine ⟨fun l hl => ?_, ?_⟩
      · obtain ⟨i, -, rfl⟩ := List.mem_map.mp (List.mem_dedup.mp hl)
        exact hnd.filter _
      · refine (List.nodup_dedup _).imp_of_mem fun {a b} ha hb hab => ?_
        obtain ⟨i, -, rfl⟩ := List.mem_map.mp (List.mem_dedup.mp ha)
        obtain ⟨j, -, rfl⟩ := List.mem_map.mp (List.mem_dedup.mp hb)
        intro k hk1 hk2
        exact hab (heq i j (((hmem i k).mp hk1).2.trans (reach_symm g ((hmem j k).mp hk2).2)))
    · rw [List.mem_flatten]
      constructor
      · rintro ⟨l, hl, hi⟩
        obtain ⟨j, -, rfl⟩ := List.mem_map.mp (List.mem_dedup.mp hl)
        exact ((hmem j i).mp hi).1
      · intro hi
        exact ⟨cls i, List.mem_dedup.mpr (List.mem_map.mpr ⟨i, hi, rfl⟩), (hmem i i).mpr ⟨hi, Relation.ReflTransGen.refl⟩⟩
  · intro i j
    constructor
    · rintro ⟨l, hl, hi, hj⟩
      obtain ⟨k, -, rfl⟩ := List.mem_map.mp (List.mem_dedup.mp hl)
      exact ⟨((hmem k i).mp hi).1, (reach_symm g ((hmem k i).mp hi).2).trans ((hmem k j).mp hj).2⟩
    · rintro ⟨hi, hij⟩
      exact ⟨cls i, List.mem_dedup.mpr (List.mem_map.mpr ⟨i, hi, rfl⟩), (hmem i i).mpr ⟨hi, Relation.ReflTransGen.refl⟩, (hmem i j).mpr ⟨reach_node g hij hi, hij⟩⟩

/-! ## Bridges -/

lemma bridgeGroup_spec (check : ℕ → ℕ → Bool) (i : ℕ) : ∀ (l : List ℕ) (st : Graph × Bool),
    (∀ e ∈ st.1, e ∈ (bridgeGroup check i l st).1) ∧
    (∀ e ∈ (bridgeGroup check i l st).1, e ∈ st.1 ∨ ∃ k, e = (i, k) ∧ check i k = true) ∧
    ((bridgeGroup check i l st).2 = false → st.2 = false ∧ ∀ j ∈ l, check i j = false) ∧
    (st.2 = false → (bridgeGroup check i l st).2 = true → ∃ j ∈ l, check i j = true ∧ (i, j) ∈ (bridgeGroup check i l st).1) := by
  intro l
  induction l with
  | nil => intro st; refine ⟨fun e he => he, fun e he => Or.inl he, fun h => ⟨h, by simp⟩, fun h1 h2 => ?_⟩; exact absurd (h1.symm.trans h2) (by simp)
  | cons j rest ih =>
    intro st
    rw [bridgeGroup]
    by_cases hc : check i j = true
    · rw [if_pos hc]
      dsimp only
      rw [if_pos rfl]
      refine ⟨fun e he => by simp [he], ?_, fun h => by simp at h, fun _ _ => ⟨j, List.mem_cons_self, hc, by simp⟩⟩
      intro e he
      simp only [List.mem_append, List.mem_singleton, List.mem_map, List.mem_filter] at he
      rcases he with (he | he) | ⟨k, ⟨-, hk⟩, rfl⟩
      · exact Or.inl he
      · exact Or.inr ⟨j, he, hc⟩
      · exact Or.inr ⟨k, rfl, hk⟩
    · rw [if_neg hc]
      have hc' : check i j = false := by simpa using hc
      split_ifs with hf
      · exact ⟨fun e he => he, fun e he => Or.inl he, fun h => absurd (h.symm.trans hf) (by simp), fun h _ => absurd (h.symm.trans hf) (by simp)⟩
      · obtain ⟨h1, h2, h3, h4⟩ := ih st
        refine ⟨h1, h2, fun h => ⟨(h3 h).1, fun k hk => ?_⟩, fun h5 h6 => ?_⟩
        · rcases List.mem_cons.mp hk with rfl | hk
          · exact hc'
          · exact (h3 h).2 k hk
        · obtain ⟨k, hk, h7⟩ := h4 h5 h6
          exact ⟨k, List.mem_cons_of_mem _ hk, h7⟩

/-- What the steps of the search do to the graph (`tested` are the pairs looked at while nothing was found). -/
def StepSpec (check : ℕ → ℕ → Bool) (tested : ℕ → ℕ → Prop) (st st' : Graph × Bool) : Prop :=
  (∀ e ∈ st.1, e ∈ st'.1) ∧ (∀ e ∈ st'.1, e ∈ st.1 ∨ check e.1 e.2 = true) ∧
  (st'.2 = false → st.2 = false ∧ ∀ i j, tested i j → check i j = false) ∧
  (st.2 = false → st'.2 = true → ∃ i j, tested i j ∧ check i j = true ∧ (i, j) ∈ st'.1)

lemma StepSpec.refl (check : ℕ → ℕ → Bool) (st : Graph × Bool) : StepSpec check (fun _ _ => False) st st :=
  ⟨fun e he => he, fun e he => Or.inl he, fun h => ⟨h, by simp⟩, fun h1 h2 => absurd (h1.symm.trans h2) (by simp)⟩

lemma StepSpec.trans {check : ℕ → ℕ → Bool} {t t' : ℕ → ℕ → Prop} {a b c : Graph × Bool} (h : StepSpec check t a b) (h' : StepSpec check t' b c) :
    StepSpec check (fun i j => t i j ∨ t' i j) a c := by
  obtain ⟨h1, h2, h3, h4⟩ := h
  obtain ⟨k1, k2, k3, k4⟩ := h'
  refine ⟨fun e he => k1 e (h1 e he), ?_, ?_, ?_⟩
  · intro e he
    rcases k2 e he with he | he
    · exact h2 e he
    · exact Or.inr he
  · intro hc
    obtain ⟨hb, ht'⟩ := k3 hc
    obtain ⟨ha, ht⟩ := h3 hb
    exact ⟨ha, fun i j hij => hij.elim (ht i j) (ht' i j)⟩
  · intro ha hc
    cases hb : b.2 with
    | true =>
      obtain ⟨i, j, h5, h6, h7⟩ := h4 ha hb
      exact ⟨i, j, Or.inl h5, h6, k1 _ h7⟩
    | false =>
      obtain ⟨i, j, h5, h6, h7⟩ := k4 hb hc
      exact ⟨i, j, Or.inr h5, h6, h7⟩

lemma StepSpec.mono {check : ℕ → ℕ → Bool} {t t' : ℕ → ℕ → Prop} {a b : Graph × Bool} (h : StepSpec check t a b) (ht : ∀ i j, t i j ↔ t' i j) :
    StepSpec check t' a b := by
  have : t = t' := by funext i j; exact propext (ht i j)
  rwa [← this]

lemma fold_step {α : Type*} {check : ℕ → ℕ → Bool} (f : Graph × Bool → α → Graph × Bool) (t : α → ℕ → ℕ → Prop)
    (h : ∀ a st, StepSpec check (t a) st (f st a)) : ∀ (l : List α) (st : Graph × Bool), StepSpec check (fun i j => ∃ a ∈ l, t a i j) st (l.foldl f st) := by
  intro l
  induction l with
  | nil => intro st; exact (StepSpec.refl check st).mono (by simp)
  | cons a l ih =>
    intro st
    refine ((h a st).trans (ih (f st a))).mono fun i j => ?_
    simp only [List.mem_cons, exists_eq_or_imp]

/-- The pairs of a face of a group and a face of a later group. -/
def Later (groups : List (List ℕ)) (i j : ℕ) : Prop := ∃ before group after, groups = before ++ group :: after ∧ i ∈ group ∧ ∃ other ∈ after, j ∈ other

lemma searchBridges_spec (check : ℕ → ℕ → Bool) : ∀ (groups : List (List ℕ)) (st : Graph × Bool), StepSpec check (Later groups) st (searchBridges check groups st) := by
  intro groups
  induction groups with
  | nil => intro st; exact (StepSpec.refl check st).mono fun i j => by simp [Later]
  | cons group stack ih =>
    intro st
    rw [searchBridges]
    have h1 : ∀ (i : ℕ) (other : List ℕ) (st : Graph × Bool), StepSpec check (fun a b => a = i ∧ b ∈ other) st (bridgeGroup check i other st) := by
      intro i other st
      obtain ⟨k1, k2, k3, k4⟩ := bridgeGroup_spec check i other st
      refine ⟨k1, fun e he => ?_, fun h => ⟨(k3 h).1, ?_⟩, fun h5 h6 => ?_⟩
      · rcases k2 e he with he | ⟨k, rfl, hk⟩
        · exact Or.inl he
        · exact Or.inr hk
      · rintro a b ⟨rfl, hb⟩; exact (k3 h).2 b hb
      · obtain ⟨j, hj, h7, h8⟩ := k4 h5 h6
        exact ⟨i, j, ⟨rfl, hj⟩, h7, h8⟩
    have h2 := fold_step (fun (st : Graph × Bool) (i : ℕ) => stack.foldl (fun (st : Graph × Bool) (other : List ℕ) => bridgeGroup check i other st) st)
      (fun i a b => ∃ other ∈ stack, a = i ∧ b ∈ other) (fun i st => fold_step _ _ (fun other st => h1 i other st) stack st) group st
    refine (h2.trans (ih _)).mono fun i j => ?_
    constructor
    · rintro (⟨a, ha, other, ho, rfl, hj⟩ | ⟨before, g, after, rfl, hi, other, ho, hj⟩)
      · exact ⟨[], group, stack, rfl, ha, other, ho, hj⟩
      · exact ⟨group :: before, g, after, rfl, hi, other, ho, hj⟩
    · rintro ⟨before, g, after, he, hi, other, ho, hj⟩
      cases before with
      | nil =>
        rw [List.nil_append, List.cons.injEq] at he
        obtain ⟨rfl, rfl⟩ := he
        exact Or.inl ⟨i, hi, other, ho, rfl, hj⟩
      | cons b before =>
        rw [List.cons_append, List.cons.injEq] at he
        obtain ⟨rfl, rfl⟩ := he
        exact Or.inr ⟨before, g, after, rfl, hi, other, ho, hj⟩

/-- The start of an edge of the second face is over a contour of the first (as its point in the list of vertices). -/
def Touches (kit : Kit P E) (points : List P) (f f' : Face E) : Prop :=
  ∃ p, IsStart kit f' p ∧ ∃ q, points[indexIn kit p points]? = some q ∧ ∃ c ∈ f.outer :: f.inner, kit.pointOver q c = true

lemma check_iff (kit : Kit P E) (faces : List (Face E)) (points : List P) (i j : ℕ) :
    (match faces[i]? with
      | some f => checkFaces kit points (faces.map (faceVertices kit points)) f j
      | none => false) = true ↔ ∃ f ∈ faces[i]?, ∃ f' ∈ faces[j]?, Touches kit points f f' := by
  rcases hi : faces[i]? with _ | f
  · simp
  · dsimp only
    unfold checkFaces
    rw [List.any_eq_true, List.getD_eq_getElem?_getD, List.getElem?_map]
    rcases hj : faces[j]? with _ | f'
    · simp
    · simp only [Option.map_some, Option.getD_some, Option.mem_some_iff, exists_eq_left']
      constructor
      · rintro ⟨v, hv, h⟩
        obtain ⟨p, hp, rfl⟩ := (mem_faceVertices kit points f' v).mp hv
        rcases hq : points[indexIn kit p points]? with _ | q
        · rw [hq] at h; simp at h
        · rw [hq] at h
          obtain ⟨c, hc, hc'⟩ := List.any_eq_true.mp h
          exact ⟨p, hp, q, hq, c, hc, hc'⟩
      · rintro ⟨p, hp, q, hq, c, hc, hc'⟩
        refine ⟨_, (mem_faceVertices kit points f' _).mpr ⟨p, hp, rfl⟩, ?_⟩
        rw [hq]
        exact List.any_eq_true.mpr ⟨c, hc, hc'⟩

/-- **C196** (partial) the graph with bridges has the edges of the graph of shared vertices, and others only between faces that touch, the start of an edge of the second over a contour of
the first; and if a face of a component touches so a face of a later component, a bridge between two components is made. -/
theorem C196_bridges_partial (kit : Kit P E) (components : Graph → List (List ℕ)) (faces : List (Face E)) (points : List P) (g : Graph)
    (hg : facesGraph kit faces points = .ok g) :
    ∃ g', facesGraphBridged kit components faces points = .ok g' ∧ (∀ e ∈ g, e ∈ g') ∧
      (∀ i j, (i, j) ∈ g' → (i, j) ∈ g ∨ ∃ f ∈ faces[i]?, ∃ f' ∈ faces[j]?, Touches kit points f f') ∧
      ((∃ i j, Later (components g) i j ∧ ∃ f ∈ faces[i]?, ∃ f' ∈ faces[j]?, Touches kit points f f') →
        ∃ i j, Later (components g) i j ∧ (i, j) ∈ g') := by
  unfold facesGraphBridged
  rw [hg]
  refine ⟨_, rfl, ?_⟩
  dsimp only
  split_ifs with hlen
  · obtain ⟨h1, h2, h3, h4⟩ := searchBridges_spec (fun i j : ℕ =>
        match faces[i]? with
        | some f => checkFaces kit points (faces.map (faceVertices kit points)) f j
        | none => false) (components g) (g, false)
    refine ⟨h1, fun i j hij => ?_, ?_⟩
    · rcases h2 _ hij with h | h
      · exact Or.inl h
      · exact Or.inr ((check_iff kit faces points i j).mp h)
    · rintro ⟨i, j, hl, ht⟩
      have hc := (check_iff kit faces points i j).mpr ht
      have : (searchBridges (fun i j : ℕ =>
        match faces[i]? with
        | some f => checkFaces kit points (faces.map (faceVertices kit points)) f j
        | none => false) (components g) (g, false)).2 = true := by
        by_contra hh
        have := (h3 (by simpa using hh)).2 i j hl
        exact absurd (hc.symm.trans this) (by simp)
      obtain ⟨a, b, h5, -, h6⟩ := h4 rfl this
      exact ⟨a, b, h5, h6⟩
  · refine ⟨fun e he => he, fun i j hij => Or.inl hij, ?_⟩
    rintro ⟨i, j, ⟨before, group, after, he, -, other, ho, -⟩, -⟩
    exfalso
    apply hlen
    rw [he, List.length_append, List.length_cons]
    have := List.length_pos_of_mem ho
    omega

/-! ## Open shells -/

lemma open_spec (kit : Kit P E) (faces : List (Face E)) (nodes : List ℕ) (g : Graph) :
    isShellOpenGraph kit faces nodes g = true ↔ ∃ i ∈ nodes, ∃ f ∈ faces[i]?, ∃ c ∈ f.outer :: f.inner, ∃ e ∈ c,
      ∀ j : ℕ, g.Adj i j → ∀ f' ∈ faces[j]?, ∀ c' ∈ f'.outer :: f'.inner, kit.over e c' = false := by
  unfold isShellOpenGraph
  rw [List.any_eq_true]
  refine exists_congr fun i => and_congr_right fun _ => ?_
  rcases hi : faces[i]? with _ | f
  · simp
  · dsimp only
    rw [List.any_eq_true]
    simp only [Option.mem_some_iff, exists_eq_left', Face.edges, List.mem_flatten]
    have hinner : ∀ e : E, ((!(g.neighbors i).any fun m : ℕ => match faces[m]? with
          | none => false
          | some neighbor => onNeighbor kit e neighbor) = true) ↔
        ∀ j : ℕ, g.Adj i j → ∀ f' ∈ faces[j]?, ∀ c' ∈ f'.outer :: f'.inner, kit.over e c' = false := by
      intro e
      rw [Bool.not_eq_true', List.any_eq_false]
      have h1 : ∀ j : ℕ, (¬ (match faces[j]? with
          | none => false
          | some neighbor => onNeighbor kit e neighbor) = true) ↔ ∀ f' ∈ faces[j]?, ∀ c' ∈ f'.outer :: f'.inner, kit.over e c' = false := by
        intro j
        rcases hj : faces[j]? with _ | f'
        · simp
        · simp [onNeighbor, Face.contours]
      constructor
      · intro hh j hj; exact (h1 j).mp (hh j ((mem_neighbors g i j).mpr hj))
      · intro hh j hj; exact (h1 j).mpr (hh j ((mem_neighbors g i j).mp hj))
    constructor
    · rintro ⟨e, ⟨c, hc, he⟩, h⟩; exact ⟨c, hc, e, he, (hinner e).mp h⟩
    · rintro ⟨c, hc, e, he, h⟩; exact ⟨e, ⟨c, hc, he⟩, (hinner e).mpr h⟩

/-- **C197** (partial: closed contours, vertices well apart) the shell is open exactly when a face that shares a vertex with another has an edge over no contour of the other
faces it shares a vertex with. -/
theorem C197_open_partial (kit : Kit P E) (h : kit.Tolerance) (faces : List (Face E)) (hne : ∀ f ∈ faces, f.edges ≠ [])
    (hs : Separated kit faces) (hc : ∀ f ∈ faces, Closed kit f) :
    ∃ b, isShellOpen kit faces = .ok b ∧ (b = true ↔ ∃ i : ℕ, ∃ f ∈ faces[i]?,
      (∃ j : ℕ, i ≠ j ∧ ∃ f' ∈ faces[j]?, ShareVertex kit f f') ∧ ∃ c ∈ f.outer :: f.inner, ∃ e ∈ c,
        ∀ j : ℕ, i ≠ j → ∀ f' ∈ faces[j]?, ShareVertex kit f f' → ∀ c' ∈ f'.outer :: f'.inner, kit.over e c' = false) := by
  obtain ⟨g, hg, hadj⟩ := C195_faces_graph_partial kit h faces hne hs hc
  refine ⟨isShellOpenGraph kit faces g.nodes g, by unfold isShellOpen; rw [hg]; rfl, ?_⟩
  rw [open_spec]
  refine exists_congr fun i => ?_
  constructor
  · rintro ⟨hi, f, hf, c, hc, e, he, hall⟩
    obtain ⟨j, hj⟩ := (mem_nodes g i).mp hi
    obtain ⟨hij, f1, hf1, f', hf', hsh⟩ := (hadj i j).mp hj
    cases hf.symm.trans hf1
    exact ⟨f, hf, ⟨j, hij, f', hf', hsh⟩, c, hc, e, he, fun j hij f' hf' hsh => hall j ((hadj i j).mpr ⟨hij, f, hf, f', hf', hsh⟩) f' hf'⟩
  · rintro ⟨f, hf, ⟨j, hij, f', hf', hsh⟩, c, hc, e, he, hall⟩
    refine ⟨(mem_nodes g i).mpr ⟨j, (hadj i j).mpr ⟨hij, f, hf, f', hf', hsh⟩⟩, f, hf, c, hc, e, he, fun j hj f' hf' => ?_⟩
    obtain ⟨hij, f1, hf1, f2, hf2, hsh⟩ := (hadj i j).mp hj
    cases hf.symm.trans hf1
    cases hf'.symm.trans hf2
    exact hall j hij f' hf' hsh

/-! ## Shells from faces -/

lemma group_unique {α : Type*} {l : List (List α)} (h : l.flatten.Nodup) {c c' : List α} (hc : c ∈ l) (hc' : c' ∈ l) {i : α} (hi : i ∈ c) (hi' : i ∈ c') : c = c' := by
  induction l with
  | nil => simp at hc
  | cons a l ih =>
    rw [List.flatten_cons, List.nodup_append] at h
    obtain ⟨-, h2, h3⟩ := h
    have hm : ∀ {b}, b ∈ l → i ∈ b → i ∈ l.flatten := fun hb hib => List.mem_flatten.mpr ⟨_, hb, hib⟩
    rcases List.mem_cons.mp hc with e1 | e1 <;> rcases List.mem_cons.mp hc' with e2 | e2
    · rw [e1, e2]
    · exact absurd rfl (h3 i (e1 ▸ hi) i (hm e2 hi'))
    · exact absurd rfl (h3 i (e2 ▸ hi') i (hm e1 hi))
    · exact ih h2 e1 e2

/-- **C198** (partial: closed contours, vertices well apart) `from_faces` shares out the faces that share a vertex with another among shells: each of them is in one shell, two are in
the same exactly when a chain of faces that share a vertex joins them, and a shell is open exactly when one of its faces has an edge over no contour of the faces it shares
a vertex with. -/
theorem C198_from_faces_partial (kit : Kit P E) (h : kit.Tolerance) (components : Graph → List (List ℕ)) (hcomp : ∀ g, IsComponents g (components g))
    (faces : List (Face E)) (hne : ∀ f ∈ faces, f.edges ≠ []) (hs : Separated kit faces) (hc : ∀ f ∈ faces, Closed kit f) :
    ∃ shells, fromFaces kit components faces = .ok shells ∧ (shells.flatMap Prod.snd).Nodup ∧
      (∀ i, i ∈ shells.flatMap Prod.snd ↔ ∃ j, i ≠ j ∧ ∃ f ∈ faces[i]?, ∃ f' ∈ faces[j]?, ShareVertex kit f f') ∧
      (∀ i j, i ∈ shells.flatMap Prod.snd → ((∃ s ∈ shells, i ∈ s.2 ∧ j ∈ s.2) ↔
        Relation.ReflTransGen (fun a b => a ≠ b ∧ ∃ f ∈ faces[a]?, ∃ f' ∈ faces[b]?, ShareVertex kit f f') i j)) ∧
      ∀ s ∈ shells, (s.1 = true ↔ ∃ i ∈ s.2, ∃ f ∈ faces[i]?, ∃ c ∈ f.outer :: f.inner, ∃ e ∈ c,
        ∀ j, i ≠ j → ∀ f' ∈ faces[j]?, ShareVertex kit f f' → ∀ c' ∈ f'.outer :: f'.inner, kit.over e c' = false) := by
  obtain ⟨g, hg, hadj⟩ := C195_faces_graph_partial kit h faces hne hs hc
  obtain ⟨hperm, hsame⟩ := hcomp g
  have hrel : g.Adj = fun a b => a ≠ b ∧ ∃ f ∈ faces[a]?, ∃ f' ∈ faces[b]?, ShareVertex kit f f' := by
    funext a b; exact propext (hadj a b)
  refine ⟨_, by unfold fromFaces; rw [hg]; rfl, ?_⟩
  rw [List.flatMap_map]
  have hflat : ((components g).flatMap fun c : List ℕ => c) = (components g).flatten := by simp
  dsimp only
  rw [hflat]
  refine ⟨hperm.nodup_iff.mpr (List.nodup_dedup _), ?_, ?_, ?_⟩
  · intro i
    rw [hperm.mem_iff, mem_nodes, hrel]
  · intro i j hi
    rw [← hrel]
    have := hsame i j
    constructor
    · rintro ⟨s, hs, h1, h2⟩
      obtain ⟨c, hc, rfl⟩ := List.mem_map.mp hs
      exact ((hsame i j).mp ⟨c, hc, h1, h2⟩).2
    · intro h1
      obtain ⟨c, hc, h2, h3⟩ := (hsame i j).mpr ⟨hperm.mem_iff.mp hi, h1⟩
      exact ⟨_, List.mem_map.mpr ⟨c, hc, rfl⟩, h2, h3⟩
  · intro s hs
    obtain ⟨c, hc, rfl⟩ := List.mem_map.mp hs
    dsimp only
    rw [open_spec]
    refine exists_congr fun i => and_congr_right fun hi => ?_
    have hadj' : ∀ j, Graph.Adj (g.filter fun e : ℕ × ℕ => decide (e.1 ∈ c ∧ e.2 ∈ c)) i j ↔ g.Adj i j := by
      intro j
      have hj : g.Adj i j → j ∈ c := by
        intro hij
        obtain ⟨c', hc', h1, h2⟩ := (hsame i j).mpr ⟨(mem_nodes g i).mpr ⟨j, hij⟩, Relation.ReflTransGen.single hij⟩
        have hnd : (components g).flatten.Nodup := hperm.nodup_iff.mpr (List.nodup_dedup _)
        rw [group_unique hnd hc hc' hi h1]
        exact h2
      unfold Graph.Adj
      simp only [List.mem_filter, decide_eq_true_eq]
      constructor
      · rintro (⟨h1, -⟩ | ⟨h1, -⟩)
        · exact Or.inl h1
        · exact Or.inr h1
      · rintro (h1 | h1)
        · exact Or.inl ⟨h1, hi, hj (Or.inl h1)⟩
        · exact Or.inr ⟨h1, hj (Or.inr h1), hi⟩
    refine exists_congr fun f => and_congr_right fun hf => exists_congr fun c1 => and_congr_right fun _ => exists_congr fun e => and_congr_right fun _ => ?_
    constructor
    · intro hall j hij f' hf' hsh
      exact hall j ((hadj' j).mpr ((hadj i j).mpr ⟨hij, f, hf, f', hf', hsh⟩)) f' hf'
    · intro hall j hj f' hf'
      obtain ⟨hij, f1, hf1, f2, hf2, hsh⟩ := (hadj i j).mp ((hadj' j).mp hj)
      cases hf.symm.trans hf1
      cases hf'.symm.trans hf2
      exact hall j hij f' hf' hsh

end

/-- C196 as expected by a user: faces of the graph that touch are connected in the graph with bridges. -/
def C196_full_statement : Prop := ∀ (components : Graph → List (List ℕ)), (∀ g, IsComponents g (components g)) →
  ∀ (faces : List (Face (ℤ × ℤ))) (g g' : Graph), facesGraph lineKit faces (verticesPoints lineKit faces) = .ok g →
    facesGraphBridged lineKit components faces (verticesPoints lineKit faces) = .ok g' → ∀ i ∈ g.nodes, ∀ j ∈ g.nodes,
    (∃ f ∈ faces[i]?, ∃ f' ∈ faces[j]?, Touches lineKit (verticesPoints lineKit faces) f f') → Relation.ReflTransGen g'.Adj i j

/-- Two faces twice, the first between the ends of the second. -/
def nested : List (Face (ℤ × ℤ)) :=
  [⟨[(40, 60), (60, 40)], []⟩, ⟨[(40, 60), (60, 40)], []⟩, ⟨[(0, 100), (100, 0)], []⟩, ⟨[(0, 100), (100, 0)], []⟩]

lemma nested_graph : facesGraph lineKit nested (verticesPoints lineKit nested) = .ok [(0, 1), (0, 1), (2, 3), (2, 3)] := by decide +kernel

lemma nested_reach (i j : ℕ) (h : Relation.ReflTransGen (Graph.Adj [(0, 1), (0, 1), (2, 3), (2, 3)]) i j) : i < 2 ↔ j < 2 := by
  induction h with
  | refl => rfl
  | tail _ hab ih =>
    rw [ih]
    unfold Graph.Adj at hab
    simp only [List.mem_cons, Prod.mk.injEq, List.not_mem_nil, or_false] at hab
    omega

lemma nested_components : IsComponents [(0, 1), (0, 1), (2, 3), (2, 3)] [[0, 1], [2, 3]] := by
  have hn : Graph.nodes [(0, 1), (0, 1), (2, 3), (2, 3)] = [0, 1, 2, 3] := by decide
  have h01 : Graph.Adj [(0, 1), (0, 1), (2, 3), (2, 3)] 0 1 := Or.inl (by simp)
  have h23 : Graph.Adj [(0, 1), (0, 1), (2, 3), (2, 3)] 2 3 := Or.inl (by simp)
  refine ⟨by rw [hn]; rfl, fun i j => ?_⟩
  constructor
  · rintro ⟨c, hc, hi, hj⟩
    simp only [List.mem_cons, List.not_mem_nil, or_false] at hc
    rcases hc with rfl | rfl <;> simp only [List.mem_cons, List.not_mem_nil, or_false] at hi hj <;> rcases hi with rfl | rfl <;> rcases hj with rfl | rfl <;>
      refine ⟨by rw [hn]; simp, ?_⟩
    · exact Relation.ReflTransGen.refl
    · exact Relation.ReflTransGen.single h01
    · exact Relation.ReflTransGen.single (Graph.adj_comm.mp h01)
    · exact Relation.ReflTransGen.refl
    · exact Relation.ReflTransGen.refl
    · exact Relation.ReflTransGen.single h23
    · exact Relation.ReflTransGen.single (Graph.adj_comm.mp h23)
    · exact Relation.ReflTransGen.refl
  · rintro ⟨hi, hij⟩
    have hj := reach_node _ hij hi
    have := nested_reach i j hij
    rw [hn] at hi hj
    simp only [List.mem_cons, List.not_mem_nil, or_false] at hi hj
    by_cases h2 : i < 2
    · exact ⟨[0, 1], by simp, by simp; omega, by simp; omega⟩
    · exact ⟨[2, 3], by simp, by simp; omega, by simp; omega⟩

/-- **C196** false: the vertices of the later components only are looked for on the contours of the earlier ones. -/
theorem C196_counterexample : ¬ C196_full_statement := by
  classical
  intro h
  have := h (fun g => if g = [(0, 1), (0, 1), (2, 3), (2, 3)] then [[0, 1], [2, 3]] else (components_exist g).choose)
    (by
      intro g
      split_ifs with hg
      · rw [hg]; exact nested_components
      · exact (components_exist g).choose_spec)
    nested [(0, 1), (0, 1), (2, 3), (2, 3)] [(0, 1), (0, 1), (2, 3), (2, 3)] nested_graph
    (by
      unfold facesGraphBridged
      rw [nested_graph]
      simp only [Except.map, if_true]
      decide +kernel)
    2 (by decide) 0 (by decide) ⟨_, rfl, _, rfl, 40, ⟨_, List.mem_cons_self, (40, 60), by simp, rfl⟩, 40, by decide +kernel, _, List.mem_cons_self, by decide⟩
  have := nested_reach 2 0 this
  omega

/-- C197 as expected by a user: a shell is closed exactly when every edge of every face is over a contour of another face. -/
def C197_full_statement : Prop := ∀ (faces : List (Face (ℤ × ℤ))), (∀ f ∈ faces, f.edges ≠ [] ∧ Closed lineKit f) → Separated lineKit faces →
  (isShellOpen lineKit faces = .ok false ↔ ∀ i : ℕ, ∀ f ∈ faces[i]?, ∀ c ∈ f.outer :: f.inner, ∀ e ∈ c, ∃ j : ℕ, i ≠ j ∧ ∃ f' ∈ faces[j]?, ∃ c' ∈ f'.outer :: f'.inner, lineKit.over e c' = true)

lemma alone_separated : Separated lineKit [(⟨[(0, 10), (10, 0)], []⟩ : Face (ℤ × ℤ))] := by
  have hv : ∀ p, IsVertex lineKit [(⟨[(0, 10), (10, 0)], []⟩ : Face (ℤ × ℤ))] p → p = 0 ∨ p = 10 := by
    rintro p ⟨f, hf, c, hc, e, he, hp⟩
    simp only [List.mem_cons, List.not_mem_nil, or_false] at hf
    subst hf
    simp only [List.mem_cons, List.not_mem_nil, or_false] at hc
    subst hc
    simp only [List.mem_cons, List.not_mem_nil, or_false] at he
    rcases he with rfl | rfl <;> simp [lineKit] at hp <;> tauto
  intro p q r hp hq hr
  rcases hv p hp with rfl | rfl <;> rcases hv q hq with rfl | rfl <;> rcases hv r hr with rfl | rfl <;> decide

/-- **C197** false: a face that shares no vertex with another is not a node of the graph; a face alone is a closed shell. -/
theorem C197_counterexample : ¬ C197_full_statement := by
  intro h
  have := (h [⟨[(0, 10), (10, 0)], []⟩] (by unfold Closed; decide) alone_separated).mp (by decide +kernel) 0 _ rfl _ List.mem_cons_self (0, 10) (by simp)
  obtain ⟨j, hj, f', hf', -⟩ := this
  cases j with
  | zero => exact hj rfl
  | succ j => simp at hf'

/-- C198 as expected by a user: every face is in a shell. -/
def C198_full_statement : Prop := ∀ (components : Graph → List (List ℕ)), (∀ g, IsComponents g (components g)) →
  ∀ (faces : List (Face (ℤ × ℤ))), (∀ f ∈ faces, f.edges ≠ [] ∧ Closed lineKit f) → Separated lineKit faces →
  ∃ shells, fromFaces lineKit components faces = .ok shells ∧ ∀ i < faces.length, ∃ s ∈ shells, i ∈ s.2

/-- **C198** false: a face that shares no vertex with another is lost. -/
theorem C198_counterexample : ¬ C198_full_statement := by
  intro h
  obtain ⟨shells, h1, h2⟩ := h (fun g => (components_exist g).choose) (fun g => (components_exist g).choose_spec) [⟨[(0, 10), (10, 0)], []⟩] (by unfold Closed; decide) alone_separated
  obtain ⟨shells', k1, -, k3, -, -⟩ := C198_from_faces_partial lineKit lineKit_tolerance (fun g => (components_exist g).choose) (fun g => (components_exist g).choose_spec)
    [⟨[(0, 10), (10, 0)], []⟩] (by decide) alone_separated (by unfold Closed; decide)
  rw [h1] at k1
  cases k1
  obtain ⟨s, hs, hi⟩ := h2 0 (by simp)
  obtain ⟨j, hj, f, -, f', hf', -⟩ := (k3 0).mp (List.mem_flatMap.mpr ⟨s, hs, hi⟩)
  cases j with
  | zero => exact hj rfl
  | succ j => simp at hf'

/-- A run of `is_shell_open`: two faces that share their edges are closed, one with an edge of its own is open. -/
example : isShellOpen lineKit [⟨[(0, 10), (10, 0)], []⟩, ⟨[(10, 0), (0, 10)], []⟩] = .ok false ∧
    isShellOpen lineKit [⟨[(0, 10), (10, 0)], []⟩, ⟨[(10, 30), (30, 0), (0, 10)], []⟩] = .ok true := by decide +kernel

/-! ## The graphs kept by a shell -/

section
variable {G V : Type*}

/-- **C199** (partial: always the same `verify_connected_components`, and the graph of the vertices asked before the graph of the faces) every answer is the one a new shell
gives. -/
theorem C199_history_partial (empty : G → Bool) (build : Bool → G) (buildVertices : V) (verify : Bool) (calls : List ShellCall)
    (hv : ∀ c ∈ calls, c = .facesGraph verify ∨ c = .verticesGraph)
    (horder : calls.Pairwise fun a b => a ≠ .facesGraph verify ∨ b ≠ .verticesGraph) :
    ShellObj.run empty build buildVertices ⟨none, none⟩ calls =
      calls.map fun c => ((⟨none, none⟩ : ShellObj G V).call empty build buildVertices c).2 := by
  have key : ∀ (calls : List ShellCall) (s : ShellObj G V), (∀ c ∈ calls, c = .facesGraph verify ∨ c = .verticesGraph) →
      (calls.Pairwise fun a b => a ≠ .facesGraph verify ∨ b ≠ .verticesGraph) → (s.facesGraph = none ∨ (s.facesGraph = some (build verify) ∧ ∀ c ∈ calls, c ≠ .verticesGraph)) →
      ShellObj.run empty build buildVertices s calls = calls.map fun c => ((⟨none, none⟩ : ShellObj G V).call empty build buildVertices c).2 := by
    intro calls
    induction calls with
    | nil => intros; rfl
    | cons c cs ih =>
      intro s hv hp hs
      rw [List.pairwise_cons] at hp
      rw [ShellObj.run, List.map_cons]
      rcases hv c List.mem_cons_self with rfl | rfl
      · have hcs : ∀ c ∈ cs, c ≠ .verticesGraph := fun c hc => (hp.1 c hc).resolve_left (by simp)
        rw [ih _ (fun c hc => hv c (List.mem_cons_of_mem _ hc)) hp.2]
        · congr 1
          rcases hs with hs | ⟨hs, -⟩
          · simp [ShellObj.call, hs]
          · simp only [ShellObj.call, hs]
            split_ifs <;> rfl
        · right
          refine ⟨?_, hcs⟩
          rcases hs with hs | ⟨hs, -⟩
          · simp [ShellObj.call, hs]
          · simp only [ShellObj.call, hs]
            split_ifs
            · rfl
            · exact hs
      · have hs' : s.facesGraph = none := hs.resolve_right fun hh => hh.2 _ List.mem_cons_self rfl
        rw [ih _ (fun c hc => hv c (List.mem_cons_of_mem _ hc)) hp.2]
        · simp [ShellObj.call, hs']
        · left; simp [ShellObj.call, hs']
  exact key calls ⟨none, none⟩ hv horder (Or.inl rfl)

/-- C199 as expected by a user: the answers are those of a new shell. -/
def C199_full_statement (empty : G → Bool) (build : Bool → G) (buildVertices : V) : Prop := ∀ calls : List ShellCall,
  ShellObj.run empty build buildVertices ⟨none, none⟩ calls = calls.map fun c => ((⟨none, none⟩ : ShellObj G V).call empty build buildVertices c).2

/-- **C199** false as soon as the graph of the faces has a node: after `faces_graph()`, `vertices_graph` is `None`. -/
theorem C199_counterexample (empty : G → Bool) (build : Bool → G) (buildVertices : V) (h : empty (build true) = false) :
    ¬ C199_full_statement empty build buildVertices := by
  intro hf
  have := hf [.facesGraph true, .verticesGraph]
  simp [ShellObj.run, ShellObj.call, h] at this

/-- **C199** and false as soon as the bridges change a graph that is not empty: the flag of the first call is kept. -/
theorem C199_flag_counterexample (empty : G → Bool) (build : Bool → G) (buildVertices : V) (h : empty (build false) = false) (hb : build false ≠ build true) :
    ¬ C199_full_statement empty build buildVertices := by
  intro hf
  have := hf [.facesGraph false, .facesGraph true]
  simp [ShellObj.run, ShellObj.call, h, hb] at this

/-- The hypotheses of C199 are met. -/
example : (∀ c ∈ [ShellCall.verticesGraph, .verticesGraph, .facesGraph true, .facesGraph true], c = .facesGraph true ∨ c = .verticesGraph) ∧
    [ShellCall.verticesGraph, .verticesGraph, .facesGraph true, .facesGraph true].Pairwise fun a b => a ≠ .facesGraph true ∨ b ≠ .verticesGraph := by decide

end

end Volmdlr.Topo
