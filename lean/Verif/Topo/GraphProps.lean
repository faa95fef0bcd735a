import Verif.Topo.Model
import Mathlib.Data.List.Pairwise
import Mathlib.Data.List.GetD

/-!
# C194, C195: vertices of a shell, graph of its faces

**C194** `vertices_points`: every end of an edge of a face is within the tolerance of a listed point; the listed points are ends of edges and no two are within the
tolerance of each other.
**C195** `faces_graph`: two faces are joined exactly when they share a vertex.
-/

namespace Volmdlr.Topo

section
variable {P E : Type*}

/-- The point is an end of an edge of one of the faces. -/
def IsVertex (kit : Kit P E) (faces : List (Face E)) (p : P) : Prop := ∃ f ∈ faces, ∃ c ∈ f.outer :: f.inner, ∃ e ∈ c, p = kit.start e ∨ p = kit.fin e

/-- `is_close` is reflexive and symmetric (a distance compared with a tolerance). -/
structure Kit.Tolerance (kit : Kit P E) : Prop where
  refl : ∀ p, kit.close p p = true
  symm : ∀ p q, kit.close p q = kit.close q p

lemma addPoint_spec (kit : Kit P E) (h : kit.Tolerance) (points : List P) (p : P) (hp : points.Pairwise fun a b => kit.close a b = false) :
    (addPoint kit points p).Pairwise (fun a b => kit.close a b = false) ∧ (∃ q ∈ addPoint kit points p, kit.close q p = true) ∧
    (∀ q ∈ points, q ∈ addPoint kit points p) ∧ ∀ q ∈ addPoint kit points p, q ∈ points ∨ q = p := by
  unfold addPoint
  split_ifs with hc
  · exact ⟨hp, List.any_eq_true.mp hc, fun q hq => hq, fun q hq => Or.inl hq⟩
  · refine ⟨?_, ⟨p, by simp, h.refl p⟩, fun q hq => List.mem_append_left _ hq, fun q hq => by simpa using hq⟩
    rw [List.pairwise_append]
    refine ⟨hp, List.pairwise_singleton _ _, ?_⟩
    intro a ha b hb
    rw [List.mem_singleton.mp hb]
    by_contra hh
    exact hc (List.any_eq_true.mpr ⟨a, ha, by simpa using hh⟩)

lemma mem_edges {faces : List (Face E)} {e : E} : e ∈ faces.flatMap Face.edges ↔ ∃ f ∈ faces, ∃ c ∈ f.outer :: f.inner, e ∈ c := by
  simp only [List.mem_flatMap, Face.edges, Face.contours, List.mem_flatten]

/-- **C194** the vertices of a shell: no two within the tolerance of each other, each is an end of an edge, each end of an edge is within the tolerance of one. -/
theorem C194_vertices (kit : Kit P E) (h : kit.Tolerance) (faces : List (Face E)) :
    (verticesPoints kit faces).Pairwise (fun a b => kit.close a b = false) ∧
    (∀ p ∈ verticesPoints kit faces, IsVertex kit faces p) ∧
    ∀ p, IsVertex kit faces p → ∃ q ∈ verticesPoints kit faces, kit.close q p = true := by
  have key : ∀ (l : List E) (pts : List P), pts.Pairwise (fun a b => kit.close a b = false) →
      let r := l.foldl (fun (points : List P) (e : E) => addPoint kit (addPoint kit points (kit.start e)) (kit.fin e)) pts
      r.Pairwise (fun a b => kit.close a b = false) ∧ (∀ q ∈ pts, q ∈ r) ∧
      (∀ q ∈ r, q ∈ pts ∨ ∃ e ∈ l, q = kit.start e ∨ q = kit.fin e) ∧
      ∀ e ∈ l, (∃ q ∈ r, kit.close q (kit.start e) = true) ∧ ∃ q ∈ r, kit.close q (kit.fin e) = true := by
    intro l
    induction l with
    | nil => intro pts hp; exact ⟨hp, fun q hq => hq, fun q hq => Or.inl hq, by simp⟩
    | cons e l ih =>
      intro pts hp
      obtain ⟨a1, ⟨q1, b1, b1'⟩, c1, d1⟩ := addPoint_spec kit h pts (kit.start e) hp
      obtain ⟨a2, ⟨q2, b2, b2'⟩, c2, d2⟩ := addPoint_spec kit h _ (kit.fin e) a1
      obtain ⟨i1, i2, i3, i4⟩ := ih _ a2
      rw [List.foldl_cons]
      refine ⟨i1, fun q hq => i2 q (c2 q (c1 q hq)), ?_, ?_⟩
      · intro q hq
        rcases i3 q hq with hq | ⟨e', he', hq⟩
        · rcases d2 q hq with hq | hq
          · rcases d1 q hq with hq | hq
            · exact Or.inl hq
            · exact Or.inr ⟨e, List.mem_cons_self, Or.inl hq⟩
          · exact Or.inr ⟨e, List.mem_cons_self, Or.inr hq⟩
        · exact Or.inr ⟨e', List.mem_cons_of_mem _ he', hq⟩
      · intro e' he'
        rcases List.mem_cons.mp he' with rfl | he'
        · exact ⟨⟨q1, i2 _ (c2 _ b1), b1'⟩, ⟨q2, i2 _ b2, b2'⟩⟩
        · exact i4 e' he'
  obtain ⟨k1, -, k3, k4⟩ := key (faces.flatMap Face.edges) [] List.Pairwise.nil
  refine ⟨k1, ?_, ?_⟩
  · intro p hp
    rcases k3 p hp with hp | ⟨e, he, hp⟩
    · simp at hp
    · obtain ⟨f, hf, c, hc, hec⟩ := mem_edges.mp he
      exact ⟨f, hf, c, hc, e, hec, hp⟩
  · rintro p ⟨f, hf, c, hc, e, hec, rfl | rfl⟩
    · exact (k4 e (mem_edges.mpr ⟨f, hf, c, hc, hec⟩)).1
    · exact (k4 e (mem_edges.mpr ⟨f, hf, c, hc, hec⟩)).2

/-! ## Graph of the faces -/

lemma Graph.adj_comm {g : Graph} {i j : ℕ} : g.Adj i j ↔ g.Adj j i := Or.comm

lemma mem_neighbors (g : Graph) (i j : ℕ) : j ∈ g.neighbors i ↔ g.Adj i j := by
  unfold Graph.neighbors Graph.Adj
  rw [List.mem_dedup, List.mem_flatMap]
  constructor
  · rintro ⟨⟨a, b⟩, he, h⟩
    rw [List.mem_append] at h
    rcases h with h | h
    · split_ifs at h with hc
      · simp only [List.mem_singleton] at h
        left; dsimp only at hc; rw [← hc, h]; exact he
      · simp at h
    · split_ifs at h with hc
      · simp only [List.mem_singleton] at h
        right; dsimp only at hc; rw [← hc, h]; exact he
      · simp at h
  · rintro (h | h)
    · exact ⟨_, h, by simp⟩
    · exact ⟨_, h, by simp⟩

lemma mem_nodes (g : Graph) (i : ℕ) : i ∈ g.nodes ↔ ∃ j, g.Adj i j := by
  unfold Graph.nodes Graph.Adj
  rw [List.mem_dedup, List.mem_flatMap]
  constructor
  · rintro ⟨⟨a, b⟩, he, h⟩
    simp only [List.mem_cons, List.not_mem_nil, or_false] at h
    rcases h with rfl | rfl
    · exact ⟨b, Or.inl he⟩
    · exact ⟨a, Or.inr he⟩
  · rintro ⟨j, h | h⟩
    · exact ⟨_, h, by simp⟩
    · exact ⟨_, h, by simp⟩

lemma linkVertices_spec (i : ℕ) (vs : List ℕ) : ∀ (st : Graph × (ℕ → List ℕ)), 
    (∀ v, (linkVertices i vs st).2 v = if v ∈ vs then (st.2 v).filter (fun j => decide (j ≠ i)) else st.2 v) ∧
    ∀ e, e ∈ (linkVertices i vs st).1 ↔ e ∈ st.1 ∨ ∃ v ∈ vs, ∃ j ∈ st.2 v, j ≠ i ∧ e = (i, j) := by
  induction vs with
  | nil => intro st; simp [linkVertices]
  | cons v vs ih =>
    intro st
    have e : linkVertices i (v :: vs) st = linkVertices i vs (st.1 ++ ((st.2 v).filter fun j : ℕ => decide (j ≠ i)).map fun j : ℕ => (i, j),
        Function.update st.2 v ((st.2 v).filter fun j : ℕ => decide (j ≠ i))) := rfl
    rw [e]
    obtain ⟨h1, h2⟩ := ih (st.1 ++ ((st.2 v).filter fun j : ℕ => decide (j ≠ i)).map fun j : ℕ => (i, j),
        Function.update st.2 v ((st.2 v).filter fun j : ℕ => decide (j ≠ i)))
    dsimp only at h1 h2
    constructor
    · intro w
      rw [h1 w]
      by_cases hw : w = v
      · subst hw
        simp only [Function.update_self, List.mem_cons, true_or, if_true]
        split_ifs
        · rw [List.filter_filter]; simp
        · rfl
      · simp only [Function.update_of_ne hw, List.mem_cons, hw, false_or]
    · intro x
      rw [h2 x]
      simp only [List.mem_append, List.mem_map, List.mem_filter, decide_eq_true_eq, List.mem_cons]
      constructor
      · rintro ((h | ⟨j, ⟨h3, h4⟩, rfl⟩) | ⟨w, hw, j, hj, hji, rfl⟩)
        · exact Or.inl h
        · exact Or.inr ⟨v, Or.inl rfl, j, h3, h4, rfl⟩
        · refine Or.inr ⟨w, Or.inr hw, j, ?_, hji, rfl⟩
          by_cases hwv : w = v
          · subst hwv
            rw [Function.update_self, List.mem_filter] at hj
            exact hj.1
          · rwa [Function.update_of_ne hwv] at hj
      · rintro (h | ⟨w, rfl | hw, j, hj, hji, rfl⟩)
        · exact Or.inl (Or.inl h)
        · exact Or.inl (Or.inr ⟨j, ⟨hj, hji⟩, rfl⟩)
        · by_cases hwv : w = v
          · subst hwv
            exact Or.inl (Or.inr ⟨j, ⟨hj, hji⟩, rfl⟩)
          · exact Or.inr ⟨w, hw, j, by rwa [Function.update_of_ne hwv], hji, rfl⟩

/-- After the faces before `i`, the dictionary has the faces from `i` on, and the graph the pairs of which the first is before `i`. -/
lemma linkFaces_spec (fv : List (List ℕ)) (hne : ∀ vs ∈ fv, vs ≠ []) : ∀ (rest done : List (List ℕ)) (st : Graph × (ℕ → List ℕ)),
    fv = done ++ rest → (∀ v j, j ∈ st.2 v ↔ (j < fv.length ∧ v ∈ fv.getD j []) ∧ (v ∈ done.flatten → done.length ≤ j)) →
    (∀ a b, (a, b) ∈ st.1 ↔ a < done.length ∧ a < b ∧ b < fv.length ∧ ∃ v, v ∈ fv.getD a [] ∧ v ∈ fv.getD b []) →
    ∃ g, linkFaces done.length rest st = .ok g ∧
      ∀ a b, (a, b) ∈ g ↔ a < b ∧ b < fv.length ∧ ∃ v, v ∈ fv.getD a [] ∧ v ∈ fv.getD b [] := by
  intro rest
  induction rest with
  | nil =>
    intro done st hfv _ h2
    refine ⟨st.1, rfl, fun a b => ?_⟩
    rw [h2, hfv, List.append_nil]
    constructor
    · rintro ⟨-, h⟩; exact h
    · rintro ⟨h3, h4, h5⟩; exact ⟨by omega, h3, h4, h5⟩
  | cons vs rest ih =>
    intro done st hfv h1 h2
    have hvs : vs ≠ [] := hne vs (by rw [hfv]; simp)
    have hget : fv.getD done.length [] = vs := by rw [hfv]; simp
    have hlen : done.length < fv.length := by rw [hfv]; simp
    have hdone : ∀ v, v ∈ done.flatten ↔ ∃ a < done.length, v ∈ fv.getD a [] := by
      intro v
      rw [List.mem_flatten]
      constructor
      · rintro ⟨l, hl, hv⟩
        obtain ⟨a, ha, rfl⟩ := List.mem_iff_getElem.mp hl
        refine ⟨a, ha, ?_⟩
        rw [hfv, List.getD_append _ _ _ _ ha, List.getD_eq_getElem _ _ ha]
        exact hv
      · rintro ⟨a, ha, hv⟩
        rw [hfv, List.getD_append _ _ _ _ ha, List.getD_eq_getElem _ _ ha] at hv
        exact ⟨_, List.getElem_mem _, hv⟩
    obtain ⟨s1, s2⟩ := linkVertices_spec done.length vs st
    have := ih (done ++ [vs]) (linkVertices done.length vs st) (by rw [hfv]; simp) ?_ ?_
    · obtain ⟨g, hg, hg'⟩ := this
      refine ⟨g, ?_, hg'⟩
      rw [linkFaces, if_neg (by simpa using hvs)]
      rw [List.length_append, List.length_singleton] at hg
      exact hg
    · intro v j
      rw [s1, List.flatten_append, List.mem_append, List.length_append, List.length_singleton]
      have hv1 : v ∈ [vs].flatten ↔ v ∈ vs := by simp
      rw [hv1]
      split_ifs with hv
      · rw [List.mem_filter, h1, decide_eq_true_eq]
        constructor
        · rintro ⟨⟨h3, h4⟩, h5⟩
          refine ⟨h3, fun _ => ?_⟩
          by_contra hlt
          have hj : j < done.length := by omega
          have := h4 ((hdone v).mpr ⟨j, hj, h3.2⟩)
          omega
        · rintro ⟨h3, h4⟩
          have := h4 (Or.inr hv)
          exact ⟨⟨h3, fun _ => by omega⟩, by omega⟩
      · rw [h1]
        constructor
        · rintro ⟨h3, h4⟩
          refine ⟨h3, fun h5 => ?_⟩
          have h6 := h4 (h5.resolve_right hv)
          have : j ≠ done.length := by
            rintro rfl
            rw [hget] at h3
            exact hv h3.2
          omega
        · rintro ⟨h3, h4⟩
          refine ⟨h3, fun h5 => ?_⟩
          have := h4 (Or.inl h5)
          omega
    · intro a b
      rw [s2, h2, List.length_append, List.length_singleton]
      constructor
      · rintro (⟨h3, h4, h5, h6⟩ | ⟨v, hv, j, hj, hne', he⟩)
        · exact ⟨by omega, h4, h5, h6⟩
        · cases he
          obtain ⟨⟨h3, h4⟩, h5⟩ := (h1 v b).mp hj
          have hlt : done.length < b := by
            by_contra hh
            have hb : b < done.length := by omega
            have := h5 ((hdone v).mpr ⟨b, hb, h4⟩)
            omega
          exact ⟨by omega, hlt, h3, v, by rw [hget]; exact hv, h4⟩
      · rintro ⟨h3, h4, h5, v, h6, h7⟩
        by_cases ha : a < done.length
        · exact Or.inl ⟨ha, h4, h5, v, h6, h7⟩
        · have hae : a = done.length := by omega
          subst hae
          rw [hget] at h6
          exact Or.inr ⟨v, h6, b, (h1 v b).mpr ⟨⟨h5, h7⟩, fun _ => h4.le⟩, by omega, rfl⟩

/-- The start of an edge of the face. -/
def IsStart (kit : Kit P E) (f : Face E) (p : P) : Prop := ∃ c ∈ f.outer :: f.inner, ∃ e ∈ c, p = kit.start e

lemma mem_faceVertices (kit : Kit P E) (points : List P) (f : Face E) (v : ℕ) :
    v ∈ faceVertices kit points f ↔ ∃ p, IsStart kit f p ∧ indexIn kit p points = v := by
  unfold faceVertices IsStart Face.edges
  rw [List.mem_dedup, List.mem_map]
  simp only [List.mem_flatten]
  constructor
  · rintro ⟨e, ⟨c, hc, he⟩, rfl⟩; exact ⟨_, ⟨c, hc, e, he, rfl⟩, rfl⟩
  · rintro ⟨p, ⟨c, hc, e, he, rfl⟩, rfl⟩; exact ⟨e, ⟨c, hc, he⟩, rfl⟩

/-- The graph of faces that all have an edge, whatever the points: two faces are joined when starts of their edges have the same index. -/
theorem facesGraph_spec (kit : Kit P E) (faces : List (Face E)) (points : List P) (hne : ∀ f ∈ faces, f.edges ≠ []) :
    ∃ g, facesGraph kit faces points = .ok g ∧ ∀ i j, g.Adj i j ↔ i ≠ j ∧ ∃ f ∈ faces[i]?, ∃ f' ∈ faces[j]?, ∃ p, IsStart kit f p ∧ ∃ p', IsStart kit f' p' ∧
      indexIn kit p points = indexIn kit p' points := by
  have hget : ∀ i v, v ∈ (faces.map (faceVertices kit points)).getD i [] ↔ ∃ f ∈ faces[i]?, ∃ p, IsStart kit f p ∧ indexIn kit p points = v := by
    intro i v
    rw [List.getD_eq_getElem?_getD, List.getElem?_map]
    rcases hf : faces[i]? with _ | f
    · simp
    · simp only [Option.map_some, Option.getD_some, mem_faceVertices, Option.mem_some_iff]
      simp
  obtain ⟨g, hg, hg'⟩ := linkFaces_spec (faces.map (faceVertices kit points)) (by
      intro vs hvs
      obtain ⟨f, hf, rfl⟩ := List.mem_map.mp hvs
      intro hh
      refine hne f hf ?_
      unfold faceVertices at hh
      rwa [List.dedup_eq_nil, List.map_eq_nil_iff] at hh) (faces.map (faceVertices kit points)) [] ([], vertexFaces (faces.map (faceVertices kit points)))
    (by simp) (by
      intro v j
      unfold vertexFaces
      simp [List.mem_filter, List.mem_range]) (by simp)
  refine ⟨g, hg, fun i j => ?_⟩
  have hlt : ∀ i v, v ∈ (faces.map (faceVertices kit points)).getD i [] → i < (faces.map (faceVertices kit points)).length := by
    intro i v hv
    by_contra hh
    rw [List.getD_eq_default _ _ (by omega)] at hv
    simp at hv
  have hcommon : ∀ i j, (∃ v, v ∈ (faces.map (faceVertices kit points)).getD i [] ∧ v ∈ (faces.map (faceVertices kit points)).getD j []) ↔
      ∃ f ∈ faces[i]?, ∃ f' ∈ faces[j]?, ∃ p, IsStart kit f p ∧ ∃ p', IsStart kit f' p' ∧ indexIn kit p points = indexIn kit p' points := by
    intro i j
    constructor
    · rintro ⟨v, h1, h2⟩
      obtain ⟨f, hf, p, hp, e1⟩ := (hget i v).mp h1
      obtain ⟨f', hf', p', hp', e2⟩ := (hget j v).mp h2
      exact ⟨f, hf, f', hf', p, hp, p', hp', e1.trans e2.symm⟩
    · rintro ⟨f, hf, f', hf', p, hp, p', hp', e⟩
      exact ⟨_, (hget i _).mpr ⟨f, hf, p, hp, rfl⟩, (hget j _).mpr ⟨f', hf', p', hp', e.symm⟩⟩
  rw [← hcommon]
  unfold Graph.Adj
  rw [hg', hg']
  constructor
  · rintro (⟨h1, h2, h3⟩ | ⟨h1, h2, v, h3, h4⟩)
    · exact ⟨by omega, h3⟩
    · exact ⟨by omega, v, h4, h3⟩
  · rintro ⟨h1, v, h3, h4⟩
    rcases Nat.lt_or_gt_of_ne h1 with h | h
    · exact Or.inl ⟨h, hlt j v h4, v, h3, h4⟩
    · exact Or.inr ⟨h, hlt i v h3, v, h4, h3⟩

/-- The points of the edges are well apart: being within the tolerance is transitive on them. -/
def Separated (kit : Kit P E) (faces : List (Face E)) : Prop :=
  ∀ p q r, IsVertex kit faces p → IsVertex kit faces q → IsVertex kit faces r → kit.close p q = true → kit.close q r = true → kit.close p r = true

/-- Every end of an edge of the face is within the tolerance of the start of an edge of the face (closed contours). -/
def Closed (kit : Kit P E) (f : Face E) : Prop := ∀ c ∈ f.outer :: f.inner, ∀ e ∈ c, ∃ e' ∈ c, kit.close (kit.fin e) (kit.start e') = true

/-- A vertex of a face, the start or the end of an edge of one of its contours. -/
def IsVertexOf (kit : Kit P E) (f : Face E) (p : P) : Prop := ∃ c ∈ f.outer :: f.inner, ∃ e ∈ c, p = kit.start e ∨ p = kit.fin e

lemma index_eq_iff (kit : Kit P E) (h : kit.Tolerance) (faces : List (Face E)) (hs : Separated kit faces) (p q : P) (hp : IsVertex kit faces p) (hq : IsVertex kit faces q) :
    indexIn kit p (verticesPoints kit faces) = indexIn kit q (verticesPoints kit faces) ↔ kit.close p q = true := by
  obtain ⟨v1, v2, v3⟩ := C194_vertices kit h faces
  constructor
  · intro he
    obtain ⟨a, ha, hac⟩ := v3 p hp
    have hlt : indexIn kit p (verticesPoints kit faces) < (verticesPoints kit faces).length := List.findIdx_lt_length_of_exists ⟨a, ha, hac⟩
    have e1 : kit.close (verticesPoints kit faces)[indexIn kit p (verticesPoints kit faces)] p = true := List.findIdx_getElem (w := hlt)
    have hlt2 : indexIn kit q (verticesPoints kit faces) < (verticesPoints kit faces).length := he ▸ hlt
    have e2 : kit.close (verticesPoints kit faces)[indexIn kit q (verticesPoints kit faces)] q = true := List.findIdx_getElem (w := hlt2)
    have e3 : (verticesPoints kit faces)[indexIn kit p (verticesPoints kit faces)] = (verticesPoints kit faces)[indexIn kit q (verticesPoints kit faces)] := by
      congr 1
    rw [← e3] at e2
    exact hs p _ q hp (v2 _ (List.getElem_mem hlt)) hq (by rw [h.symm]; exact e1) e2
  · intro hpq
    unfold indexIn
    have : ∀ l : List P, (∀ a ∈ l, IsVertex kit faces a) → (l.findIdx fun a => kit.close a p) = l.findIdx fun a => kit.close a q := by
      intro l hl
      have hc : ∀ a ∈ l, kit.close a p = kit.close a q := by
        intro a ha
        rw [Bool.eq_iff_iff]
        exact ⟨fun h1 => hs a p q (hl a ha) hp hq h1 hpq, fun h1 => hs a q p (hl a ha) hq hp h1 (by rw [h.symm]; exact hpq)⟩
      clear hl
      induction l with
      | nil => rfl
      | cons a l ih =>
        rw [List.findIdx_cons, List.findIdx_cons, hc a List.mem_cons_self, ih fun b hb => hc b (List.mem_cons_of_mem _ hb)]
    exact this _ v2

/-- **C195** (partial: closed contours, and points either within the tolerance of each other or well apart) two faces are joined in the graph of the faces exactly when
they are different and share a vertex. -/
theorem C195_faces_graph_partial (kit : Kit P E) (h : kit.Tolerance) (faces : List (Face E)) (hne : ∀ f ∈ faces, f.edges ≠ [])
    (hs : Separated kit faces) (hc : ∀ f ∈ faces, Closed kit f) :
    ∃ g, facesGraph kit faces (verticesPoints kit faces) = .ok g ∧ ∀ i j, g.Adj i j ↔
      i ≠ j ∧ ∃ f ∈ faces[i]?, ∃ f' ∈ faces[j]?, ∃ p, IsVertexOf kit f p ∧ ∃ p', IsVertexOf kit f' p' ∧ kit.close p p' = true := by
  obtain ⟨g, hg, hg'⟩ := facesGraph_spec kit faces (verticesPoints kit faces) hne
  refine ⟨g, hg, fun i j => ?_⟩
  rw [hg']
  refine and_congr_right fun hij => exists_congr fun f => and_congr_right fun hf => exists_congr fun f' => and_congr_right fun hf' => ?_
  have hf1 : f ∈ faces := List.mem_of_getElem? hf
  have hf2 : f' ∈ faces := List.mem_of_getElem? hf'
  have hv : ∀ {f p}, f ∈ faces → IsStart kit f p → IsVertex kit faces p := fun hf ⟨c, hc, e, he, hp⟩ => ⟨_, hf, c, hc, e, he, Or.inl hp⟩
  have hv' : ∀ {f p}, f ∈ faces → IsVertexOf kit f p → IsVertex kit faces p := fun hf ⟨c, hc, e, he, hp⟩ => ⟨_, hf, c, hc, e, he, hp⟩
  have hstart : ∀ {f p}, f ∈ faces → IsVertexOf kit f p → ∃ q, IsStart kit f q ∧ kit.close p q = true := by
    rintro f p hf ⟨c, hcc, e, he, rfl | rfl⟩
    · exact ⟨_, ⟨c, hcc, e, he, rfl⟩, h.refl _⟩
    · obtain ⟨e', he', hcl⟩ := hc f hf c hcc e he
      exact ⟨_, ⟨c, hcc, e', he', rfl⟩, hcl⟩
  constructor
  · rintro ⟨p, hp, p', hp', he⟩
    refine ⟨p, ?_, p', ?_, (index_eq_iff kit h faces hs p p' (hv hf1 hp) (hv hf2 hp')).mp he⟩
    · obtain ⟨c, hc, e, he, hp⟩ := hp; exact ⟨c, hc, e, he, Or.inl hp⟩
    · obtain ⟨c, hc, e, he, hp⟩ := hp'; exact ⟨c, hc, e, he, Or.inl hp⟩
  · rintro ⟨p, hp, p', hp', he⟩
    obtain ⟨q, hq, hpq⟩ := hstart hf1 hp
    obtain ⟨q', hq', hpq'⟩ := hstart hf2 hp'
    refine ⟨q, hq, q', hq', (index_eq_iff kit h faces hs q q' (hv hf1 hq) (hv hf2 hq')).mpr ?_⟩
    have h1 : kit.close q p' = true := hs q p p' (hv hf1 hq) (hv' hf1 hp) (hv' hf2 hp') (by rw [h.symm]; exact hpq) he
    exact hs q p' q' (hv hf1 hq) (hv' hf2 hp') (hv hf2 hq') h1 hpq'

/-- **C195** a face with no edge is an exception. -/
theorem C195_empty_face (kit : Kit P E) (faces : List (Face E)) (points : List P) (h : ∃ f ∈ faces, f.edges = []) :
    facesGraph kit faces points = .error .keyError := by
  have key : ∀ (l : List (List ℕ)) (i : ℕ) (st : Graph × (ℕ → List ℕ)), [] ∈ l → linkFaces i l st = .error .keyError := by
    intro l
    induction l with
    | nil => intro i st hh; simp at hh
    | cons vs l ih =>
      intro i st hh
      rw [linkFaces]
      by_cases hvs : vs = []
      · rw [if_pos (by simp [hvs])]
      · rw [if_neg (by simp [hvs])]
        refine ih _ _ ?_
        rcases List.mem_cons.mp hh with hh | hh
        · exact absurd hh.symm hvs
        · exact hh
  obtain ⟨f, hf, he⟩ := h
  exact key _ _ _ (List.mem_map.mpr ⟨f, hf, by simp [faceVertices, he]⟩)

end

/-- Points of a line, edges as pairs of points, tolerance one; an edge is over a contour that has it or its reverse, a point over a contour between the ends of an edge. -/
def lineKit : Kit ℤ (ℤ × ℤ) where
  start e := e.1
  fin e := e.2
  close p q := decide (|p - q| ≤ 1)
  over e c := c.any fun e' : ℤ × ℤ => decide (e = e' ∨ e = (e'.2, e'.1))
  pointOver p c := c.any fun e : ℤ × ℤ => decide (min e.1 e.2 ≤ p ∧ p ≤ max e.1 e.2)

theorem lineKit_tolerance : lineKit.Tolerance :=
  ⟨fun p => by simp [lineKit], fun p q => by simp only [lineKit, abs_sub_comm]⟩

/-- The hypotheses of C195 are met. -/
example : (∀ f ∈ [(⟨[(0, 10), (10, 0)], []⟩ : Face (ℤ × ℤ)), ⟨[(10, 20), (20, 11)], []⟩], f.edges ≠ [] ∧ Closed lineKit f) ∧
    Separated lineKit [(⟨[(0, 10), (10, 0)], []⟩ : Face (ℤ × ℤ)), ⟨[(10, 20), (20, 11)], []⟩] := by
  refine ⟨by unfold Closed; decide, ?_⟩
  have hv : ∀ p, IsVertex lineKit [(⟨[(0, 10), (10, 0)], []⟩ : Face (ℤ × ℤ)), ⟨[(10, 20), (20, 11)], []⟩] p → p = 0 ∨ p = 10 ∨ p = 20 ∨ p = 11 := by
    rintro p ⟨f, hf, c, hc, e, he, hp⟩
    simp only [List.mem_cons, List.not_mem_nil, or_false] at hf
    rcases hf with rfl | rfl <;> simp only [List.mem_cons, List.not_mem_nil, or_false] at hc <;> subst hc <;>
      simp only [List.mem_cons, List.not_mem_nil, or_false] at he <;> rcases he with rfl | rfl <;> simp [lineKit] at hp <;> tauto
  intro p q r hp hq hr
  rcases hv p hp with rfl | rfl | rfl | rfl <;> rcases hv q hq with rfl | rfl | rfl | rfl <;> rcases hv r hr with rfl | rfl | rfl | rfl <;> decide

/-- C195 as expected by a user: two faces with closed contours are joined when they have vertices within the tolerance of each other. -/
def C195_full_statement : Prop := ∀ (faces : List (Face (ℤ × ℤ))), (∀ f ∈ faces, f.edges ≠ [] ∧ Closed lineKit f) →
  ∃ g, facesGraph lineKit faces (verticesPoints lineKit faces) = .ok g ∧ ∀ i j, g.Adj i j ↔
      i ≠ j ∧ ∃ f ∈ faces[i]?, ∃ f' ∈ faces[j]?, ∃ p, IsVertexOf lineKit f p ∧ ∃ p', IsVertexOf lineKit f' p' ∧ lineKit.close p p' = true

/-- **C195** false: a vertex of a face can have the index of another point within the tolerance, and the vertices of the two faces different indices. -/
theorem C195_counterexample : ¬ C195_full_statement := by
  intro h
  obtain ⟨g, hg, hg'⟩ := h [⟨[(0, -10), (-10, 0)], []⟩, ⟨[(1, 30), (30, 1)], []⟩, ⟨[(2, 20), (20, 2)], []⟩] (by unfold Closed; decide)
  have he : facesGraph lineKit [⟨[(0, -10), (-10, 0)], []⟩, ⟨[(1, 30), (30, 1)], []⟩, ⟨[(2, 20), (20, 2)], []⟩]
      (verticesPoints lineKit [⟨[(0, -10), (-10, 0)], []⟩, ⟨[(1, 30), (30, 1)], []⟩, ⟨[(2, 20), (20, 2)], []⟩]) = .ok [(0, 1)] := by decide +kernel
  rw [he] at hg
  cases hg
  have := (hg' 1 2).mpr ⟨by decide, _, rfl, _, rfl, 1, ⟨_, List.mem_cons_self, (1, 30), by simp, Or.inl rfl⟩, 2, ⟨_, List.mem_cons_self, (2, 20), by simp, Or.inl rfl⟩, by decide⟩
  revert this
  unfold Graph.Adj
  decide

end Volmdlr.Topo
