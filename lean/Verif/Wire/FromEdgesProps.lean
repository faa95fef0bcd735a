import Verif.Wire.SplitModel
import Verif.Wire.OrderProps
import Verif.Wire.WireProps

/-!
# C163: wires built from loose edges
-/

namespace Volmdlr.Wire

variable {E P K : Type} [Field K] [LinearOrder K] [IsStrictOrderedRing K] (k : EdgeKit E P K)

/-! ## Specification -/

/-- The edge has an extremity, up to the tolerance, at one of the two ends of the wire. -/
def Prolongs (tol : K) (e : E) (wire : List E) : Prop :=
  (∃ last ∈ wire.getLast?, k.dist (k.start e) (k.fin last) ≤ tol ∨ k.dist (k.fin e) (k.fin last) ≤ tol) ∨
  ∃ first ∈ wire.head?, k.dist (k.start e) (k.start first) ≤ tol ∨ k.dist (k.fin e) (k.start first) ≤ tol

/-! ## One wire -/

lemma growWire_spec [DecidableEq E] {tol : K} (htol : 0 ≤ tol) : ∀ (n : ℕ) (edges wire used : List E),
    edges.length < n → wire ≠ [] → wire.IsChain (Follows k tol) → UpToOrientation k used wire →
    ∃ used', UpToOrientation k used' (growWire k tol n edges wire).1 ∧
      (used' ++ (growWire k tol n edges wire).2).Perm (used ++ edges) ∧
      (growWire k tol n edges wire).1.IsChain (Follows k tol) ∧ wire.Sublist (growWire k tol n edges wire).1 ∧
      ∀ e ∈ (growWire k tol n edges wire).2, ¬ Prolongs k tol e (growWire k tol n edges wire).1 := by
  intro n
  induction n with
  | zero => intro edges wire used h; simp at h
  | succ n ih =>
    intro edges wire used hlen hne hch hu
    rw [show growWire k tol (n + 1) edges wire = (match orderStep k tol edges wire with
        | none => (wire, edges)
        | some (e, wire') => growWire k tol n (edges.erase e) wire') from rfl]
    rcases hs : orderStep k tol edges wire with _ | ⟨e, wire'⟩
    · dsimp only
      refine ⟨used, hu, List.Perm.refl _, hch, List.Sublist.refl _, ?_⟩
      intro e he hp
      obtain ⟨first, hf⟩ : ∃ first, first ∈ wire.head? := by
        rcases wire with _ | ⟨a, l⟩
        · exact absurd rfl hne
        · exact ⟨a, rfl⟩
      obtain ⟨last, hl⟩ : ∃ last, last ∈ wire.getLast? := ⟨_, List.getLast?_eq_some_getLast hne⟩
      have := orderStep_none k htol hf hl hs e he
      rcases hp with ⟨last', hl', h⟩ | ⟨first', hf', h⟩
      · obtain rfl : last' = last := Option.some.inj (hl'.symm.trans hl)
        tauto
      · obtain rfl : first' = first := Option.some.inj (hf'.symm.trans hf)
        tauto
    · dsimp only
      obtain ⟨he, e', hor, hcase⟩ := orderStep_some k htol hs
      have hp : (e :: edges.erase e).Perm edges := (List.perm_cons_erase he).symm
      have hpos := List.length_pos_of_mem he
      have hlen' : (edges.erase e).length < n := by
        rw [List.length_erase_of_mem he]; omega
      rcases hcase with ⟨last, hlast, rfl, hfol⟩ | ⟨first, hfirst, rfl, hfol⟩
      · obtain ⟨used', h1, h2, h3, h4, h5⟩ := ih (edges.erase e) (wire ++ [e']) (used ++ [e]) hlen' (by simp)
          (follows_append k hlast hch hfol) (List.rel_append hu (List.Forall₂.cons hor List.Forall₂.nil))
        refine ⟨used', h1, h2.trans ?_, h3, (List.sublist_append_left _ _).trans h4, h5⟩
        rw [List.append_assoc]
        exact List.Perm.append_left used hp
      · obtain ⟨used', h1, h2, h3, h4, h5⟩ := ih (edges.erase e) (e' :: wire) (e :: used) hlen' (by simp)
          (follows_cons k hfirst hch hfol) (List.Forall₂.cons hor hu)
        refine ⟨used', h1, h2.trans ?_, h3, (List.sublist_cons_self _ _).trans h4, h5⟩
        rw [List.cons_append]
        exact (List.perm_middle.symm).trans (List.Perm.append_left used hp)

/-! ## All the wires -/

omit [IsStrictOrderedRing K] in
lemma prolongs_of_flip {tol : K} {e e' : E} (h : e' = e ∨ e' = k.reverse e) (wire : List E) :
    Prolongs k tol e' wire ↔ Prolongs k tol e wire := by
  rcases h with rfl | rfl
  · rfl
  · unfold Prolongs
    rw [k.reverse_start, k.reverse_fin]
    simp only [or_comm]

omit [IsStrictOrderedRing K] in
lemma mem_of_upTo {l l' : List E} (h : UpToOrientation k l l') {e' : E} (he : e' ∈ l') :
    ∃ e ∈ l, e' = e ∨ e' = k.reverse e := by
  unfold UpToOrientation at h
  induction h with
  | nil => simp at he
  | cons hab _ ih =>
    rcases List.mem_cons.1 he with rfl | he
    · exact ⟨_, List.mem_cons_self, hab⟩
    · obtain ⟨e, h1, h2⟩ := ih he
      exact ⟨e, List.mem_cons_of_mem _ h1, h2⟩

lemma wiresLoop_spec [DecidableEq E] {tol : K} (htol : 0 ≤ tol) : ∀ (n : ℕ) (edges : List E), edges.length ≤ n →
    (wiresLoop k tol n edges).2 = [] ∧
    (∃ l, l.Perm edges ∧ UpToOrientation k l (wiresLoop k tol n edges).1.flatten) ∧
    (∀ w ∈ (wiresLoop k tol n edges).1, w ≠ [] ∧ w.IsChain (Follows k tol)) ∧
    (wiresLoop k tol n edges).1.Pairwise fun w w' => ∀ e ∈ w', ¬ Prolongs k tol e w := by
  intro n
  induction n with
  | zero =>
    intro edges h
    obtain rfl := List.length_eq_zero_iff.1 (Nat.le_zero.1 h)
    refine ⟨rfl, ⟨[], List.Perm.refl _, List.Forall₂.nil⟩, by simp [wiresLoop], by simp [wiresLoop]⟩
  | succ n ih =>
    intro edges h
    rcases edges with _ | ⟨a, edges⟩
    · refine ⟨rfl, ⟨[], List.Perm.refl _, List.Forall₂.nil⟩, by simp [wiresLoop], by simp [wiresLoop]⟩
    · obtain ⟨used, h1, h2, h3, h4, h5⟩ := growWire_spec k htol (edges.length + 1) edges [a] [a] (Nat.lt_succ_self _) (by simp)
        (List.isChain_singleton _) (List.Forall₂.cons (Or.inl rfl) List.Forall₂.nil)
      simp only [wiresLoop]
      set g := growWire k tol (edges.length + 1) edges [a] with hg
      have hl : used.length = g.1.length := List.Forall₂.length_eq h1
      have hl1 : 1 ≤ g.1.length := h4.length_le
      have hl2 := h2.length_eq
      simp only [List.length_append, List.length_cons, List.length_nil] at hl2 h
      obtain ⟨i1, ⟨l, i2, i3⟩, i4, i5⟩ := ih g.2 (by omega)
      refine ⟨i1, ⟨used ++ l, ?_, ?_⟩, ?_, ?_⟩
      · exact (List.Perm.append_left used i2).trans (by simpa using h2)
      · rw [List.flatten_cons]
        exact List.rel_append h1 i3
      · intro w hw
        rcases List.mem_cons.1 hw with rfl | hw
        · exact ⟨by intro h0; rw [h0] at hl1; simp at hl1, h3⟩
        · exact i4 w hw
      · rw [List.pairwise_cons]
        refine ⟨?_, i5⟩
        intro w' hw' e he
        obtain ⟨e0, he0, hflip⟩ := mem_of_upTo k i3 (List.mem_flatten.2 ⟨w', hw', he⟩)
        rw [prolongs_of_flip k hflip]
        exact h5 e0 (i2.subset he0)

/-- **C163.** `wires_from_edges` always ends, and puts every edge of the list in exactly one wire, exactly once, reversed or not. -/
theorem C163_every_edge_once [DecidableEq E] {tol : K} (htol : 0 ≤ tol) (edges : List E) :
    ∃ l, l.Perm edges ∧ UpToOrientation k l (wiresFromEdges k tol edges).1.flatten := by
  match edges with
  | [] => exact ⟨[], List.Perm.refl _, List.Forall₂.nil⟩
  | [e] => exact ⟨[e], List.Perm.refl _, List.Forall₂.cons (Or.inl rfl) List.Forall₂.nil⟩
  | a :: b :: l => exact (wiresLoop_spec k htol _ (a :: b :: l) le_rfl).2.1

/-- **C163.** Each of the wires has an edge, and each of its edges starts where the previous one ends. -/
theorem C163_chains [DecidableEq E] {tol : K} (htol : 0 ≤ tol) (edges : List E) :
    ∀ w ∈ (wiresFromEdges k tol edges).1, w ≠ [] ∧ w.IsChain (Follows k tol) := by
  match edges with
  | [] => simp [wiresFromEdges]
  | [e] => intro w hw; simp [wiresFromEdges] at hw; subst hw; exact ⟨by simp, List.isChain_singleton _⟩
  | a :: b :: l => exact (wiresLoop_spec k htol _ (a :: b :: l) le_rfl).2.2.1

/-- **C163.** The wires cannot be prolonged by the edges of those which come after them: no such edge has an extremity at one of
the two ends of the wire. -/
theorem C163_maximal [DecidableEq E] {tol : K} (htol : 0 ≤ tol) (edges : List E) :
    (wiresFromEdges k tol edges).1.Pairwise fun w w' => ∀ e ∈ w', ¬ Prolongs k tol e w := by
  match edges with
  | [] => simp [wiresFromEdges]
  | [e] => simp [wiresFromEdges]
  | a :: b :: l => exact (wiresLoop_spec k htol _ (a :: b :: l) le_rfl).2.2.2

/-- **C163.** The total length is kept. -/
theorem C163_length [DecidableEq E] {tol : K} (htol : 0 ≤ tol) (edges : List E) :
    (((wiresFromEdges k tol edges).1.map (wireLength k)).sum) = (edges.map k.length).sum := by
  obtain ⟨l, hl, hu⟩ := C163_every_edge_once k htol edges
  have h1 : ∀ ws : List (List E), (ws.map (wireLength k)).sum = (ws.flatten.map k.length).sum := by
    intro ws
    induction ws with
    | nil => simp
    | cons w ws ih => rw [List.map_cons, List.sum_cons, ih, C52_length, List.flatten_cons, List.map_append, List.sum_append]
  have h2 : ∀ l l' : List E, UpToOrientation k l l' → (l.map k.length).sum = (l'.map k.length).sum := by
    intro l l' h
    unfold UpToOrientation at h
    induction h with
    | nil => rfl
    | cons hab _ ih =>
      rw [List.map_cons, List.sum_cons, List.map_cons, List.sum_cons, ih]
      rcases hab with rfl | rfl
      · rfl
      · rw [k.reverse_length]
  rw [h1, ← h2 _ _ hu, (hl.map k.length).sum_eq]

/-- **C163.** When the edges can be ordered in one chain by `ordering_primitives` and none of them is degenerate,
`wires_from_edges` gives this one chain. -/
theorem C163_one_wire [DecidableEq E] {tol : K} (htol : 0 ≤ tol) (edges res : List E) (hlen : ∀ e ∈ edges, tol < k.length e)
    (h : orderingPrimitives k tol edges = .ok res) : (wiresFromEdges k tol edges).1 = [res] := by
  unfold orderingPrimitives at h
  rw [notDegenerate_eq k htol, List.filter_eq_self.2 (fun e he => by simpa using hlen e he)] at h
  have key : ∀ (n : ℕ) (es wire : List E), es.length ≤ n → orderLoop k tol n es wire = .ok res →
      growWire k tol (n + 1) es wire = (res, []) := by
    intro n
    induction n with
    | zero =>
      intro es wire hl ho
      obtain rfl := List.length_eq_zero_iff.1 (Nat.le_zero.1 hl)
      simp only [orderLoop] at ho
      obtain rfl := Except.ok.inj ho
      simp [growWire, orderStep]
    | succ n ih =>
      intro es wire hl ho
      rcases es with _ | ⟨a, l⟩
      · simp only [orderLoop] at ho
        obtain rfl := Except.ok.inj ho
        simp [growWire, orderStep]
      · rw [show orderLoop k tol (n + 1) (a :: l) wire = (match orderStep k tol (a :: l) wire with
          | none => .error .notImplemented
          | some (e, new') => orderLoop k tol n ((a :: l).erase e) new') from rfl] at ho
        rw [growWire]
        rcases hs : orderStep k tol (a :: l) wire with _ | ⟨e, wire'⟩
        · rw [hs] at ho; cases ho
        · rw [hs] at ho
          dsimp only at ho ⊢
          obtain ⟨he, -⟩ := orderStep_some k htol hs
          refine ih _ _ ?_ ho
          rw [List.length_erase_of_mem he]
          simp at hl ⊢
          omega
  match edges with
  | [] => cases h
  | [e] =>
    dsimp only at h
    simp only [List.length_nil, orderLoop] at h
    obtain rfl := Except.ok.inj h
    rfl
  | a :: b :: l =>
    dsimp only at h
    have := key _ _ _ le_rfl h
    rw [show wiresFromEdges k tol (a :: b :: l) = wiresLoop k tol ((b :: l).length + 1) (a :: b :: l) from rfl, wiresLoop]
    dsimp only
    rw [this]
    cases l <;> simp [wiresLoop]

/-- The list of the caller is not changed. -/
def C163_list_kept_full_statement : Prop :=
  ∀ (edges : List (ℚ × ℚ)), (wiresFromEdges C51_segments (1 / 10) edges).2 = edges

/-- **C163 (counterexample).** The list given by the caller is emptied as soon as it has two edges. -/
theorem C163_list_emptied_counterexample [DecidableEq E] {tol : K} (htol : 0 ≤ tol) (edges : List E) (h : 2 ≤ edges.length) :
    (wiresFromEdges k tol edges).2 = [] ∧ (wiresFromEdges k tol edges).2 ≠ edges ∧ ¬ C163_list_kept_full_statement := by
  refine ⟨?_, ?_, ?_⟩
  · match edges with
    | [] => rfl
    | [e] => simp at h
    | a :: b :: l => exact (wiresLoop_spec k htol _ (a :: b :: l) le_rfl).1
  · match edges with
    | [] => simp at h
    | [e] => simp at h
    | a :: b :: l =>
      have := (wiresLoop_spec k htol _ (a :: b :: l) le_rfl).1
      rw [show wiresFromEdges k tol (a :: b :: l) = wiresLoop k tol (a :: b :: l).length (a :: b :: l) from rfl, this]
      simp
  · intro hc
    have := hc [(1, 2), (4, 5)]
    revert this
    decide +kernel

/-- No edge has an extremity at an end of another wire. -/
def C163_maximal_both_ways_full_statement : Prop :=
  ∀ (edges : List (ℚ × ℚ)), (wiresFromEdges C51_segments (1 / 10) edges).1.Pairwise fun w w' =>
    ∀ e ∈ w, ¬ Prolongs C51_segments (1 / 10) e w'

/-- **C163 (counterexample).** The other way round is false: a wire can end in the middle of one which comes before it, as the third edge of a
star with three branches does. -/
theorem C163_maximal_counterexample :
    wiresFromEdges C51_segments (1 / 10) [(0, 1), (0, -1), (0, 5)] = ([[(-1, 0), (0, 1)], [(0, 5)]], []) ∧
    ¬ C163_maximal_both_ways_full_statement := by
  have h : wiresFromEdges C51_segments (1 / 10) [(0, 1), (0, -1), (0, 5)] = ([[(-1, 0), (0, 1)], [(0, 5)]], []) := by decide +kernel
  refine ⟨h, fun hc => ?_⟩
  have := hc [(0, 1), (0, -1), (0, 5)]
  rw [h] at this
  simp only [List.pairwise_cons, List.mem_singleton, forall_eq] at this
  refine this.1 (0, 1) (by simp) (Or.inr ⟨(0, 5), rfl, Or.inl ?_⟩)
  decide +kernel

/-- Two separate chains, given in disorder. -/
example : wiresFromEdges C51_segments (1 / 10) [(1, 2), (7, 6), (1, 0), (7, 8), (5, 2)] =
    ([[(0, 1), (1, 2), (2, 5)], [(8, 7), (7, 6)]], []) := by decide +kernel

/-- The hypotheses of `C163_one_wire` are met. -/
example : (wiresFromEdges C51_segments (1 / 10) [(1, 2), (1, 0), (5, 2)]).1 = [[(0, 1), (1, 2), (2, 5)]] :=
  C163_one_wire C51_segments (by norm_num) _ _ (by decide +kernel) (by decide +kernel)

end Volmdlr.Wire
