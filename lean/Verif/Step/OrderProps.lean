import Verif.Step.ImportProps

/-!
# C36: STEP import — instantiation order
-/

namespace Volmdlr
open StepImport

/-- **Specification.** The instantiation of `m` looks up the object of `n`. -/
def StepNeeds (file : File) (m n : ℕ) : Prop := ∃ f, lookup file m = some f ∧ n ∈ f.looksUp

/-- **Specification.** `n` is `node` or needed, directly or not, by `node`. -/
def StepDependsOn (file : File) (node n : ℕ) : Prop := Relation.ReflTransGen (StepNeeds file) node n

/-- **Specification.** No entity needed by `node` is missing in the file. -/
def StepComplete (file : File) (node : ℕ) : Prop := ∀ n, StepDependsOn file node n → ∃ f, lookup file n = some f

/-- **Specification.** No entity needed by `node` needs itself, directly or not. -/
def StepAcyclic (file : File) (node : ℕ) : Prop :=
  ∀ n, StepDependsOn file node n → ¬ Relation.TransGen (StepNeeds file) n n

/-- **Specification.** In the sequence of instantiations, everything an entity needs comes before it. -/
def StepOrdered (file : File) (log : List ℕ) : Prop :=
  ∀ before x after, log = before ++ x :: after → ∃ f, lookup file x = some f ∧ ∀ d ∈ f.looksUp, d ∈ before

namespace StepImport

theorem ordered_snoc {file : File} {log : List ℕ} {i : ℕ} {f : Func} (h : StepOrdered file log)
    (hf : lookup file i = some f) (hd : ∀ d ∈ f.looksUp, d ∈ log) : StepOrdered file (log ++ [i]) := by
  intro b x a he
  rcases List.eq_nil_or_concat a with rfl | ⟨a', y, rfl⟩
  · obtain ⟨rfl, h2⟩ := List.append_inj' he rfl
    rw [List.cons.injEq] at h2
    rw [← h2.1]
    exact ⟨f, hf, hd⟩
  · rw [List.concat_eq_append, ← List.cons_append, ← List.append_assoc] at he
    exact h b x a' (List.append_inj' he rfl).1

theorem ordered_closed {file : File} {log : List ℕ} (h : StepOrdered file log) {x : ℕ} (hx : x ∈ log) :
    ∃ f, lookup file x = some f ∧ ∀ d ∈ f.looksUp, d ∈ log := by
  obtain ⟨b, a, rfl⟩ := List.append_of_mem hx
  obtain ⟨f, h1, h2⟩ := h b x a rfl
  exact ⟨f, h1, fun d hd => List.mem_append_left _ (h2 d hd)⟩

theorem ordered_depends {file : File} {log : List ℕ} (h : StepOrdered file log) {x y : ℕ} (hx : x ∈ log)
    (hy : StepDependsOn file x y) : y ∈ log := by
  induction hy with
  | refl => exact hx
  | tail _ h2 ih =>
    obtain ⟨f, h3, h4⟩ := ordered_closed h ih
    obtain ⟨g, h5, h6⟩ := h2
    rw [h3, Option.some.injEq] at h5
    exact h4 _ (h5 ▸ h6)

theorem ordered_idxOf {file : File} {log : List ℕ} (h : StepOrdered file log) {x y : ℕ} (hx : x ∈ log)
    (hy : StepNeeds file x y) : log.idxOf y < log.idxOf x := by
  obtain ⟨b, a, rfl, hb⟩ := List.eq_append_cons_of_mem hx
  obtain ⟨f, h1, h2⟩ := h b x a rfl
  obtain ⟨g, h3, h4⟩ := hy
  rw [h1, Option.some.injEq] at h3
  have hyb := h2 y (h3 ▸ h4)
  rw [List.idxOf_append_of_mem hyb, List.idxOf_append_of_notMem hb]
  have := List.idxOf_lt_length_of_mem hyb
  omega

/-- How a pass ends: at the end of the list, or with a `KeyError`. -/
def PassEnd (file : File) (log' rest : List ℕ) : Option ℕ → Prop
  | none => rest = []
  | some k => ∃ x rest', rest = x :: rest' ∧ ((lookup file x = none ∧ k = x) ∨ (StepNeeds file x k ∧ k ∉ log'))

/-- What one pass does. -/
theorem pass_spec (file : File) (l log log' : List ℕ) (key : Option ℕ) (h : instantiatePass file l log = (log', key))
    (ho : StepOrdered file log) :
    StepOrdered file log' ∧ ∃ done rest, l = done ++ rest ∧ log' = log ++ done ∧
    PassEnd file log' rest key := by
  induction l generalizing log with
  | nil =>
    simp only [instantiatePass, Prod.mk.injEq] at h
    obtain ⟨rfl, rfl⟩ := h
    exact ⟨ho, [], [], rfl, by simp, rfl⟩
  | cons i is ih =>
    rw [instantiatePass] at h
    cases hl : lookup file i with
    | none =>
      rw [hl] at h
      simp only [Prod.mk.injEq] at h
      obtain ⟨rfl, rfl⟩ := h
      exact ⟨ho, [], i :: is, rfl, by simp, i, is, rfl, Or.inl ⟨hl, rfl⟩⟩
    | some f =>
      rw [hl] at h
      dsimp only at h
      cases hd : f.looksUp.find? fun d => d ∉ log with
      | some d =>
        rw [hd] at h
        simp only [Prod.mk.injEq] at h
        obtain ⟨rfl, rfl⟩ := h
        have h1 := List.mem_of_find?_eq_some hd
        have h2 := List.find?_some hd
        exact ⟨ho, [], i :: is, rfl, by simp, i, is, rfl, Or.inr ⟨⟨f, hl, h1⟩, by simpa using h2⟩⟩
      | none =>
        rw [hd] at h
        dsimp only at h
        rw [List.find?_eq_none] at hd
        have hd' : ∀ d ∈ f.looksUp, d ∈ log := fun d hm => by simpa using hd d hm
        obtain ⟨h1, done, rest, rfl, rfl, h3⟩ := ih _ h (ordered_snoc ho hl hd')
        exact ⟨h1, i :: done, rest, rfl, by simp, h3⟩

theorem loop_spec (file : File) (node k : ℕ) (ids log log' : List ℕ) (h : instantiateLoop file k ids log = some log')
    (ho : StepOrdered file log) (hids : ∀ i ∈ ids, StepDependsOn file node i) (hn : node ∈ ids) :
    StepOrdered file log' ∧ log <+: log' ∧ node ∈ log' ∧ ∀ x ∈ log', x ∈ log ∨ StepDependsOn file node x := by
  induction k generalizing ids log with
  | zero => simp [instantiateLoop] at h
  | succ k ih =>
    rw [instantiateLoop] at h
    cases hp : instantiatePass file ids.reverse log with
    | mk l key =>
      rw [hp] at h
      obtain ⟨h1, done, rest, h2, rfl, h4⟩ := pass_spec file _ _ _ _ hp ho
      have hdone : ∀ x ∈ done, StepDependsOn file node x := fun x hx =>
        hids x (List.mem_reverse.1 (h2 ▸ List.mem_append_left _ hx))
      cases key with
      | none =>
        simp only [Option.some.injEq] at h
        subst h
        rw [PassEnd] at h4
        subst h4
        refine ⟨h1, List.prefix_append _ _, ?_, ?_⟩
        · refine List.mem_append_right _ ?_
          rw [List.append_nil] at h2
          exact h2 ▸ List.mem_reverse.2 hn
        · intro x hx
          exact (List.mem_append.1 hx).imp id (hdone x)
      | some key =>
        dsimp only at h; rw [PassEnd] at h4
        obtain ⟨x, rest', rfl, h5⟩ := h4
        have hx : StepDependsOn file node x := hids x (List.mem_reverse.1 (h2 ▸ by simp))
        have hk : StepDependsOn file node key := by
          rcases h5 with ⟨_, rfl⟩ | ⟨h5, _⟩
          · exact hx
          · exact hx.tail h5
        obtain ⟨r1, r2, r3, r4⟩ := ih (ids ++ [key]) _ h h1 (by
          intro i hi
          rcases List.mem_append.1 hi with hi | hi
          · exact hids i hi
          · rw [List.mem_singleton.1 hi]; exact hk) (List.mem_append_left _ hn)
        refine ⟨r1, (List.prefix_append _ _).trans r2, r3, ?_⟩
        intro y hy
        rcases r4 y hy with h | h
        · exact (List.mem_append.1 h).imp id (hdone y)
        · exact Or.inr h

theorem missing_lt {file : File} {l l' : List ℕ} (h : ∀ x ∈ l, x ∈ l') {n : ℕ} (hn : n ∈ file.map Func.id) (h1 : n ∉ l)
    (h2 : n ∈ l') : missing file l' < missing file l := by
  apply Finset.card_lt_card
  rw [Finset.ssubset_iff_of_subset]
  · exact ⟨n, by simp only [Finset.mem_filter, List.mem_toFinset]; exact ⟨hn, h1⟩, by simp [h2]⟩
  · intro x hx
    simp only [Finset.mem_filter] at hx ⊢
    exact ⟨hx.1, fun h' => hx.2 (h x h')⟩

theorem missing_congr {file : File} {l l' : List ℕ} (h : ∀ x, x ∈ l' ↔ x ∈ l) : missing file l' = missing file l := by
  unfold missing
  congr 1
  ext x
  simp [h]

theorem loop_terminates (file : File) (node : ℕ) (hc : StepComplete file node) (rank : ℕ → ℕ)
    (hrank : ∀ m n, StepDependsOn file node m → StepNeeds file m n → rank n < rank m)
    (ids log : List ℕ) (ho : StepOrdered file log) (hids : ∀ i ∈ ids, StepDependsOn file node i)
    (hpw : (ids.filter fun i => i ∉ log).Pairwise fun a b => rank b < rank a) (b : ℕ)
    (hb : ∃ a ∈ ids, a ∉ log ∧ rank a < b) :
    ∃ k r, ∀ k', k ≤ k' → instantiateLoop file k' ids log = some r := by
  induction hm : missing file log using Nat.strong_induction_on generalizing ids log b with
  | _ m ihm =>
  induction b generalizing ids log with
  | zero => obtain ⟨a, _, _, h⟩ := hb; omega
  | succ b ih =>
    cases hp : instantiatePass file ids.reverse log with
    | mk l key =>
      obtain ⟨h1, done, rest, h2, h3, h4⟩ := pass_spec file _ _ _ _ hp ho
      cases key with
      | none =>
        refine ⟨1, l, fun k' hk => ?_⟩
        obtain ⟨k', rfl⟩ : ∃ j, k' = j + 1 := ⟨k' - 1, by omega⟩
        rw [instantiateLoop, hp]
      | some key =>
        rw [PassEnd] at h4
        obtain ⟨x, rest', rfl, h5⟩ := h4
        have hx : StepDependsOn file node x := hids x (List.mem_reverse.1 (h2 ▸ by simp))
        have h5 : StepNeeds file x key ∧ key ∉ l := by
          rcases h5 with ⟨h5, rfl⟩ | h5
          · obtain ⟨f, hf⟩ := hc key hx
            rw [hf] at h5; cases h5
          · exact h5
        obtain ⟨hneed, hkl⟩ := h5
        have hk : StepDependsOn file node key := hx.tail hneed
        have hlt := hrank x key hx hneed
        have hxl : x ∉ l := by
          intro hxl
          obtain ⟨f, g1, g2⟩ := ordered_closed h1 hxl
          obtain ⟨g, g3, g4⟩ := hneed
          rw [g1, Option.some.injEq] at g3
          exact hkl (g2 _ (g3 ▸ g4))
        have hidse : ids = rest'.reverse ++ x :: done.reverse := by
          rw [← List.reverse_reverse ids, h2]; simp
        have hll : ∀ y ∈ log, y ∈ l := fun y hy => by rw [h3]; exact List.mem_append_left _ hy
        have hxlog : x ∉ log := fun h => hxl (hll x h)
        -- everything still pending ranks above `x`
        have hmin : ∀ a ∈ ids, a ∉ l → rank x ≤ rank a := by
          intro a ha hal
          rw [hidse, List.mem_append, List.mem_cons] at ha
          rcases ha with ha | rfl | ha
          · rw [hidse, List.filter_append, List.pairwise_append] at hpw
            exact le_of_lt (hpw.2.2 a (List.mem_filter.2 ⟨ha, by simpa using fun h => hal (hll a h)⟩) x
              (List.mem_filter.2 ⟨List.mem_cons_self, by simpa using hxlog⟩))
          · exact le_refl _
          · exact absurd (h3 ▸ List.mem_append_right _ (List.mem_reverse.1 ha)) hal
        have hpw' : ((ids ++ [key]).filter fun i => i ∉ l).Pairwise fun a b => rank b < rank a := by
          rw [List.filter_append, List.pairwise_append]
          refine ⟨?_, ?_, ?_⟩
          · refine hpw.sublist ?_
            exact List.monotone_filter_right ids (fun a ha => by
              simp only [decide_not, Bool.not_eq_eq_eq_not, Bool.not_true, decide_eq_false_iff_not] at ha ⊢
              exact fun h => ha (hll a h))
          · exact (List.pairwise_singleton _ key).sublist List.filter_sublist
          · intro a ha y hy
            rw [List.mem_filter] at ha hy
            rw [List.mem_singleton.1 hy.1]
            have := hmin a ha.1 (by simpa using ha.2)
            omega
        have hids' : ∀ i ∈ ids ++ [key], StepDependsOn file node i := by
          intro i hi
          rcases List.mem_append.1 hi with hi | hi
          · exact hids i hi
          · rw [List.mem_singleton.1 hi]; exact hk
        have hstep : ∃ k r, ∀ k', k ≤ k' → instantiateLoop file k' (ids ++ [key]) l = some r := by
          by_cases hprog : ∃ y ∈ done, y ∉ log
          · obtain ⟨y, hy, hyl⟩ := hprog
            have hyd : StepDependsOn file node y := hids y (List.mem_reverse.1 (h2 ▸ List.mem_append_left _ hy))
            obtain ⟨f, hf⟩ := hc y hyd
            have := missing_lt hll (lookup_mem hf) hyl (by rw [h3]; exact List.mem_append_right _ hy)
            exact ihm _ (by rw [← hm]; exact this) (ids ++ [key]) l h1 hids' hpw' (rank key + 1)
              ⟨key, by simp, hkl, by omega⟩ rfl
          · have hsame : ∀ y, y ∈ l ↔ y ∈ log := by
              intro y
              refine ⟨fun h => ?_, hll y⟩
              rw [h3, List.mem_append] at h
              rcases h with h | h
              · exact h
              · by_contra hy
                exact hprog ⟨y, h, hy⟩
            refine ih (ids ++ [key]) l h1 hids' hpw' ⟨key, by simp, hkl, ?_⟩ ((missing_congr hsame).trans hm)
            obtain ⟨a, ha, hal, hab⟩ := hb
            have := hmin a ha (fun h => hal ((hsame a).1 h))
            omega
        obtain ⟨k, r, hk⟩ := hstep
        refine ⟨k + 1, r, fun k' hk' => ?_⟩
        obtain ⟨k', rfl⟩ : ∃ j, k' = j + 1 := ⟨k' - 1, by omega⟩
        rw [instantiateLoop, hp]
        exact hk k' (by omega)

open Classical in
/-- A rank that decreases along the needs of a complete acyclic part of the file. -/
noncomputable def needRank (file : File) (n : ℕ) : ℕ :=
  ((file.map Func.id).toFinset.filter fun m => Relation.TransGen (StepNeeds file) n m).card

theorem needRank_lt {file : File} {node : ℕ} (hc : StepComplete file node) (ha : StepAcyclic file node) (m n : ℕ)
    (hm : StepDependsOn file node m) (h : StepNeeds file m n) : needRank file n < needRank file m := by
  classical
  unfold needRank
  apply Finset.card_lt_card
  rw [Finset.ssubset_iff_of_subset]
  · refine ⟨n, ?_, ?_⟩
    · rw [Finset.mem_filter, List.mem_toFinset]
      obtain ⟨f, hf⟩ := hc n (hm.tail h)
      exact ⟨lookup_mem hf, .single h⟩
    · rw [Finset.mem_filter]
      exact fun h' => ha n (hm.tail h) h'.2
  · intro x hx
    rw [Finset.mem_filter] at hx ⊢
    exact ⟨hx.1, .head h hx.2⟩

end StepImport

/-- **C36 (order).** When the instantiation of a node ends, the node and everything it needs, directly or not, has been
instantiated; at each instantiation everything looked up was there before; nothing else was instantiated and the objects
that existed before are kept. -/
theorem C36_order (file : File) (fuel node : ℕ) (log log' : List ℕ) (ho : StepOrdered file log)
    (h : helperInstantiate file fuel node log = some log') :
    StepOrdered file log' ∧ log <+: log' ∧ (∀ n, StepDependsOn file node n → n ∈ log') ∧
    (∀ n ∈ log', n ∈ log ∨ StepDependsOn file node n) := by
  obtain ⟨h1, h2, h3, h4⟩ := loop_spec file node fuel [node] log log' h ho
    (by intro i hi; rw [List.mem_singleton.1 hi]; exact .refl) (List.mem_singleton.2 rfl)
  exact ⟨h1, h2, fun n hn => ordered_depends h1 h3 hn, h4⟩

/-- **C36 (termination), exact domain.** Whatever the order of the entities in the file and whatever was instantiated
before, the instantiation of a node ends if and only if no entity it needs is missing in the file and none needs
itself, directly or not. -/
theorem C36_terminates_iff (file : File) (node : ℕ) (log : List ℕ) (ho : StepOrdered file log) :
    (∃ fuel log', ∀ fuel', fuel ≤ fuel' → helperInstantiate file fuel' node log = some log') ↔
    (StepComplete file node ∧ StepAcyclic file node) := by
  constructor
  · rintro ⟨fuel, log', h⟩
    obtain ⟨h1, _, h3, _⟩ := C36_order file fuel node log log' ho (h fuel (le_refl _))
    refine ⟨fun n hn => ?_, fun n hn hcy => ?_⟩
    · obtain ⟨f, hf, _⟩ := ordered_closed h1 (h3 n hn)
      exact ⟨f, hf⟩
    · have key : ∀ m, Relation.TransGen (StepNeeds file) n m → log'.idxOf m < log'.idxOf n := by
        intro m hm
        induction hm with
        | single h => exact ordered_idxOf h1 (h3 n hn) h
        | tail h5 h6 ih =>
          exact lt_trans (ordered_idxOf h1 (h3 _ (hn.trans h5.to_reflTransGen)) h6) ih
      exact absurd (key n hcy) (lt_irrefl _)
  · rintro ⟨hc, ha⟩
    by_cases hn : node ∈ log
    · obtain ⟨f, h1, h2⟩ := ordered_closed ho hn
      refine ⟨1, log ++ [node], fun k' hk => ?_⟩
      obtain ⟨k', rfl⟩ : ∃ j, k' = j + 1 := ⟨k' - 1, by omega⟩
      have hd : (f.looksUp.find? fun d => d ∉ log) = none := by
        rw [List.find?_eq_none]
        intro d hd
        simpa using h2 d hd
      have : instantiatePass file [node] log = (log ++ [node], none) := by
        rw [instantiatePass, h1]
        dsimp only
        rw [hd]
        rfl
      rw [helperInstantiate, instantiateLoop, List.reverse_singleton, this]
    · exact loop_terminates file node hc (needRank file) (needRank_lt hc ha) [node] log ho
        (by intro i hi; rw [List.mem_singleton.1 hi]; exact .refl)
        ((List.pairwise_singleton _ node).sublist List.filter_sublist) (needRank file node + 1)
        ⟨node, List.mem_singleton.2 rfl, hn, by omega⟩

/-- **C36 (whole file).** If the nodes to instantiate need only entities of the file, without cycles, then the loop of
`to_volume_model` over them ends, with everything needed instantiated, in an order in which needs come first. -/
theorem C36_all (file : File) (nodes log : List ℕ) (ho : StepOrdered file log)
    (h : ∀ n ∈ nodes, StepComplete file n ∧ StepAcyclic file n) :
    ∃ fuel log', (∀ fuel', fuel ≤ fuel' → instantiateAll file fuel' nodes log = some log') ∧
      StepOrdered file log' ∧ ∀ node ∈ nodes, ∀ n, StepDependsOn file node n → n ∈ log' := by
  suffices hs : ∃ fuel log', (∀ fuel', fuel ≤ fuel' → instantiateAll file fuel' nodes log = some log') ∧
      StepOrdered file log' ∧ log <+: log' ∧ ∀ node ∈ nodes, ∀ n, StepDependsOn file node n → n ∈ log' by
    obtain ⟨f, l, h1, h2, _, h3⟩ := hs
    exact ⟨f, l, h1, h2, h3⟩
  induction nodes generalizing log with
  | nil => exact ⟨0, log, fun _ _ => rfl, ho, List.prefix_refl _, by simp⟩
  | cons n ns ih =>
    obtain ⟨f1, l1, h1⟩ := (C36_terminates_iff file n log ho).2 (h n List.mem_cons_self)
    obtain ⟨o1, p1, d1, _⟩ := C36_order file f1 n log l1 ho (h1 f1 (le_refl _))
    obtain ⟨f2, l2, h2, o2, p2, d2⟩ := ih l1 o1 (fun m hm => h m (List.mem_cons_of_mem _ hm))
    refine ⟨max f1 f2, l2, fun f' hf => ?_, o2, p1.trans p2, ?_⟩
    · rw [instantiateAll, h1 f' (by omega)]
      exact h2 f' (by omega)
    · intro m hm k hk
      rcases List.mem_cons.1 hm with rfl | hm
      · exact p2.subset (d1 k hk)
      · exact d2 m hm k hk

/-- **C36, full statement** (false, see the counterexample). -/
def C36_full_statement : Prop := ∀ (file : File) (node : ℕ),
  ∃ fuel log', ∀ fuel', fuel ≤ fuel' → helperInstantiate file fuel' node [] = some log'

/-- **C36, counterexample.** A reference to an entity that is not in the file: the loop never ends (the same key is
appended to the list for ever). -/
theorem C36_dangling_counterexample : ∀ fuel, helperInstantiate [⟨1, true, [7], [7]⟩] fuel 1 [] = none := by
  have key : ∀ fuel n, instantiateLoop [⟨1, true, [7], [7]⟩] fuel (1 :: List.replicate n 7) [] = none := by
    intro fuel
    induction fuel with
    | zero => intro n; rfl
    | succ k ih =>
      intro n
      rw [instantiateLoop]
      have : instantiatePass [⟨1, true, [7], [7]⟩] (1 :: List.replicate n 7).reverse [] = ([], some 7) := by
        rw [List.reverse_cons, List.reverse_replicate]
        cases n with
        | zero => decide +kernel
        | succ n =>
          rw [List.replicate_succ, List.cons_append, instantiatePass]
          have : lookup [⟨1, true, [7], [7]⟩] 7 = none := by decide +kernel
          rw [this]
      rw [this]
      have := ih (n + 1)
      rw [List.replicate_succ'] at this
      exact this
  intro fuel
  exact key fuel 0

/-- The full statement is false. -/
theorem C36_counterexample : ¬ C36_full_statement := by
  intro h
  obtain ⟨fuel, log', h⟩ := h [⟨1, true, [7], [7]⟩] 1
  have := h fuel (le_refl _)
  rw [C36_dangling_counterexample] at this
  cases this

/-- More fuel does not change a result. -/
theorem StepImport.loop_mono (file : File) (k k' : ℕ) (ids log r : List ℕ) (h : instantiateLoop file k ids log = some r)
    (hk : k ≤ k') : instantiateLoop file k' ids log = some r := by
  induction k generalizing k' ids log with
  | zero => simp [instantiateLoop] at h
  | succ k ih =>
    obtain ⟨k', rfl⟩ : ∃ j, k' = j + 1 := ⟨k' - 1, by omega⟩
    rw [instantiateLoop] at h ⊢
    cases hp : instantiatePass file ids.reverse log with
    | mk l key =>
      rw [hp] at h
      cases key with
      | none => exact h
      | some key => exact ih _ _ _ h (by omega)

/-- Dependencies written after and before their users; `2` and `4` are needed twice. -/
def C36_exampleFile : File :=
  [⟨1, true, [2, 3], [2, 3]⟩, ⟨4, true, [], []⟩, ⟨3, true, [2, 4], [2, 4]⟩, ⟨2, true, [4], [4]⟩]

theorem C36_example_run : helperInstantiate C36_exampleFile 20 1 [] = some [4, 2, 3, 4, 2, 1] := by decide +kernel

/-- The hypotheses of the theorems hold of the example. -/
example : StepComplete C36_exampleFile 1 ∧ StepAcyclic C36_exampleFile 1 :=
  (C36_terminates_iff C36_exampleFile 1 [] (by intro b x a h; simp at h)).1
    ⟨20, _, fun _ h => loop_mono _ _ _ _ _ _ C36_example_run h⟩

example : StepOrdered C36_exampleFile [4, 2, 3, 4, 2, 1] :=
  (C36_order C36_exampleFile 20 1 [] _ (by intro b x a h; simp at h) C36_example_run).1

end Volmdlr
