import Verif.Step.ImportModel
import Mathlib.Data.List.Nodup
import Mathlib.Data.List.Chain
import Mathlib.Data.Finset.Card
import Mathlib.Data.Finset.Filter
import Mathlib.Logic.Relation
import Mathlib.Tactic.Tauto
import Mathlib.Tactic.ByContra

/-!
# C35, C36: STEP import — work list and instantiation order
-/

namespace Volmdlr
open StepImport

/-- **Specification.** The supported entities reachable from the initial ones through supported entities. -/
inductive StepReachable (file : File) (initial : List ℕ) : ℕ → Prop
  | start {n : ℕ} {f : Func} : n ∈ initial → lookup file n = some f → f.supported = true →
      StepReachable file initial n
  | step {m n : ℕ} {f g : Func} : StepReachable file initial m → lookup file m = some f → n ∈ f.connections →
      lookup file n = some g → g.supported = true → StepReachable file initial n

/-- **Specification.** The identifier is one of the initial ones or referenced by a reachable entity. -/
def StepTouched (file : File) (initial : List ℕ) (n : ℕ) : Prop :=
  n ∈ initial ∨ ∃ m f, StepReachable file initial m ∧ lookup file m = some f ∧ n ∈ f.connections

/-- **Specification.** The entity references nothing. -/
def StepLeaf (file : File) (n : ℕ) : Prop := ∃ f, lookup file n = some f ∧ f.connections = []

namespace StepImport

theorem lookup_mem {file : File} {n : ℕ} {f : Func} (h : lookup file n = some f) : n ∈ file.map Func.id := by
  have h1 := List.mem_of_find?_eq_some h
  have h2 := List.find?_some h
  rw [← of_decide_eq_true (by simpa using h2 : decide (f.id = n) = true)]
  exact List.mem_map_of_mem h1

/-- The number of entities of the file that are not in a list. -/
def missing (file : File) (l : List ℕ) : ℕ := ((file.map Func.id).toFinset.filter fun n => n ∉ l).card

theorem missing_cons_lt {file : File} {l : List ℕ} {n : ℕ} (h : n ∈ file.map Func.id) (hn : n ∉ l) :
    missing file (n :: l) < missing file l := by
  apply Finset.card_lt_card
  rw [Finset.ssubset_iff_of_subset]
  · exact ⟨n, by simp only [Finset.mem_filter, List.mem_toFinset]; exact ⟨h, hn⟩, by simp⟩
  · intro x hx
    simp only [Finset.mem_filter, List.mem_cons, not_or] at hx ⊢
    exact ⟨hx.1, hx.2.2⟩

theorem nodeLoop_terminates (file : File) (stack visited head nodes : List ℕ) :
    ∃ k r, ∀ k', k ≤ k' → nodeLoop file k' stack visited head nodes = some r := by
  induction hm : missing file visited using Nat.strong_induction_on generalizing stack visited head nodes with
  | _ m ihm =>
  induction stack generalizing visited head nodes with
  | nil =>
    refine ⟨1, some (head ++ nodes.reverse), fun k' hk => ?_⟩
    obtain ⟨k', rfl⟩ : ∃ j, k' = j + 1 := ⟨k' - 1, by omega⟩
    rw [nodeLoop]
  | cons n stack ih =>
    cases hl : lookup file n with
    | none =>
      refine ⟨1, none, fun k' hk => ?_⟩
      obtain ⟨k', rfl⟩ : ∃ j, k' = j + 1 := ⟨k' - 1, by omega⟩
      rw [nodeLoop, hl]
    | some f =>
      by_cases hc : n ∉ visited ∧ f.supported = true
      · have hlt := missing_cons_lt (lookup_mem hl) hc.1
        by_cases hf : f.connections ≠ []
        · obtain ⟨k, r, hk⟩ := ihm _ (by rw [← hm]; exact hlt) (stack ++ f.connections.filter fun c => c ∉ n :: visited)
            (n :: visited) head (nodes ++ [n]) rfl
          refine ⟨k + 1, r, fun k' hk' => ?_⟩
          obtain ⟨k', rfl⟩ : ∃ j, k' = j + 1 := ⟨k' - 1, by omega⟩
          rw [nodeLoop, hl]
          dsimp only
          rw [if_pos hc, if_pos hf]
          exact hk k' (by omega)
        · obtain ⟨k, r, hk⟩ := ihm _ (by rw [← hm]; exact hlt) stack (n :: visited) (head ++ [n]) nodes rfl
          refine ⟨k + 1, r, fun k' hk' => ?_⟩
          obtain ⟨k', rfl⟩ : ∃ j, k' = j + 1 := ⟨k' - 1, by omega⟩
          rw [nodeLoop, hl]
          dsimp only
          rw [if_pos hc, if_neg hf]
          exact hk k' (by omega)
      · obtain ⟨k, r, hk⟩ := ih visited head nodes hm
        refine ⟨k + 1, r, fun k' hk' => ?_⟩
        obtain ⟨k', rfl⟩ : ∃ j, k' = j + 1 := ⟨k' - 1, by omega⟩
        rw [nodeLoop, hl]
        dsimp only
        rw [if_neg hc]
        exact hk k' (by omega)

/-- The invariant of the loop. -/
structure Inv (file : File) (initial stack visited head nodes : List ℕ) : Prop where
  perm : (head ++ nodes).Perm visited
  nodup : visited.Nodup
  reach : ∀ n ∈ visited, StepReachable file initial n
  leaf : ∀ n ∈ head, StepLeaf file n
  inner : ∀ n ∈ nodes, ¬ StepLeaf file n
  touched : ∀ n ∈ stack, StepTouched file initial n
  initial : ∀ n ∈ initial, n ∈ stack ∨ n ∈ visited ∨ ∃ f, lookup file n = some f ∧ f.supported = false
  closed : ∀ m ∈ visited, ∀ f, lookup file m = some f → ∀ n ∈ f.connections,
    n ∈ stack ∨ n ∈ visited ∨ ∃ f, lookup file n = some f ∧ f.supported = false

theorem Inv.done {file : File} {initial visited head nodes : List ℕ} (h : Inv file initial [] visited head nodes) :
    (head ++ nodes.reverse).Nodup ∧ (∀ n, n ∈ head ++ nodes.reverse ↔ StepReachable file initial n) := by
  have hp : (head ++ nodes.reverse).Perm visited := ((List.reverse_perm nodes).append_left head).trans h.perm
  refine ⟨hp.nodup_iff.2 h.nodup, fun n => ?_⟩
  rw [hp.mem_iff]
  refine ⟨h.reach n, fun hr => ?_⟩
  induction hr with
  | start h1 h2 h3 =>
    rcases h.initial _ h1 with h | h | ⟨f, h4, h5⟩
    · simp at h
    · exact h
    · rw [h2, Option.some.injEq] at h4; rw [h4, h5] at h3; cases h3
  | step h1 h2 h3 h4 h5 ih =>
    rcases h.closed _ ih _ h2 _ h3 with h | h | ⟨f, h6, h7⟩
    · simp at h
    · exact h
    · rw [h4, Option.some.injEq] at h6; rw [h6, h7] at h5; cases h5

theorem nodeLoop_spec (file : File) (initial : List ℕ) (k : ℕ) (stack visited head nodes : List ℕ)
    (hinv : Inv file initial stack visited head nodes) (r : Option (List ℕ))
    (hr : nodeLoop file k stack visited head nodes = some r) :
    (r = none → ∃ n, StepTouched file initial n ∧ lookup file n = none) ∧
    (∀ l, r = some l → ∃ visited' head' nodes', l = head' ++ nodes'.reverse ∧
      Inv file initial [] visited' head' nodes') := by
  induction k generalizing stack visited head nodes with
  | zero => simp [nodeLoop] at hr
  | succ k ih =>
    cases stack with
    | nil =>
      rw [nodeLoop, Option.some.injEq] at hr
      subst hr
      exact ⟨by simp, fun l hl => ⟨visited, head, nodes, by simpa using hl.symm, hinv⟩⟩
    | cons n stack =>
      rw [nodeLoop] at hr
      have ht := hinv.touched n List.mem_cons_self
      cases hl : lookup file n with
      | none =>
        rw [hl] at hr
        dsimp only at hr
        rw [Option.some.injEq] at hr
        subst hr
        exact ⟨fun _ => ⟨n, ht, hl⟩, by simp⟩
      | some f =>
        rw [hl] at hr
        dsimp only at hr
        by_cases hc : n ∉ visited ∧ f.supported = true
        · have hreach : StepReachable file initial n := by
            rcases ht with h | ⟨m, g, h1, h2, h3⟩
            · exact .start h hl hc.2
            · exact .step h1 h2 h3 hl hc.2
          have hin : ∀ (x : ℕ) (s : List ℕ), (∀ y ∈ stack, y ∈ s) → (x ∈ n :: stack ∨ x ∈ visited ∨ ∃ f, lookup file x = some f ∧ f.supported = false) →
              x ∈ s ∨ x ∈ n :: visited ∨ ∃ f, lookup file x = some f ∧ f.supported = false := by
            intro x s hs h
            rcases h with h | h | h
            · rcases List.mem_cons.1 h with rfl | h
              · exact Or.inr (Or.inl List.mem_cons_self)
              · exact Or.inl (hs x h)
            · exact Or.inr (Or.inl (List.mem_cons_of_mem _ h))
            · exact Or.inr (Or.inr h)
          rw [if_pos hc] at hr
          by_cases hf : f.connections ≠ []
          · rw [if_pos hf] at hr
            refine ih _ _ _ _ ⟨?_, ?_, ?_, hinv.leaf, ?_, ?_, ?_, ?_⟩ hr
            · rw [← List.append_assoc]
              exact List.perm_append_comm.trans (hinv.perm.cons n)
            · exact List.nodup_cons.2 ⟨hc.1, hinv.nodup⟩
            · intro x hx
              rcases List.mem_cons.1 hx with rfl | hx
              · exact hreach
              · exact hinv.reach x hx
            · intro x hx
              rcases List.mem_append.1 hx with hx | hx
              · exact hinv.inner x hx
              · rw [List.mem_singleton.1 hx]
                rintro ⟨g, h1, h2⟩
                rw [hl, Option.some.injEq] at h1
                rw [h1] at hf
                exact hf h2
            · intro x hx
              rcases List.mem_append.1 hx with hx | hx
              · exact hinv.touched x (List.mem_cons_of_mem _ hx)
              · exact Or.inr ⟨n, f, hreach, hl, (List.mem_filter.1 hx).1⟩
            · exact fun x hx => hin x _ (fun y hy => List.mem_append_left _ hy) (hinv.initial x hx)
            · intro m hm g hg x hx
              rcases List.mem_cons.1 hm with rfl | hm
              · rw [hl, Option.some.injEq] at hg
                subst hg
                by_cases hv : x ∈ m :: visited
                · exact Or.inr (Or.inl hv)
                · exact Or.inl (List.mem_append_right _ (List.mem_filter.2 ⟨hx, by simpa using hv⟩))
              · exact hin x _ (fun y hy => List.mem_append_left _ hy) (hinv.closed m hm g hg x hx)
          · rw [if_neg hf] at hr
            have hf' : f.connections = [] := by simpa using hf
            refine ih _ _ _ _ ⟨?_, ?_, ?_, ?_, hinv.inner, ?_, ?_, ?_⟩ hr
            · rw [List.append_assoc]
              refine (List.perm_middle).trans (hinv.perm.cons n)
            · exact List.nodup_cons.2 ⟨hc.1, hinv.nodup⟩
            · intro x hx
              rcases List.mem_cons.1 hx with rfl | hx
              · exact hreach
              · exact hinv.reach x hx
            · intro x hx
              rcases List.mem_append.1 hx with hx | hx
              · exact hinv.leaf x hx
              · rw [List.mem_singleton.1 hx]
                exact ⟨f, hl, hf'⟩
            · exact fun x hx => hinv.touched x (List.mem_cons_of_mem _ hx)
            · exact fun x hx => hin x _ (fun y hy => hy) (hinv.initial x hx)
            · intro m hm g hg x hx
              rcases List.mem_cons.1 hm with rfl | hm
              · rw [hl, Option.some.injEq] at hg
                subst hg
                rw [hf'] at hx
                simp at hx
              · exact hin x _ (fun y hy => hy) (hinv.closed m hm g hg x hx)
        · rw [if_neg hc] at hr
          have hin : ∀ x, (x ∈ n :: stack ∨ x ∈ visited ∨ ∃ f, lookup file x = some f ∧ f.supported = false) →
              x ∈ stack ∨ x ∈ visited ∨ ∃ f, lookup file x = some f ∧ f.supported = false := by
            intro x h
            rcases h with h | h | h
            · rcases List.mem_cons.1 h with rfl | h
              · by_cases hv : x ∈ visited
                · exact Or.inr (Or.inl hv)
                · exact Or.inr (Or.inr ⟨f, hl, by
                    rcases Bool.eq_false_or_eq_true f.supported with h | h
                    · exact absurd ⟨hv, h⟩ hc
                    · exact h⟩)
              · exact Or.inl h
            · exact Or.inr (Or.inl h)
            · exact Or.inr (Or.inr h)
          exact ih _ _ _ _ ⟨hinv.perm, hinv.nodup, hinv.reach, hinv.leaf, hinv.inner,
            fun x hx => hinv.touched x (List.mem_cons_of_mem _ hx),
            fun x hx => hin x (hinv.initial x hx), fun m hm g hg x hx => hin x (hinv.closed m hm g hg x hx)⟩ hr

theorem Inv.start (file : File) (initial : List ℕ) : Inv file initial initial [] [] [] :=
  ⟨by simp, by simp, by simp, by simp, by simp, fun _ h => Or.inl h, fun _ h => Or.inl h, by simp⟩

end StepImport

/-- **C35 (termination).** The work list of every file, cyclic or not, and every list of initial entities is finished
after finitely many steps. -/
theorem C35_terminates (file : File) (initial : List ℕ) :
    ∃ fuel r, ∀ fuel', fuel ≤ fuel' → createNodeList file fuel' initial = some r :=
  nodeLoop_terminates file initial [] [] []

/-- **C35 (result).** The list returned contains exactly the supported entities reachable through supported
entities, each once; the entities that reference nothing come first. -/
theorem C35_result (file : File) (initial : List ℕ) (fuel : ℕ) (l : List ℕ)
    (h : createNodeList file fuel initial = some (some l)) :
    l.Nodup ∧ (∀ n, n ∈ l ↔ StepReachable file initial n) ∧
    ∃ leaves others, l = leaves ++ others ∧ (∀ n ∈ leaves, StepLeaf file n) ∧ (∀ n ∈ others, ¬ StepLeaf file n) := by
  obtain ⟨v, hd, nd, rfl, hi⟩ := (nodeLoop_spec file initial fuel _ _ _ _ (Inv.start file initial) _ h).2 l rfl
  exact ⟨hi.done.1, hi.done.2, hd, nd.reverse, rfl, hi.leaf, fun n hn => hi.inner n (List.mem_reverse.1 hn)⟩

/-- **C35 (missing entities).** It fails, with a `KeyError`, exactly when an initial entity or an entity referenced by a
reachable one is not in the file. -/
theorem C35_key_error (file : File) (initial : List ℕ) :
    (∃ fuel, createNodeList file fuel initial = some none) ↔
    ∃ n, StepTouched file initial n ∧ lookup file n = none := by
  constructor
  · rintro ⟨fuel, h⟩
    exact (nodeLoop_spec file initial fuel _ _ _ _ (Inv.start file initial) _ h).1 rfl
  · rintro ⟨n, h1, h2⟩
    obtain ⟨fuel, r, h⟩ := C35_terminates file initial
    have h := h fuel (le_refl _)
    cases r with
    | none => exact ⟨fuel, h⟩
    | some l =>
      exfalso
      obtain ⟨v, hd, nd, rfl, hi⟩ := (nodeLoop_spec file initial fuel _ _ _ _ (Inv.start file initial) _ h).2 l rfl
      have key : n ∈ ([] : List ℕ) ∨ n ∈ v ∨ ∃ f, lookup file n = some f ∧ f.supported = false := by
        rcases h1 with h1 | ⟨m, f, h3, h4, h5⟩
        · exact hi.initial n h1
        · refine hi.closed m ?_ f h4 n h5
          have := (hi.done.2 m).2 h3
          rw [((List.reverse_perm nd).append_left hd |>.trans hi.perm).mem_iff] at this
          exact this
      rcases key with h | h | ⟨f, h, _⟩
      · simp at h
      · have := hi.reach n h
        cases this with
        | start _ h3 _ => rw [h2] at h3; cases h3
        | step _ _ _ h3 _ => rw [h2] at h3; cases h3
      · rw [h2] at h; cases h

/-- A cyclic file with an unsupported entity: `1 → 2 → 1`, `1 → 3` (leaf), `1 → 4` unsupported, which alone leads to `5`. -/
def C35_exampleFile : File := [⟨1, true, [2, 3, 4], []⟩, ⟨2, true, [1], []⟩, ⟨3, true, [], []⟩, ⟨4, false, [5], []⟩, ⟨5, true, [], []⟩]

example : createNodeList C35_exampleFile 20 [1, 2] = some (some [3, 2, 1]) := by decide +kernel
example : createNodeList [⟨1, true, [7], []⟩] 20 [1] = some none := by decide +kernel

/-- The list is not an order of dependencies, contrary to the docstring: here `3` references `2` and comes before it (the
instantiation copes with it, see `C36_terminates_iff`). -/
theorem C35_not_dependency_order : ∃ (file : File) (initial l : List ℕ) (fuel a b : ℕ) (f : Func),
    createNodeList file fuel initial = some (some l) ∧ lookup file a = some f ∧ b ∈ f.connections ∧
    b ∈ l ∧ l.idxOf a < l.idxOf b :=
  ⟨[⟨1, true, [2, 3], []⟩, ⟨2, true, [4], []⟩, ⟨3, true, [2], []⟩, ⟨4, true, [], []⟩], [1], [4, 3, 2, 1], 20, 3, 2,
    ⟨3, true, [2], []⟩, by decide +kernel⟩

end Volmdlr
