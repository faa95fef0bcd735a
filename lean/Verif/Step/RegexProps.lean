import Verif.Step.RegexModel
import Verif.Step.SplitProps
import Mathlib.Data.List.Chain
import Mathlib.Tactic.Common

/-!
# C37: `step_split_arguments`
-/

namespace Volmdlr
open StepSplit

/-- **Specification.** A reference, number, enumeration or typed value: no comma and does not start with a parenthesis or
a quote. -/
def StepIsAtom (a : Str) : Prop := a ≠ [] ∧ ',' ∉ a ∧ a.head? ≠ some '(' ∧ a.head? ≠ some '\''

/-- **Specification.** A list `(…)` without parentheses inside. -/
def StepIsFlat (a : Str) : Prop := ∃ b : Str, a = '(' :: (b ++ [')']) ∧ ∀ c ∈ b, c ≠ '(' ∧ c ≠ ')'

/-- **Specification.** A quoted string (a quote in it would end it). -/
def StepIsQuoted (a : Str) : Prop := ∃ s : Str, a = '\'' :: (s ++ ['\'']) ∧ '\'' ∉ s

/-- **Specification.** Nowhere two parentheses of the same kind in a row. -/
def NoDoubleParen (a : Str) : Prop := a.IsChain (fun c d => ¬ (c = '(' ∧ d = '(')) ∧ a.IsChain (fun c d => ¬ (c = ')' ∧ d = ')'))

/-- **Specification.** A list of lists `((…),…,(…))`: the double parentheses are at its ends only. -/
def StepIsNested (a : Str) : Prop := ∃ b : Str, a = '(' :: '(' :: (b ++ [')', ')']) ∧ NoDoubleParen b ∧ b.getLast? ≠ some ')'

namespace StepSplit

/-! ### `findall` -/

theorem findAllAux_fuel (m : Str → Option ℕ) (f : ℕ) (s : Str) (h : s.length ≤ f) :
    findAllAux m f s = findAllAux m s.length s := by
  induction hn : s.length using Nat.strong_induction_on generalizing s f with
  | _ n ih =>
  cases s with
  | nil => cases f <;> cases n <;> simp_all [findAllAux]
  | cons c s =>
    rw [List.length_cons] at h hn
    obtain ⟨f, rfl⟩ : ∃ g, f = g + 1 := ⟨f - 1, by omega⟩
    subst hn
    rw [findAllAux, findAllAux]
    have e1 : findAllAux m f s = findAllAux m s.length s := ih s.length (by omega) f s (by omega) rfl
    cases hm : m (c :: s) with
    | none => exact e1
    | some k =>
      cases k with
      | zero => exact e1
      | succ k =>
        dsimp only
        have hl : ((c :: s).drop (k + 1)).length ≤ s.length := by rw [List.length_drop, List.length_cons]; omega
        rw [ih _ (by omega) f _ (by omega) rfl, ih _ (by omega) s.length _ hl rfl]

theorem findAll_nil (m : Str → Option ℕ) : findAll m [] = [] := rfl

theorem findAll_some (m : Str → Option ℕ) (a r : Str) (ha : a ≠ []) (h : m (a ++ r) = some a.length) :
    findAll m (a ++ r) = a :: findAll m r := by
  obtain ⟨c, a', rfl⟩ := List.exists_cons_of_ne_nil ha
  unfold findAll
  rw [List.cons_append, List.length_cons, findAllAux, ← List.cons_append, h, List.length_cons]
  dsimp only
  rw [← List.length_cons (a := c), List.take_left, List.drop_left, findAllAux_fuel]
  rw [List.length_append]; omega

theorem findAll_none (m : Str → Option ℕ) (c : Char) (s : Str) (h : m (c :: s) = none) : findAll m (c :: s) = findAll m s := by
  unfold findAll
  rw [List.length_cons, findAllAux, h]

theorem findAllAux_chars (m : Str → Option ℕ) (f : ℕ) (s q : Str) (h : q ∈ findAllAux m f s) : ∀ c ∈ q, c ∈ s := by
  induction f generalizing s with
  | zero => simp [findAllAux] at h
  | succ f ih =>
    cases s with
    | nil => simp [findAllAux] at h
    | cons d s =>
      rw [findAllAux] at h
      have e : q ∈ findAllAux m f s → ∀ c ∈ q, c ∈ d :: s := fun h c hc => List.mem_cons_of_mem _ (ih s h c hc)
      cases hm : m (d :: s) with
      | none => rw [hm] at h; exact e h
      | some k =>
        rw [hm] at h
        cases k with
        | zero => exact e h
        | succ k =>
          dsimp only at h
          rcases List.mem_cons.1 h with rfl | h
          · exact fun c hc => List.mem_of_mem_take hc
          · exact fun c hc => List.mem_of_mem_drop (ih _ h c hc)

theorem replaceAux_self (old : Str) (f : ℕ) (s : Str) : replaceAux old old f s = s := by
  induction f generalizing s with
  | zero => rfl
  | succ f ih =>
    cases s with
    | nil => rfl
    | cons c s =>
      rw [replaceAux]
      split_ifs with h
      · rw [ih]
        conv_lhs => rw [← h]
        rw [h, ← h]
        conv_rhs => rw [← List.take_append_drop old.length (c :: s)]
        rw [h]
      · rw [ih]

theorem removeSpaces_id (s : Str) (h : ' ' ∉ s) : removeSpaces s = s := by
  unfold removeSpaces
  have hf : ∀ q : Str, ' ' ∉ q → q.filter (· ≠ ' ') = q := by
    intro q hq
    rw [List.filter_eq_self]
    intro c hc
    simpa using fun h : c = ' ' => hq (h ▸ hc)
  rw [hf s h]
  have hq : ∀ q ∈ findAll matchQuoted s, ' ' ∉ q := fun q hq hs => h (findAllAux_chars _ _ _ _ hq _ hs)
  generalize findAll matchQuoted s = l at hq
  have : ∀ r : Str, l.foldl (fun result q => replaceAll (q.filter (· ≠ ' ')) q result) r = r := by
    intro r
    induction l with
    | nil => rfl
    | cons q l ih =>
      rw [List.foldl_cons, hf q (hq q List.mem_cons_self)]
      unfold replaceAll
      rw [replaceAux_self]
      exact ih fun q' hq' => hq q' (List.mem_cons_of_mem _ hq')
  exact this s

/-! ### The matches -/

theorem greedy_eq (p : Char → Bool) (a r : Str) (ha : ∀ c ∈ a, p c = true) (hr : ∀ c, r.head? = some c → p c = false) :
    greedy p (a ++ r) = a.length :: (List.range a.length).reverse := by
  unfold greedy
  have : (a ++ r).takeWhile p = a := by
    rw [List.takeWhile_append_of_pos ha]
    cases r with
    | nil => simp
    | cons c r => rw [List.takeWhile_cons_of_neg (by rw [hr c rfl]; simp), List.append_nil]
  rw [this, List.range_succ, List.reverse_append]
  rfl

theorem matchList_not (s : Str) (h : s.head? ≠ some '(') : matchList s = none := by
  cases s with
  | nil => rfl
  | cons c s => rw [matchList, if_neg]; rintro rfl; exact h rfl

theorem matchQuoted_not (s : Str) (h : s.head? ≠ some '\'') : matchQuoted s = none := by
  cases s with
  | nil => rfl
  | cons c s => rw [matchQuoted, if_neg]; rintro rfl; exact h rfl

theorem matchArg_comma (s : Str) : matchArg (',' :: s) = none := by
  unfold matchArg
  rw [matchList_not _ (by simp), matchQuoted_not _ (by simp)]
  simp [matchAtom]

theorem matchAtom_eq (a r : Str) (h0 : a ≠ []) (h1 : ',' ∉ a) (hr : r = [] ∨ r.head? = some ',') :
    matchAtom (a ++ r) = some a.length := by
  unfold matchAtom
  have : (a ++ r).takeWhile (fun d => d ≠ ',') = a := by
    rw [List.takeWhile_append_of_pos (by intro c hc; simpa using fun h : c = ',' => h1 (h ▸ hc))]
    cases r with
    | nil => simp
    | cons c r =>
      rcases hr with h | h
      · cases h
      · simp only [List.head?_cons, Option.some.injEq] at h
        subst h
        simp
  dsimp only
  rw [this, if_neg (by simpa using h0)]

theorem head?_append (a r : Str) (h0 : a ≠ []) : (a ++ r).head? = a.head? := by
  obtain ⟨c, a', rfl⟩ := List.exists_cons_of_ne_nil h0
  rfl

theorem matchArg_atom (a r : Str) (h : StepIsAtom a) (hr : r = [] ∨ r.head? = some ',') :
    matchArg (a ++ r) = some a.length := by
  obtain ⟨h0, h1, h2, h3⟩ := h
  unfold matchArg
  rw [matchList_not _ (by rwa [head?_append a r h0]), matchQuoted_not _ (by rwa [head?_append a r h0]), matchAtom_eq a r h0 h1 hr]
  rfl

theorem matchArg_flat (a r : Str) (h : StepIsFlat a) : matchArg (a ++ r) = some a.length := by
  obtain ⟨b, rfl, hb⟩ := h
  unfold matchArg
  have : matchList ('(' :: (b ++ [')']) ++ r) = some (b.length + 2) := by
    rw [List.cons_append, matchList, if_pos rfl, List.append_assoc,
      greedy_eq _ b ([')'] ++ r) (by intro c hc; simpa using hb c hc) (by intro c hc; simp at hc; simp [← hc]),
      List.findSome?_cons, List.drop_left]
    simp
  rw [this]
  simp

theorem matchArg_quoted (a r : Str) (h : StepIsQuoted a) : matchArg (a ++ ',' :: r) = some (a ++ [',']).length := by
  obtain ⟨s, rfl, hs⟩ := h
  unfold matchArg
  rw [matchList_not _ (by simp)]
  have : matchQuoted ('\'' :: (s ++ ['\'']) ++ ',' :: r) = some (s.length + 3) := by
    rw [List.cons_append, matchQuoted, if_pos rfl, List.append_assoc,
      greedy_eq _ s (['\''] ++ ',' :: r) (by intro c hc; simpa using fun h : c = '\'' => hs (h ▸ hc))
        (by intro c hc; simp at hc; simp [← hc]),
      List.findSome?_cons, List.drop_left,
      greedy_eq _ ['\''] (',' :: r) (by simp) (by intro c hc; simp at hc; simp [← hc])]
    rw [show List.length ['\''] = 1 from rfl, show (List.range 1).reverse = [0] from rfl]
    have e1 : List.take 2 (List.drop 1 (['\''] ++ ',' :: r)) ≠ ['\'', ','] := by simp
    have e2 : List.take 2 (List.drop 0 (['\''] ++ ',' :: r)) = ['\'', ','] := by simp
    rw [List.findSome?_cons, if_neg e1]
    dsimp only
    rw [List.findSome?_cons, if_pos e2]
  rw [this]
  simp

theorem matchQuoted_nocomma (s : Str) (h : ',' ∉ s) : matchQuoted s = none := by
  cases s with
  | nil => rfl
  | cons c s =>
    rw [matchQuoted]
    split_ifs
    · rw [List.findSome?_eq_none_iff]
      intro i _
      rw [List.findSome?_eq_none_iff]
      intro j _
      rw [if_neg]
      intro he
      apply h
      have : ',' ∈ List.take 2 (List.drop j (List.drop i s)) := by rw [he]; simp
      exact List.mem_cons_of_mem _ (List.mem_of_mem_drop (List.mem_of_mem_drop (List.mem_of_mem_take this)))
    · rfl

theorem matchArg_lastQuoted (a : Str) (h : StepIsQuoted a) (hc : ',' ∉ a) : matchArg a = some a.length := by
  unfold matchArg
  rw [matchQuoted_nocomma a hc]
  obtain ⟨s, rfl, hs⟩ := h
  rw [matchList_not _ (by simp)]
  have := matchAtom_eq ('\'' :: (s ++ ['\''])) [] (by simp) hc (Or.inl rfl)
  rw [List.append_nil] at this
  rw [this]
  rfl

theorem stripComma_id (a : Str) (h1 : a.head? ≠ some ',') (h2 : a.getLast? ≠ some ',') : stripComma a = a := by
  unfold stripComma
  have e1 : a.dropWhile (· = ',') = a := by
    cases a with
    | nil => rfl
    | cons c s => rw [List.dropWhile_cons_of_neg]; simpa using h1
  rw [e1]
  have e2 : a.reverse.dropWhile (· = ',') = a.reverse := by
    cases hr : a.reverse with
    | nil => rfl
    | cons c r =>
      have : a.getLast? = some c := by rw [List.getLast?_eq_head?_reverse, hr]; rfl
      rw [List.dropWhile_cons_of_neg]
      rw [this] at h2
      simpa using h2
  rw [e2, List.reverse_reverse]

theorem stripComma_snoc (a : Str) (h0 : a ≠ []) (h1 : a.head? ≠ some ',') (h2 : a.getLast? ≠ some ',') :
    stripComma (a ++ [',']) = a := by
  have e : stripComma (a ++ [',']) = stripComma a := by
    unfold stripComma
    obtain ⟨c, a', rfl⟩ := List.exists_cons_of_ne_nil h0
    have hc : c ≠ ',' := by simpa using h1
    rw [List.cons_append, List.dropWhile_cons_of_neg (by simpa using hc), List.dropWhile_cons_of_neg (by simpa using hc)]
    rw [← List.cons_append, List.reverse_append]
    simp
  rw [e, stripComma_id a h1 h2]

/-- The kinds of arguments that are found by the expression when they are followed by a comma. -/
def Plain (a : Str) : Prop := StepIsAtom a ∨ StepIsFlat a

theorem Plain.ne_nil {a : Str} (h : Plain a) : a ≠ [] := by
  rcases h with h | ⟨b, rfl, _⟩
  · exact h.1
  · simp

theorem ends_plain {a : Str} (h : Plain a ∨ StepIsQuoted a) : a ≠ [] ∧ a.head? ≠ some ',' ∧ a.getLast? ≠ some ',' := by
  rcases h with (⟨h0, h1, _, _⟩ | ⟨b, rfl, _⟩) | ⟨s, rfl, _⟩
  · refine ⟨h0, fun h => h1 ?_, fun h => h1 ?_⟩
    · exact List.mem_of_mem_head? h
    · exact List.mem_of_getLast? h
  · refine ⟨by simp, by simp, ?_⟩
    rw [← List.cons_append, List.getLast?_append]; simp
  · refine ⟨by simp, by simp, ?_⟩
    rw [← List.cons_append, List.getLast?_append]; simp

theorem findAll_plain_comma (a r : Str) (h : Plain a) : findAll matchArg (a ++ ',' :: r) = a :: findAll matchArg r := by
  have : matchArg (a ++ ',' :: r) = some a.length := by
    rcases h with h | h
    · exact matchArg_atom a _ h (Or.inr rfl)
    · exact matchArg_flat a _ h
  rw [findAll_some _ _ _ h.ne_nil this, findAll_none _ _ _ (matchArg_comma r)]

theorem findAll_quoted_comma (a r : Str) (h : StepIsQuoted a) :
    findAll matchArg (a ++ ',' :: r) = (a ++ [',']) :: findAll matchArg r := by
  have h1 := matchArg_quoted a r h
  have : a ++ ',' :: r = (a ++ [',']) ++ r := by simp
  rw [this] at h1 ⊢
  exact findAll_some _ _ _ (by simp) h1

/-- The text of a segment: every argument followed by a comma. -/
def segText (seg : List Str) : Str := (seg.map fun a => a ++ [',']).flatten

theorem findAll_seg (seg : List Str) (h : ∀ a ∈ seg, Plain a) (r : Str) :
    findAll matchArg (segText seg ++ r) = seg ++ findAll matchArg r := by
  induction seg with
  | nil => rfl
  | cons a seg ih =>
    have e : segText (a :: seg) ++ r = a ++ ',' :: (segText seg ++ r) := by simp [segText]
    rw [e, findAll_plain_comma a _ (h a List.mem_cons_self), ih fun b hb => h b (List.mem_cons_of_mem _ hb)]
    rfl

/-- A final segment: strings are allowed too; the last one without commas. -/
def LastOk (seg : List Str) : Prop := ∀ a, seg.getLast? = some a → StepIsQuoted a → ',' ∉ a

theorem findAll_final (seg : List Str) (h : ∀ a ∈ seg, Plain a ∨ StepIsQuoted a) (hl : LastOk seg) :
    (findAll matchArg (joinComma seg)).map stripComma = seg := by
  induction seg with
  | nil => rfl
  | cons a seg ih =>
    have ha := h a List.mem_cons_self
    obtain ⟨e0, e1, e2⟩ := ends_plain ha
    cases seg with
    | nil =>
      have : joinComma [a] = a ++ [] := by simp [joinComma]
      have hm : matchArg (a ++ []) = some a.length := by
        rcases ha with (h | h) | h
        · exact matchArg_atom a [] h (Or.inl rfl)
        · exact matchArg_flat a [] h
        · rw [List.append_nil]; exact matchArg_lastQuoted a h (hl a rfl h)
      rw [this, findAll_some _ _ _ e0 hm, findAll_nil, List.map_singleton, stripComma_id a e1 e2]
    | cons b seg =>
      rw [joinComma_cons]
      have ih' := ih (fun c hc => h c (List.mem_cons_of_mem _ hc)) (fun c hc => hl c (by rw [List.getLast?_cons_cons]; exact hc))
      rcases ha with ha | ha
      · rw [findAll_plain_comma a _ ha, List.map_cons, ih', stripComma_id a e1 e2]
      · rw [findAll_quoted_comma a _ ha, List.map_cons, ih', stripComma_snoc a e0 e1 e2]

/-! ### Double brackets -/

/-- No two `p` in a row and not ending with `p`. -/
def Free (p : Char) (s : Str) : Prop := s.IsChain (fun c d => ¬ (c = p ∧ d = p)) ∧ s.getLast? ≠ some p

theorem Free.append {p : Char} {s t : Str} (hs : Free p s) (ht : t.IsChain (fun c d => ¬ (c = p ∧ d = p))) :
    (s ++ t).IsChain (fun c d => ¬ (c = p ∧ d = p)) := by
  rw [List.isChain_append]
  refine ⟨hs.1, ht, ?_⟩
  intro x hx y hy h
  exact hs.2 (h.1 ▸ hx)

theorem Free.append' {p : Char} {s t : Str} (hs : Free p s) (ht : Free p t) : Free p (s ++ t) := by
  refine ⟨hs.append ht.1, ?_⟩
  rw [List.getLast?_append]
  cases h : t.getLast? with
  | none => simpa using hs.2
  | some c => have := ht.2; rw [h] at this; simpa using this

theorem pairIndexes_free (p : Char) (s t : Str) (o : ℕ) (h : Free p s) :
    pairIndexes p (s ++ t) o = pairIndexes p t (o + s.length) := by
  induction s generalizing o with
  | nil => rfl
  | cons c s ih =>
    obtain ⟨h1, h2⟩ := h
    cases s with
    | nil =>
      have hc : c ≠ p := by simpa using h2
      cases t with
      | nil => rfl
      | cons d t =>
        show pairIndexes p (c :: d :: t) o = _
        rw [pairIndexes, if_neg (fun h => hc h.1)]
        rfl
    | cons d s =>
      show pairIndexes p (c :: d :: (s ++ t)) o = _
      rw [List.isChain_cons_cons] at h1
      rw [pairIndexes, if_neg h1.1, ← List.cons_append, ih]
      · rw [List.length_cons (a := c)]; congr 1; omega
      · exact ⟨h1.2, by rwa [List.getLast?_cons_cons] at h2⟩

theorem pairIndexes_chain (p : Char) (s : Str) (o : ℕ) (h : s.IsChain (fun c d => ¬ (c = p ∧ d = p))) :
    pairIndexes p s o = [] := by
  induction s generalizing o with
  | nil => rfl
  | cons c s ih =>
    cases s with
    | nil => rfl
    | cons d s =>
      rw [List.isChain_cons_cons] at h
      rw [pairIndexes, if_neg h.1]
      exact ih _ h.2

theorem free_snoc_comma {p : Char} (hp : p ≠ ',') {a : Str} (h : a.IsChain (fun c d => ¬ (c = p ∧ d = p))) : Free p (a ++ [',']) := by
  refine ⟨?_, by simp [hp.symm]⟩
  rw [List.isChain_append]
  refine ⟨h, List.isChain_singleton _, ?_⟩
  intro x _ y hy hxy
  simp at hy
  rw [← hy] at hxy
  exact hp hxy.2.symm

theorem free_seg {p : Char} (hp : p ≠ ',') (seg : List Str) (h : ∀ a ∈ seg, a.IsChain (fun c d => ¬ (c = p ∧ d = p))) :
    Free p (segText seg) := by
  induction seg with
  | nil => exact ⟨List.isChain_nil, by simp [segText]⟩
  | cons a seg ih =>
    have e : segText (a :: seg) = (a ++ [',']) ++ segText seg := by simp [segText]
    rw [e]
    exact (free_snoc_comma hp (h a List.mem_cons_self)).append' (ih fun b hb => h b (List.mem_cons_of_mem _ hb))

theorem chain_join {p : Char} (hp : p ≠ ',') (l : List Str) (h : ∀ a ∈ l, a.IsChain (fun c d => ¬ (c = p ∧ d = p))) :
    (joinComma l).IsChain (fun c d => ¬ (c = p ∧ d = p)) := by
  induction l with
  | nil => exact List.isChain_nil
  | cons a l ih =>
    cases l with
    | nil =>
      have : joinComma [a] = a := by simp [joinComma]
      rw [this]; exact h a List.mem_cons_self
    | cons b l =>
      have e : joinComma (a :: b :: l) = (a ++ [',']) ++ joinComma (b :: l) := by rw [joinComma_cons]; simp
      rw [e]
      exact (free_snoc_comma hp (h a List.mem_cons_self)).append (ih fun c hc => h c (List.mem_cons_of_mem _ hc))

/-- What is between a block and the following arguments: a comma, if there are any. -/
def lead (rest : List Str) : Str := if rest = [] then [] else [',']

theorem join_block (seg : List Str) (n : Str) (rest : List Str) :
    joinComma (seg ++ n :: rest) = segText seg ++ n ++ (lead rest ++ joinComma rest) := by
  induction seg with
  | nil =>
    cases rest with
    | nil => simp [joinComma, segText, lead]
    | cons r rest => simp [joinComma_cons, segText, lead]
  | cons a seg ih =>
    have e1 : ∃ x l, seg ++ n :: rest = x :: l := by
      cases seg with
      | nil => exact ⟨n, rest, rfl⟩
      | cons b s => exact ⟨b, _, rfl⟩
    obtain ⟨x, l, e1⟩ := e1
    rw [List.cons_append, e1, joinComma_cons, ← e1, ih]
    simp [segText]

/-- All the arguments of a text with lists of lists: before each of them a segment. -/
def allArgs (blocks : List (List Str × Str)) (final : List Str) : List Str :=
  (blocks.map fun b => b.1 ++ [b.2]).flatten ++ final

theorem free_nested_close {b : Str} (hb : NoDoubleParen b) (hl : b.getLast? ≠ some ')') : Free ')' ('(' :: '(' :: b) := by
  refine ⟨?_, ?_⟩
  · rw [List.isChain_cons_cons]
    refine ⟨by decide, ?_⟩
    rw [List.isChain_cons]
    exact ⟨fun y _ h => by simp at h, hb.2⟩
  · cases b with
    | nil => simp
    | cons c b => rw [List.getLast?_cons_cons, List.getLast?_cons_cons]; exact hl

theorem free_nested_open {b : Str} (hb : NoDoubleParen b) : Free '(' (b ++ [')', ')']) := by
  refine ⟨?_, by rw [List.getLast?_append]; simp⟩
  rw [List.isChain_append]
  refine ⟨hb.1, by simp, ?_⟩
  intro x _ y hy h
  simp at hy
  rw [← hy] at h
  exact absurd h.2 (by decide)

theorem free_open_comma (s : Str) (p : Char) (hp : p ≠ ',') (h : s = [] ∨ s = [',']) : Free p s := by
  rcases h with rfl | rfl
  · exact ⟨List.isChain_nil, by simp⟩
  · exact ⟨List.isChain_singleton _, by simp [hp.symm]⟩

theorem bracketLoop_all (blocks : List (List Str × Str)) (final : List Str)
    (hseg : ∀ b ∈ blocks, ∀ a ∈ b.1, Plain a ∧ NoDoubleParen a) (hnest : ∀ b ∈ blocks, StepIsNested b.2)
    (hfin : ∀ a ∈ final, (Plain a ∨ StepIsQuoted a) ∧ NoDoubleParen a) (hlast : LastOk final) (P ld : Str)
    (hld : ld = [] ∨ ld = [',']) :
    bracketLoop (P ++ (ld ++ joinComma (allArgs blocks final)))
      ((pairIndexes '(' (ld ++ joinComma (allArgs blocks final)) P.length).zip
        ((pairIndexes ')' (ld ++ joinComma (allArgs blocks final)) P.length).map (· + 2))) P.length = allArgs blocks final := by
  induction blocks generalizing P ld with
  | nil =>
    have e : allArgs [] final = final := by simp [allArgs]
    rw [e]
    have h1 := pairIndexes_free '(' ld (joinComma final) P.length (free_open_comma _ _ (by decide) hld)
    rw [h1, pairIndexes_chain _ _ _ (chain_join (by decide) _ fun a ha => (hfin a ha).2.1), List.zip_nil_left, bracketLoop, List.drop_left]
    have : findAll matchArg (ld ++ joinComma final) = findAll matchArg (joinComma final) := by
      rcases hld with rfl | rfl
      · rfl
      · exact findAll_none _ _ _ (matchArg_comma _)
    rw [this]
    exact findAll_final final (fun a ha => (hfin a ha).1) hlast
  | cons blk blocks ih =>
    obtain ⟨seg, n⟩ := blk
    have hsg := hseg _ List.mem_cons_self
    obtain ⟨b, hn, hb1, hb2⟩ := hnest _ List.mem_cons_self
    dsimp only at hsg hn
    set rest := allArgs blocks final with hrest
    have e : allArgs ((seg, n) :: blocks) final = seg ++ n :: rest := by rw [hrest]; simp [allArgs]
    have hlead : lead rest = [] ∨ lead rest = [','] := by unfold lead; split_ifs <;> simp
    set R := lead rest ++ joinComma rest with hR
    have hj : ld ++ joinComma (seg ++ n :: rest) = (ld ++ segText seg) ++ ('(' :: '(' :: (b ++ [')', ')'] ++ R)) := by
      rw [join_block, hn]; simp [hR]
    have hj2 : ld ++ joinComma (seg ++ n :: rest) = (ld ++ segText seg ++ '(' :: '(' :: b) ++ (')' :: ')' :: R) := by
      rw [join_block, hn]; simp [hR]
    have f1 : Free '(' (ld ++ segText seg) := (free_open_comma _ _ (by decide) hld).append'
      (free_seg (by decide) seg fun a ha => (hsg a ha).2.1)
    have f2 : Free ')' (ld ++ segText seg) := (free_open_comma _ _ (by decide) hld).append'
      (free_seg (by decide) seg fun a ha => (hsg a ha).2.2)
    have s1 : pairIndexes '(' (ld ++ joinComma (seg ++ n :: rest)) P.length =
        (P.length + (ld ++ segText seg).length) :: pairIndexes '(' R (P ++ (ld ++ segText seg) ++ n).length := by
      rw [hj, pairIndexes_free _ _ _ _ f1, pairIndexes, if_pos ⟨rfl, rfl⟩, pairIndexes_free _ _ _ _ (free_nested_open hb1)]
      rw [hn]
      congr 2
      simp only [List.length_append, List.length_cons, List.length_nil]
      omega
    have s2 : pairIndexes ')' (ld ++ joinComma (seg ++ n :: rest)) P.length =
        (P.length + (ld ++ segText seg ++ '(' :: '(' :: b).length) :: pairIndexes ')' R (P ++ (ld ++ segText seg) ++ n).length := by
      rw [hj2, pairIndexes_free _ _ _ _ (f2.append' (free_nested_close hb1 hb2)), pairIndexes, if_pos ⟨rfl, rfl⟩]
      rw [hn]
      congr 2
      simp only [List.length_append, List.length_cons, List.length_nil]
      omega
    rw [e, s1, s2, List.map_cons, List.zip_cons_cons, bracketLoop]
    have hb : P.length + (ld ++ segText seg ++ '(' :: '(' :: b).length + 2 = (P ++ (ld ++ segText seg) ++ n).length := by
      rw [hn]; simp only [List.length_append, List.length_cons, List.length_nil]; omega
    rw [hb]
    have hs : P ++ (ld ++ joinComma (seg ++ n :: rest)) = (P ++ (ld ++ segText seg) ++ n) ++ R := by
      rw [join_block]; simp [hR]
    have ih' := ih (fun b hb => hseg b (List.mem_cons_of_mem _ hb)) (fun b hb => hnest b (List.mem_cons_of_mem _ hb))
      (P ++ (ld ++ segText seg) ++ n) (lead rest) hlead
    rw [← hR] at ih'
    rw [hs, ih']
    have t1 : List.take (P.length + (ld ++ segText seg).length) (P ++ (ld ++ segText seg) ++ n ++ R) = P ++ (ld ++ segText seg) := by
      rw [← List.length_append, List.append_assoc, List.take_left]
    have t2 : List.take (P ++ (ld ++ segText seg) ++ n).length (P ++ (ld ++ segText seg) ++ n ++ R) = P ++ (ld ++ segText seg) ++ n :=
      List.take_left
    have t3 : List.drop (P.length + (ld ++ segText seg).length) (P ++ (ld ++ segText seg) ++ n) = n := by
      rw [← List.length_append, List.drop_left]
    rw [t1, t2, t3, List.drop_left]
    have : findAll matchArg (ld ++ segText seg) = seg := by
      have h := findAll_seg seg (fun a ha => (hsg a ha).1) []
      rw [List.append_nil, findAll_nil, List.append_nil] at h
      rcases hld with rfl | rfl
      · exact h
      · exact (findAll_none _ _ _ (matchArg_comma _)).trans h
    rw [this]

theorem splitArguments_eq (name s : Str) (hs : ' ' ∉ s) (h0 : s ≠ []) :
    splitArguments name s = (if name ≠ [] then [name] else []) ++
      (let t := if s.getLast? = some ';' then s.dropLast.dropLast else s
       bracketLoop t ((pairIndexes '(' t 0).zip ((pairIndexes ')' t 0).map (· + 2))) 0) := by
  unfold splitArguments
  rw [removeSpaces_id s hs]
  dsimp only
  rw [if_neg h0]
  split_ifs <;> simp_all [bracketLoop]

end StepSplit

/-- **Specification.** The arguments a simple entity is written with: references, numbers, enumerations, typed values,
lists, lists of lists, and strings after the last list of lists; a string at the very end has no comma in it. -/
structure StepArgs (blocks : List (List Str × Str)) (final : List Str) : Prop where
  seg : ∀ b ∈ blocks, ∀ a ∈ b.1, (StepIsAtom a ∨ StepIsFlat a) ∧ NoDoubleParen a
  nested : ∀ b ∈ blocks, StepIsNested b.2
  fin : ∀ a ∈ final, ((StepIsAtom a ∨ StepIsFlat a) ∨ StepIsQuoted a) ∧ NoDoubleParen a
  last : ∀ a, final.getLast? = some a → StepIsQuoted a → ',' ∉ a
  spaces : ∀ a ∈ allArgs blocks final, ' ' ∉ a

theorem StepSplit.joinComma_spaces (l : List Str) (h : ∀ a ∈ l, ' ' ∉ a) : ' ' ∉ joinComma l := by
  induction l with
  | nil => simp [joinComma]
  | cons a l ih =>
    cases l with
    | nil => have : joinComma [a] = a := by simp [joinComma]
             rw [this]; exact h a List.mem_cons_self
    | cons b l =>
      rw [joinComma_cons, List.mem_append, List.mem_cons]
      have h1 := h a List.mem_cons_self
      have h2 := ih fun c hc => h c (List.mem_cons_of_mem _ hc)
      rintro (h | h | h)
      · exact h1 h
      · exact absurd h (by decide)
      · exact h2 h

/-- **C37 (arguments of an entity).** `step_split_arguments` of the text `a1,…,an);` of the arguments of an entity, with
the comma after the name of the entity if that was read before, gives the name, if any, and the arguments.  Missing from
the full property: spaces in strings, strings before a list of lists or with a comma at the end, and lists nested deeper
than twice. -/
theorem C37_split_arguments_partial (name : Str) (blocks : List (List Str × Str)) (final : List Str) (h : StepArgs blocks final)
    (ld : Str) (hld : ld = [] ∨ ld = [',']) :
    splitArguments name (ld ++ joinComma (allArgs blocks final) ++ [')', ';']) =
      (if name ≠ [] then [name] else []) ++ allArgs blocks final := by
  have hsp := joinComma_spaces _ h.spaces
  rw [splitArguments_eq]
  · dsimp only
    have hlast : (ld ++ joinComma (allArgs blocks final) ++ [')', ';']).getLast? = some ';' := by
      rw [List.getLast?_append]; simp
    rw [if_pos hlast]
    have e : (ld ++ joinComma (allArgs blocks final) ++ [')', ';']).dropLast.dropLast = ld ++ joinComma (allArgs blocks final) := by
      rw [show ([')', ';'] : Str) = [')'] ++ [';'] from rfl, ← List.append_assoc, List.dropLast_concat, List.dropLast_concat]
    rw [e]
    have := bracketLoop_all blocks final h.seg h.nested h.fin h.last [] ld hld
    rw [List.nil_append, List.length_nil] at this
    rw [this]
  · simp only [List.mem_append, not_or]
    refine ⟨⟨?_, hsp⟩, by decide⟩
    rcases hld with rfl | rfl <;> decide
  · simp

/-- **C37 (arguments of a function of a complex entity).** The same for a text `a1,…,an` that does not end with a semicolon. -/
theorem C37_split_body_partial (blocks : List (List Str × Str)) (final : List Str) (h : StepArgs blocks final)
    (hl : (joinComma (allArgs blocks final)).getLast? ≠ some ';') :
    splitArguments [] (joinComma (allArgs blocks final)) = allArgs blocks final := by
  have hsp := joinComma_spaces _ h.spaces
  by_cases h0 : joinComma (allArgs blocks final) = []
  · have hz : allArgs blocks final = [] := by
      by_contra hne
      obtain ⟨x, l, hx⟩ := List.exists_cons_of_ne_nil hne
      have hxm : x ∈ allArgs blocks final := by rw [hx]; exact List.mem_cons_self
      have hxe : x = [] := by
        rw [hx] at h0
        cases l with
        | nil => simpa [joinComma] using h0
        | cons y l => rw [joinComma_cons] at h0; simp at h0
      subst hxe
      simp only [allArgs, List.mem_append, List.mem_flatten, List.mem_map] at hxm
      rcases hxm with ⟨l', ⟨b, hb, rfl⟩, hm⟩ | hm
      · rcases List.mem_append.1 hm with hm | hm
        · exact (ends_plain (Or.inl (h.seg b hb _ hm).1)).1 rfl
        · obtain ⟨c, hc, _⟩ := h.nested b hb
          rw [List.mem_singleton] at hm
          rw [← hm] at hc
          cases hc
      · exact (ends_plain (h.fin _ hm).1).1 rfl
    rw [hz]
    decide
  · rw [splitArguments_eq _ _ hsp h0]
    dsimp only
    rw [if_neg hl]
    have := bracketLoop_all blocks final h.seg h.nested h.fin h.last [] [] (Or.inl rfl)
    rw [List.nil_append, List.length_nil, List.nil_append] at this
    rw [this]
    rfl

/-- **C37, full statement for `step_split_arguments`** (false, see the counterexamples). -/
def C37_split_arguments_full_statement : Prop := ∀ args : List Str, args ≠ [] → (∀ a ∈ args, a ≠ [] ∧ StepTextFull false a) →
  splitArguments [] (joinComma args ++ [')', ';']) = args

/-- **C37, counterexample.** A string with a comma as last argument is split in two. -/
theorem C37_split_arguments_counterexample : ¬ C37_split_arguments_full_statement := by
  intro h
  have := h ["#1".toList, "'a,b'".toList] (by simp) (by
    intro a ha
    simp only [List.mem_cons, List.not_mem_nil, or_false] at ha
    rcases ha with rfl | rfl
    · exact ⟨by decide, .char (by decide) (by decide) (by decide) (by decide) (by decide)
        (.char (by decide) (by decide) (by decide) (by decide) (by decide) (.nil _))⟩
    · exact ⟨by decide, StepTextFull.str (s := "a,b".toList) (t := []) (by decide) (.nil _)⟩)
  revert this
  decide +kernel

/-- **C37, counterexample.** Removing the spaces changes a string: two strings that differ only by a space become equal. -/
theorem C37_spaces_counterexample : splitArguments [] "'a b','ab',#1);".toList = ["'a b'".toList, "'a b'".toList, "#1".toList] := by
  decide +kernel

/-- **C37, counterexample.** A string before a list of lists keeps a comma. -/
theorem C37_comma_counterexample : splitArguments [] "'x',((1.),(2.)));".toList = ["'x',".toList, "((1.),(2.))".toList] := by
  decide +kernel

/-- **C37, counterexample.** A list nested three times is torn apart. -/
theorem C37_depth_counterexample : splitArguments [] "(((1,2),(3,4)),((5,6),(7,8))));".toList =
    ["(((1,2),(3,4))".toList, "((5,6),(7,8))".toList, ")".toList] := by
  decide +kernel

/-- A B-spline surface with knots satisfies the hypotheses. -/
example : StepArgs [(["3".toList, "1".toList], "((#1,#2),(#3,#4))".toList)] [".UNSPECIFIED.".toList, "(4,4)".toList, "'x,y'".toList, ".F.".toList] := by
  refine ⟨?_, ?_, ?_, ?_, ?_⟩
  · simp only [List.mem_singleton, forall_eq, List.mem_cons, List.not_mem_nil, or_false, forall_eq_or_imp]
    refine ⟨⟨Or.inl (by unfold StepIsAtom; decide), by unfold NoDoubleParen; decide⟩, ⟨Or.inl (by unfold StepIsAtom; decide), by unfold NoDoubleParen; decide⟩⟩
  · simp only [List.mem_singleton, forall_eq]
    exact ⟨"#1,#2),(#3,#4".toList, by decide, by unfold NoDoubleParen; decide, by decide⟩
  · simp only [List.mem_cons, List.not_mem_nil, or_false, forall_eq_or_imp, forall_eq]
    refine ⟨⟨Or.inl (Or.inl (by unfold StepIsAtom; decide)), by unfold NoDoubleParen; decide⟩,
      ⟨Or.inl (Or.inr ⟨"4,4".toList, by decide, by decide⟩), by unfold NoDoubleParen; decide⟩,
      ⟨Or.inr ⟨"x,y".toList, by decide, by decide⟩, by unfold NoDoubleParen; decide⟩,
      ⟨Or.inl (Or.inl (by unfold StepIsAtom; decide)), by unfold NoDoubleParen; decide⟩⟩
  · intro a ha
    simp only [List.getLast?_cons_cons, List.getLast?_singleton, Option.some.injEq] at ha
    subst ha
    intro _; decide
  · decide

end Volmdlr
