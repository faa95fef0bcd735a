import Verif.Step.SplitModel
import Mathlib.Tactic.NormNum
import Mathlib.Data.List.Infix

/-!
# C37: splitting of STEP texts
-/

namespace Volmdlr
open StepSplit

/-- **Specification.** Texts of arguments: characters, quoted strings without quotes and parentheses in them, groups
with balanced parentheses; outside of quotes there is no white space.  The Boolean says whether commas are
allowed outside of groups and strings. -/
inductive StepText : Bool → Str → Prop
  | nil (b : Bool) : StepText b []
  | char {b : Bool} {c : Char} {t : Str} : c ≠ '(' → c ≠ ')' → c ≠ '\'' → c.isWhitespace = false → (c ≠ ',' ∨ b = true) →
      StepText b t → StepText b (c :: t)
  | str {b : Bool} {s t : Str} : (∀ c ∈ s, c ≠ '\'' ∧ c ≠ '(' ∧ c ≠ ')') → StepText b t →
      StepText b ('\'' :: (s ++ '\'' :: t))
  | group {b : Bool} {g t : Str} : StepText true g → StepText b t → StepText b ('(' :: (g ++ ')' :: t))

/-- **Specification.** The same with any characters except quotes in the strings. -/
inductive StepTextFull : Bool → Str → Prop
  | nil (b : Bool) : StepTextFull b []
  | char {b : Bool} {c : Char} {t : Str} : c ≠ '(' → c ≠ ')' → c ≠ '\'' → c.isWhitespace = false → (c ≠ ',' ∨ b = true) →
      StepTextFull b t → StepTextFull b (c :: t)
  | str {b : Bool} {s t : Str} : (∀ c ∈ s, c ≠ '\'') → StepTextFull b t → StepTextFull b ('\'' :: (s ++ '\'' :: t))
  | group {b : Bool} {g t : Str} : StepTextFull true g → StepTextFull b t → StepTextFull b ('(' :: (g ++ ')' :: t))

/-- **Specification.** `','.join(items)`. -/
def joinComma (items : List Str) : Str := [','].intercalate items

theorem StepSplit.joinComma_cons (x y : Str) (l : List Str) : joinComma (x :: y :: l) = x ++ ',' :: joinComma (y :: l) := by
  unfold joinComma
  rw [List.intercalate_cons_cons]
  simp

namespace StepSplit

theorem specialLoop_char (c : Char) (rest arg : Str) (par : ℕ) (args : List Str) (h1 : c ≠ '(') (h2 : c ≠ ')')
    (h3 : c ≠ '\'') (h4 : c ≠ ' ') (h5 : c ≠ ',' ∨ par > 1) :
    specialLoop (c :: rest) arg par false args = specialLoop rest (arg ++ [c]) par false args := by
  rw [specialLoop]
  by_cases h : par > 1
  · simp [h1, h2, h3, h4, h]
  · have : c ≠ ',' := h5.resolve_right h
    simp [h1, h2, h3, h4, h, this]

theorem specialLoop_instr (c : Char) (rest arg : Str) (par : ℕ) (args : List Str) (h1 : c ≠ '(') (h2 : c ≠ ')')
    (h3 : c ≠ '\'') :
    specialLoop (c :: rest) arg par true args = specialLoop rest (arg ++ [c]) par true args := by
  rw [specialLoop]
  simp [h1, h2, h3]

theorem specialLoop_str (s rest arg : Str) (par : ℕ) (args : List Str)
    (h : ∀ c ∈ s, c ≠ '\'' ∧ c ≠ '(' ∧ c ≠ ')') :
    specialLoop (s ++ rest) arg par true args = specialLoop rest (arg ++ s) par true args := by
  induction s generalizing arg with
  | nil => simp
  | cons c s ih =>
    obtain ⟨h1, h2, h3⟩ := h c List.mem_cons_self
    rw [List.cons_append, specialLoop_instr _ _ _ _ _ h2 h3 h1, ih _ fun d hd => h d (List.mem_cons_of_mem _ hd)]
    simp

theorem specialLoop_text {b : Bool} {t : Str} (h : StepText b t) (rest arg : Str) (par : ℕ) (args : List Str)
    (hp : 1 ≤ par) (hb : b = true → par > 1) :
    specialLoop (t ++ rest) arg par false args = specialLoop rest (arg ++ t) par false args := by
  induction h generalizing rest arg par args with
  | nil => simp
  | @char b c t h1 h2 h3 h4 h5 _ ih =>
    have h4' : c ≠ ' ' := by rintro rfl; exact absurd h4 (by decide)
    rw [List.cons_append, specialLoop_char _ _ _ _ _ h1 h2 h3 h4' (h5.imp id hb), ih _ _ _ _ hp hb]
    simp
  | @str b s t h1 _ ih =>
    have e1 : ∀ r, specialLoop ('\'' :: r) arg par false args = specialLoop r (arg ++ ['\'']) par true args := by
      intro r; rw [specialLoop]; simp
    have e2 : ∀ r a, specialLoop ('\'' :: r) a par true args = specialLoop r (a ++ ['\'']) par false args := by
      intro r a; rw [specialLoop]; simp
    rw [List.cons_append, e1, List.append_assoc, specialLoop_str _ _ _ _ _ h1, List.cons_append, e2, ih _ _ _ _ hp hb]
    simp
  | @group b g t _ _ ih1 ih2 =>
    have e1 : ∀ r, specialLoop ('(' :: r) arg par false args = specialLoop r (arg ++ ['(']) (par + 1) false args := by
      intro r
      rw [specialLoop]
      have : par + 1 > 1 := by omega
      simp [show 0 < par by omega]
    have e2 : ∀ r a, specialLoop (')' :: r) a (par + 1) false args = specialLoop r (a ++ [')']) par false args := by
      intro r a
      rw [specialLoop]
      simp [show ¬ par = 0 by omega]
    rw [List.cons_append, e1, List.append_assoc, ih1 _ _ _ _ (by omega) (by intro; omega), List.cons_append, e2, ih2 _ _ _ _ hp hb]
    simp

theorem specialLoop_args (x : Str) (l : List Str) (hl : ∀ a ∈ x :: l, StepText false a) (rest : Str) (args : List Str) :
    specialLoop (joinComma (x :: l) ++ ')' :: rest) [] 1 false args = args ++ x :: l := by
  induction l generalizing x args with
  | nil =>
    have : joinComma [x] = x := by simp [joinComma]
    rw [this, specialLoop_text (hl x List.mem_cons_self) _ _ _ _ (le_refl _) (by simp), specialLoop]
    simp
  | cons y l ih =>
    rw [joinComma_cons, List.append_assoc, specialLoop_text (hl x List.mem_cons_self) _ _ _ _ (le_refl _) (by simp),
      List.cons_append, specialLoop]
    have := ih y (fun a ha => hl a (List.mem_cons_of_mem _ ha)) (args ++ [x])
    simp only [List.nil_append]
    simpa using this

theorem strip_id (s : Str) (h1 : ∀ c, s.head? = some c → c.isWhitespace = false)
    (h2 : ∀ c, s.getLast? = some c → c.isWhitespace = false) : strip s = s := by
  unfold strip
  have e1 : s.dropWhile Char.isWhitespace = s := by
    cases s with
    | nil => rfl
    | cons c s => rw [List.dropWhile_cons_of_neg]; rw [h1 c rfl]; simp
  rw [e1]
  have e2 : s.reverse.dropWhile Char.isWhitespace = s.reverse := by
    cases hr : s.reverse with
    | nil => rfl
    | cons c r =>
      have : s.getLast? = some c := by rw [List.getLast?_eq_head?_reverse, hr]; rfl
      rw [List.dropWhile_cons_of_neg]; rw [h2 c this]; simp
  rw [e2, List.reverse_reverse]

theorem text_head {b : Bool} {t : Str} (h : StepText b t) (c : Char) (hc : t.head? = some c) : c.isWhitespace = false := by
  cases h with
  | nil => simp at hc
  | char _ _ _ h4 _ _ => simp at hc; rw [← hc]; exact h4
  | str => simp at hc; rw [← hc]; decide
  | group => simp at hc; rw [← hc]; decide

end StepSplit

/-- **C37 (arguments), full statement** (false, see the counterexample): any characters in the strings. -/
def C37_special_full_statement : Prop := ∀ args : List Str, args ≠ [] → (∀ a ∈ args, StepTextFull false a) →
  splitSpecial (joinComma args ++ [')']) = args

/-- **C37 (arguments).** Splitting the text `a1,a2,…,an)` gives back the arguments, for any number of arguments with
balanced parentheses nested to any depth and with quoted strings containing commas, spaces and any other characters
except parentheses.  Missing: strings that contain parentheses. -/
theorem C37_special_partial (args : List Str) (h0 : args ≠ []) (h : ∀ a ∈ args, StepText false a) :
    splitSpecial (joinComma args ++ [')']) = args := by
  obtain ⟨x, l, rfl⟩ := List.exists_cons_of_ne_nil h0
  unfold splitSpecial
  have hs : strip (joinComma (x :: l) ++ [')']) = joinComma (x :: l) ++ [')'] := by
    refine strip_id _ ?_ ?_
    · intro c hc
      cases x with
      | nil =>
        cases l with
        | nil => simp [joinComma] at hc; rw [← hc]; decide
        | cons y l => rw [joinComma_cons] at hc; simp at hc; rw [← hc]; decide
      | cons d x =>
        have hd := text_head (h _ List.mem_cons_self) d rfl
        cases l with
        | nil => simp [joinComma] at hc; rw [← hc]; exact hd
        | cons y l => rw [joinComma_cons] at hc; simp at hc; rw [← hc]; exact hd
    · intro c hc
      simp at hc
      rw [← hc]; decide
  rw [hs]
  dsimp only
  have hl : ¬ (0 < (joinComma (x :: l) ++ [')']).length ∧ (joinComma (x :: l) ++ [')']).getLast? ≠ some ')') :=
    fun h => h.2 (by simp)
  rw [if_neg hl]
  split_ifs
  · rw [List.append_assoc, List.singleton_append]
    rw [specialLoop_args x l h]
    rfl
  · rw [specialLoop_args x l h]
    rfl

/-- **C37, counterexample.** The argument `'a)'` followed by `#1`: the parenthesis in the string ends the list. -/
theorem C37_special_counterexample : ¬ C37_special_full_statement := by
  intro h
  have := h ["'a)'".toList, "#1".toList] (by simp) (by
    intro a ha
    simp only [List.mem_cons, List.not_mem_nil, or_false] at ha
    rcases ha with rfl | rfl
    · exact StepTextFull.str (s := "a)".toList) (t := []) (by decide) (.nil _)
    · exact .char (by decide) (by decide) (by decide) (by decide) (by decide)
        (.char (by decide) (by decide) (by decide) (by decide) (by decide) (.nil _)))
  revert this
  decide +kernel

/-- Nested lists and a string with a comma and a space satisfy the hypotheses. -/
example : splitSpecial "'a, b',((1,2),(3)),#5,$)".toList = ["'a, b'".toList, "((1,2),(3))".toList, "#5".toList, "$".toList] := by
  decide +kernel

example : StepText false "((1,2),'x y')".toList := by
  refine .group (g := "(1,2),'x y'".toList) (t := []) (.group (g := "1,2".toList) (t := ",'x y'".toList) ?_ ?_) (.nil _)
  · iterate 3 refine .char (by decide) (by decide) (by decide) (by decide) (by decide) ?_
    exact .nil _
  · exact .char (by decide) (by decide) (by decide) (by decide) (by decide) (.str (s := "x y".toList) (t := []) (by decide) (.nil _))

namespace StepSplit

theorem splitComma_ne_nil (s : Str) : splitComma s ≠ [] := by
  cases s with
  | nil => simp [splitComma]
  | cons c s =>
    rw [splitComma]
    split_ifs
    · simp
    · cases h : splitComma s <;> simp

theorem splitComma_nocomma (x : Str) (h : ',' ∉ x) : splitComma x = [x] := by
  induction x with
  | nil => rfl
  | cons c x ih =>
    rw [List.mem_cons, not_or] at h
    rw [splitComma, if_neg (Ne.symm h.1), ih h.2]

theorem splitComma_append (x s : Str) (h : ',' ∉ x) : splitComma (x ++ ',' :: s) = x :: splitComma s := by
  induction x with
  | nil => rw [List.nil_append, splitComma, if_pos rfl]
  | cons c x ih =>
    rw [List.mem_cons, not_or] at h
    rw [List.cons_append, splitComma, if_neg (Ne.symm h.1), ih h.2]

theorem splitComma_join (x : Str) (l : List Str) (h : ∀ a ∈ x :: l, ',' ∉ a) : splitComma (joinComma (x :: l)) = x :: l := by
  induction l generalizing x with
  | nil =>
    have : joinComma [x] = x := by simp [joinComma]
    rw [this, splitComma_nocomma x (h x List.mem_cons_self)]
  | cons y l ih =>
    rw [joinComma_cons, splitComma_append x _ (h x List.mem_cons_self), ih y fun a ha => h a (List.mem_cons_of_mem _ ha)]

theorem joinComma_snoc (l : List Str) (y s : Str) : joinComma (l ++ [y]) ++ s = joinComma (l ++ [y ++ s]) := by
  induction l with
  | nil => simp [joinComma]
  | cons x l ih =>
    cases l with
    | nil => simp [joinComma_cons, joinComma]
    | cons z l =>
      rw [List.cons_append] at ih
      rw [List.cons_append, List.cons_append, joinComma_cons, List.append_assoc, List.cons_append, ih]
      rw [List.cons_append, List.cons_append, List.cons_append, joinComma_cons]

theorem joinComma_head (x s : Str) (l : List Str) : s ++ joinComma (x :: l) = joinComma ((s ++ x) :: l) := by
  cases l with
  | nil => simp [joinComma]
  | cons y l => simp [joinComma_cons]

theorem modifyLast_snoc (f : Str → Str) (l : List Str) (y : Str) : modifyLast f (l ++ [y]) = l ++ [f y] := by
  induction l with
  | nil => rfl
  | cons x l ih =>
    cases l with
    | nil => rfl
    | cons z l => rw [List.cons_append, List.cons_append, modifyLast, ← List.cons_append, ih]; rfl

end StepSplit

/-- **C37 (sets).** `set_to_list` of `(a1,…,an)` gives back the items, for items without commas and any opening and
closing character. -/
theorem C37_set_to_list (items : List Str) (h0 : items ≠ []) (h : ∀ a ∈ items, ',' ∉ a) (o c : Char) (ho : o ≠ ',') (hc : c ≠ ',') :
    setToList (o :: (joinComma items ++ [c])) = items := by
  unfold setToList
  rcases List.eq_nil_or_concat items with rfl | ⟨l, y, rfl⟩
  · exact absurd rfl h0
  rw [List.concat_eq_append] at *
  have hy : ',' ∉ y ++ [c] := by
    simp only [List.mem_append, List.mem_singleton, not_or]
    exact ⟨h y (by simp), hc.symm⟩
  cases l with
  | nil =>
    have e : o :: (joinComma ([] ++ [y]) ++ [c]) = o :: (y ++ [c]) := by simp [joinComma]
    rw [e, splitComma_nocomma _ (by simp only [List.mem_cons, not_or]; exact ⟨ho.symm, hy⟩)]
    simp [modifyLast]
  | cons x l =>
    have e : o :: (joinComma (x :: l ++ [y]) ++ [c]) = joinComma ((o :: x) :: (l ++ [y ++ [c]])) := by
      rw [joinComma_snoc, List.cons_append]
      exact joinComma_head x [o] _
    rw [e, splitComma_join]
    · dsimp only [List.modifyHead, List.tail_cons]
      rw [← List.cons_append, modifyLast_snoc, List.dropLast_concat]
    · intro a ha
      rcases List.mem_cons.1 ha with rfl | ha
      · rw [List.mem_cons, not_or]; exact ⟨ho.symm, h x (by simp)⟩
      · rcases List.mem_append.1 ha with ha | ha
        · exact h a (by simp [ha])
        · rw [List.mem_singleton.1 ha]; exact hy

/-- `set_to_list` always gives at least one item, and never fails. -/
theorem C37_set_to_list_length (s : Str) : (setToList s).length = s.count ',' + 1 := by
  have h1 : (splitComma s).length = s.count ',' + 1 := by
    induction s with
    | nil => rfl
    | cons c s ih =>
      rw [splitComma]
      split_ifs with h
      · rw [List.length_cons, ih, h, List.count_cons_self]
      · rw [List.count_cons_of_ne h, ← ih]
        cases hs : splitComma s with
        | nil => exact absurd hs (splitComma_ne_nil s)
        | cons => rfl
  have h2 : ∀ f l, (modifyLast f l).length = l.length := by
    intro f l
    induction l with
    | nil => rfl
    | cons x l ih =>
      cases l with
      | nil => rfl
      | cons y l => rw [modifyLast, List.length_cons, ih]; rfl
  unfold setToList
  rw [h2, List.length_modifyHead, h1]

example : setToList "(#1,#22,#333)".toList = ["#1".toList, "#22".toList, "#333".toList] := by decide +kernel

namespace StepSplit

theorem parseLoop_eq (s arg : Str) (acc : List Str) (h : ',' ∉ arg) : parseLoop s arg acc = acc ++ splitComma (arg ++ s) := by
  induction s generalizing arg acc with
  | nil => rw [parseLoop, List.append_nil, splitComma_nocomma arg h]
  | cons c s ih =>
    rw [parseLoop]
    split_ifs with hc
    · rw [hc, splitComma_append arg s h, ih [] _ (by simp), List.nil_append]; simp
    · rw [ih]
      · simp
      · simp only [List.mem_append, List.mem_singleton, not_or]; exact ⟨h, fun h => hc h.symm⟩

end StepSplit

/-- **C37 (lists of references).** `parse_arguments` turns `(#1,…,#n)` into the list of its items. -/
theorem C37_parse_arguments (x : Str) (items : List Str) (h : ∀ a ∈ ('#' :: x) :: items, ',' ∉ a) :
    parseArgument ('(' :: (joinComma (('#' :: x) :: items) ++ [')'])) = .list (('#' :: x) :: items) := by
  unfold parseArgument
  have e : ∃ t, joinComma (('#' :: x) :: items) = '#' :: t := by
    cases items with
    | nil => exact ⟨x, by simp [joinComma]⟩
    | cons y l => rw [joinComma_cons]; exact ⟨_, rfl⟩
  obtain ⟨t, ht⟩ := e
  rw [if_pos (by rw [ht]; rfl)]
  congr 1
  rw [List.tail_cons, List.dropLast_concat, parseLoop_eq _ _ _ (by simp), List.nil_append, List.nil_append,
    splitComma_join _ _ h]

example : parseArgument "(#1,#22)".toList = .list ["#1".toList, "#22".toList] := by decide +kernel

/-- **Specification.** Texts with balanced parentheses. -/
inductive Balanced : Str → Prop
  | nil : Balanced []
  | char {c : Char} {t : Str} : c ≠ '(' → c ≠ ')' → Balanced t → Balanced (c :: t)
  | group {g t : Str} : Balanced g → Balanced t → Balanced ('(' :: (g ++ ')' :: t))

/-- **Specification.** `NAME1(body1)NAME2(body2)…`. -/
def subText (fs : List (Str × Str)) : Str := (fs.map fun f => f.1 ++ '(' :: (f.2 ++ [')'])).flatten

namespace StepSplit

theorem subLoop_body {t : Str} (h : Balanced t) (rest : Str) (n : ℤ) (hn : 1 ≤ n) (name arg : Str) (names args : List Str) :
    subLoop (t ++ rest) n name arg names args = subLoop rest n name (arg ++ t) names args := by
  induction h generalizing rest n arg with
  | nil => simp
  | char h1 h2 _ ih =>
    rw [List.cons_append, subLoop, if_neg h1, if_neg h2, if_neg (by omega), ih _ _ hn]
    simp
  | group _ _ ih1 ih2 =>
    rw [List.cons_append, subLoop, if_pos rfl, if_neg (by omega), List.append_assoc, ih1 _ _ (by omega), List.cons_append,
      subLoop, if_neg (by decide), if_pos rfl, if_neg (by omega), show n + 1 - 1 = n by omega, ih2 _ _ hn]
    simp

theorem subLoop_name (t rest : Str) (h : ∀ c ∈ t, c ≠ '(' ∧ c ≠ ')') (name arg : Str) (names args : List Str) :
    subLoop (t ++ rest) 0 name arg names args = subLoop rest 0 (name ++ t) arg names args := by
  induction t generalizing name with
  | nil => simp
  | cons c t ih =>
    obtain ⟨h1, h2⟩ := h c List.mem_cons_self
    rw [List.cons_append, subLoop, if_neg h1, if_neg h2, if_pos rfl, ih fun d hd => h d (List.mem_cons_of_mem _ hd)]
    simp

theorem subLoop_all (fs : List (Str × Str)) (h : ∀ f ∈ fs, (∀ c ∈ f.1, c ≠ '(' ∧ c ≠ ')') ∧ Balanced f.2) (rest : Str)
    (names args : List Str) :
    subLoop (subText fs ++ rest) 0 [] [] names args = subLoop rest 0 [] [] (names ++ fs.map Prod.fst) (args ++ fs.map Prod.snd) := by
  induction fs generalizing names args with
  | nil => simp [subText]
  | cons f fs ih =>
    obtain ⟨h1, h2⟩ := h f List.mem_cons_self
    have e : subText (f :: fs) ++ rest = f.1 ++ ('(' :: (f.2 ++ (')' :: (subText fs ++ rest)))) := by simp [subText]
    rw [e, subLoop_name _ _ h1, subLoop, if_pos rfl, if_pos (by norm_num), subLoop_body h2 _ _ (by norm_num), subLoop,
      if_neg (by decide), if_pos rfl, if_pos (by norm_num), show (0 : ℤ) + 1 - 1 = 0 by norm_num,
      ih fun g hg => h g (List.mem_cons_of_mem _ hg)]
    simp

/-- What follows the last function of a complex entity does not matter: a closing parenthesis and a semicolon. -/
theorem subLoop_tail (rest : Str) (h : rest = [] ∨ rest = [')'] ∨ rest = [')', ';']) (names args : List Str) :
    subLoop rest 0 [] [] names args = (names, args) := by
  rcases h with rfl | rfl | rfl
  · rfl
  · rw [subLoop, if_neg (by decide), if_pos rfl, if_neg (by norm_num)]; rfl
  · rw [subLoop, if_neg (by decide), if_pos rfl, if_neg (by norm_num), subLoop, if_neg (by decide), if_neg (by decide),
      if_neg (by norm_num)]; rfl

theorem filter_subText (fs : List (Str × Str)) :
    (subText fs).filter (· ≠ ' ') = subText (fs.map fun f => (f.1.filter (· ≠ ' '), f.2.filter (· ≠ ' '))) := by
  induction fs with
  | nil => rfl
  | cons f fs ih =>
    have e : subText (f :: fs) = (f.1 ++ '(' :: (f.2 ++ [')'])) ++ subText fs := by simp [subText]
    rw [e, List.filter_append, ih]
    simp [subText]

theorem balanced_filter {t : Str} (h : Balanced t) : Balanced (t.filter (· ≠ ' ')) := by
  induction h with
  | nil => exact .nil
  | @char c t h1 h2 _ ih =>
    rw [List.filter_cons]
    split_ifs
    · exact .char h1 h2 ih
    · exact ih
  | @group g t _ _ ih1 ih2 =>
    have : ('(' :: (g ++ ')' :: t)).filter (· ≠ ' ') = '(' :: (g.filter (· ≠ ' ') ++ ')' :: t.filter (· ≠ ' ')) := by
      simp
    rw [this]
    exact .group ih1 ih2

end StepSplit

/-- **C37 (complex entities).** From `NAME1(body1)NAME2(body2)…` followed by the end of the entity, `step_subfunctions`
gets the names and the bodies with the spaces removed, for bodies with parentheses nested to any depth. -/
theorem C37_subfunctions (fs : List (Str × Str)) (rest : Str) (hr : rest = [] ∨ rest = [')'] ∨ rest = [')', ';'])
    (h : ∀ f ∈ fs, (∀ c ∈ f.1, c ≠ '(' ∧ c ≠ ')') ∧ Balanced f.2) :
    subfunctions (subText fs ++ rest) =
      (fs.map fun f => f.1.filter (· ≠ ' '), fs.map fun f => f.2.filter (· ≠ ' ')) := by
  unfold subfunctions
  have hrest : rest.filter (· ≠ ' ') = rest := by rcases hr with rfl | rfl | rfl <;> decide
  rw [List.filter_append, filter_subText, hrest, subLoop_all, subLoop_tail _ hr]
  · simp [Function.comp_def]
  · intro f hf
    obtain ⟨g, hg, rfl⟩ := List.mem_map.1 hf
    obtain ⟨h1, h2⟩ := h g hg
    refine ⟨fun c hc => h1 c (List.mem_filter.1 hc).1, balanced_filter h2⟩

example : subfunctions "A(3)B((#1,#2))C('',''));".toList =
    (["A".toList, "B".toList, "C".toList], ["3".toList, "(#1,#2)".toList, "'',''".toList]) := by decide +kernel

end Volmdlr
