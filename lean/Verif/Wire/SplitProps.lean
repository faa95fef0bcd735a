import Verif.Wire.SplitModel
import Verif.Wire.OrderProps
import Verif.Wire.WireProps

/-!
# C164: splitting a wire at two points
-/

namespace Volmdlr.Wire

variable {E P K : Type} [Field K] [LinearOrder K] [IsStrictOrderedRing K] (k : EdgeKit E P K)

/-! ## Specification -/

/-- What the split of the edge `e` at its point `p` of abscissa `s` is: the part before `p`, absent when `p` is the start, and the
part after it, absent when `p` is the end. -/
structure SplitsAt (tol : K) (parts : Option E × Option E) (e : E) (p : P) (s : K) : Prop where
  before_none : parts.1 = none ↔ s = 0
  after_none : parts.2 = none ↔ s = k.length e
  before : ∀ a ∈ parts.1, k.length a = s ∧ k.start a = k.start e ∧ k.dist (k.fin a) p ≤ tol
  after : ∀ b ∈ parts.2, k.length b = k.length e - s ∧ k.fin b = k.fin e ∧ k.dist p (k.start b) ≤ tol

/-- A chain of edges from `p` to `q`. -/
structure PathFrom (tol : K) (p : P) (l : List E) (q : P) : Prop where
  chain : l.IsChain (Follows k tol)
  start : ∀ first ∈ l.head?, k.dist p (k.start first) ≤ tol
  fin : ∀ last ∈ l.getLast?, k.dist (k.fin last) q ≤ tol

/-- The methods `split` and `trim` do what they should on the edges of the wire which contain the points: `s1` and `s2` are the
abscissas of the points on the wire. -/
structure GoodCuts (tol : K) (split : E → P → Option E × Option E) (trim : E → P → P → E) (s1 s2 : K) (p1 p2 : P)
    (current : K) (prims : List E) : Prop where
  split1 : ∀ before e after, prims = before ++ e :: after → current + (before.map k.length).sum ≤ s1 →
    s1 ≤ current + (before.map k.length).sum + k.length e →
    SplitsAt k tol (split e p1) e p1 (s1 - (current + (before.map k.length).sum))
  split2 : ∀ before e after, prims = before ++ e :: after → current + (before.map k.length).sum ≤ s2 →
    s2 ≤ current + (before.map k.length).sum + k.length e →
    SplitsAt k tol (split e p2) e p2 (s2 - (current + (before.map k.length).sum))
  trim : ∀ before e after, prims = before ++ e :: after → current + (before.map k.length).sum ≤ s1 →
    s2 ≤ current + (before.map k.length).sum + k.length e →
    k.length (trim e p1 p2) = s2 - s1 ∧ k.dist p1 (k.start (trim e p1 p2)) ≤ tol ∧ k.dist (k.fin (trim e p1 p2)) p2 ≤ tol

variable {k} {tol : K} {split : E → P → Option E × Option E} {trim : E → P → P → E} {s1 s2 : K} {p1 p2 : P}

omit [IsStrictOrderedRing K] in
lemma GoodCuts.tail {current : K} {e : E} {es : List E} (h : GoodCuts k tol split trim s1 s2 p1 p2 current (e :: es)) :
    GoodCuts k tol split trim s1 s2 p1 p2 (current + k.length e) es := by
  have hs : ∀ l : List E, current + ((e :: l).map k.length).sum = current + k.length e + (l.map k.length).sum := by
    intro l; rw [List.map_cons, List.sum_cons]; ring
  refine ⟨?_, ?_, ?_⟩
  · intro before a after he
    have := h.split1 (e :: before) a after (by rw [he]; rfl)
    rwa [hs] at this
  · intro before a after he
    have := h.split2 (e :: before) a after (by rw [he]; rfl)
    rwa [hs] at this
  · intro before a after he
    have := h.trim (e :: before) a after (by rw [he]; rfl)
    rwa [hs] at this

omit [IsStrictOrderedRing K] in
lemma GoodCuts.head {current : K} {e : E} {es : List E} (h : GoodCuts k tol split trim s1 s2 p1 p2 current (e :: es)) :
    (current ≤ s1 → s1 ≤ current + k.length e → SplitsAt k tol (split e p1) e p1 (s1 - current)) ∧
    (current ≤ s2 → s2 ≤ current + k.length e → SplitsAt k tol (split e p2) e p2 (s2 - current)) ∧
    (current ≤ s1 → s2 ≤ current + k.length e →
      k.length (trim e p1 p2) = s2 - s1 ∧ k.dist p1 (k.start (trim e p1 p2)) ≤ tol ∧ k.dist (k.fin (trim e p1 p2)) p2 ≤ tol) := by
  refine ⟨?_, ?_, ?_⟩
  · simpa using h.split1 [] e es rfl
  · simpa using h.split2 [] e es rfl
  · simpa using h.trim [] e es rfl

/-! ## After the second point -/

lemma splitLoop_after : ∀ (prims : List E) (current : K), s2 < current →
    splitLoop k split trim s1 s2 p1 p2 current prims = .ok ([], prims) := by
  intro prims
  induction prims with
  | nil => intro current _; rfl
  | cons e es ih =>
    intro current h
    have hl := k.length_nonneg e
    rw [splitLoop, splitPrimitive, if_neg (by rintro ⟨_, h'⟩; linarith), if_pos (Or.inl h)]
    dsimp only
    rw [ih _ (by linarith)]
    rfl

lemma sum_length_nonneg (l : List E) : 0 ≤ (l.map k.length).sum :=
  List.sum_nonneg (by intro x hx; obtain ⟨e, _, rfl⟩ := List.mem_map.1 hx; exact k.length_nonneg e)

/-! ## Between the points -/

/-- The state between the two points: what is inside is the beginning of the rest of the wire, up to the second point. -/
lemma splitLoop_between (h12 : s1 < s2) : ∀ (prims : List E) (current : K),
    GoodCuts k tol split trim s1 s2 p1 p2 current prims → prims.IsChain (Follows k tol) → (∀ e ∈ prims, 0 < k.length e) →
    s1 < current → current ≤ s2 → s2 ≤ current + (prims.map k.length).sum →
    ∃ ins outs, splitLoop k split trim s1 s2 p1 p2 current prims = .ok (ins, outs) ∧
      (ins.map k.length).sum = s2 - current ∧ (outs.map k.length).sum = current + (prims.map k.length).sum - s2 ∧
      ins.IsChain (Follows k tol) ∧ (ins.head?.map k.start = if current = s2 then none else prims.head?.map k.start) ∧
      (∀ last ∈ ins.getLast?, k.dist (k.fin last) p2 ≤ tol) ∧
      outs.IsChain (Follows k tol) ∧ (∀ first ∈ outs.head?, k.dist p2 (k.start first) ≤ tol) ∧
      (outs.getLast?.map k.fin = if s2 = current + (prims.map k.length).sum then none else prims.getLast?.map k.fin) := by
  intro prims
  induction prims with
  | nil =>
    intro current hg hch hpos h1 h2 h3
    have : current = s2 := by simp at h3; exact le_antisymm h2 h3
    refine ⟨[], [], rfl, ?_⟩
    simp [this]
  | cons e es ih =>
    intro current hg hch hpos h1 h2 h3
    have hl := hpos e List.mem_cons_self
    have hch' : es.IsChain (Follows k tol) := (List.isChain_cons.1 hch).2
    have hfol := (List.isChain_cons.1 hch).1
    have hpos' : ∀ a ∈ es, 0 < k.length a := fun a ha => hpos a (List.mem_cons_of_mem _ ha)
    have hsum : current + ((e :: es).map k.length).sum = current + k.length e + (es.map k.length).sum := by
      rw [List.map_cons, List.sum_cons]; ring
    have hes := sum_length_nonneg (k := k) es
    rw [hsum] at h3 ⊢
    by_cases hA : current + k.length e < s2
    · -- the edge is inside
      obtain ⟨ins, outs, hok, hi1, ho1, hi2, hi3, hi4, ho2, ho3, ho4⟩ := ih (current + k.length e) hg.tail hch' hpos' (by linarith) hA.le h3
      refine ⟨e :: ins, outs, ?_, ?_, ?_, ?_, ?_, ?_, ho2, ho3, ?_⟩
      · rw [splitLoop, splitPrimitive, if_pos ⟨h1, hA⟩]
        dsimp only
        rw [hok]
        rfl
      · rw [List.map_cons, List.sum_cons, hi1]; ring
      · rw [ho1]
      · rw [List.isChain_cons]
        refine ⟨?_, hi2⟩
        intro y hy
        rw [if_neg (ne_of_lt hA)] at hi3
        rw [Option.mem_def] at hy
        rw [hy] at hi3
        rcases hh : es.head? with _ | f
        · rw [hh] at hi3; simp at hi3
        · rw [hh] at hi3
          simp only [Option.map_some, Option.some.injEq] at hi3
          have := hfol f hh
          unfold Follows at this ⊢
          rw [hi3]; exact this
      · rw [if_neg (by intro h; rw [h] at hA; linarith)]; rfl
      · intro last hlast
        rcases hins : ins.getLast? with _ | l'
        · rw [List.getLast?_eq_none_iff] at hins
          rw [hins] at hi1
          simp at hi1
          linarith
        · rw [List.getLast?_cons, hins] at hlast
          simp only [Option.getD_some, Option.mem_def, Option.some.injEq] at hlast
          subst hlast
          exact hi4 _ hins
      · rw [ho4]
        by_cases hq : s2 = current + k.length e + (es.map k.length).sum
        · rw [if_pos hq, if_pos hq]
        · rw [if_neg hq, if_neg hq]
          rcases es with _ | ⟨a, l⟩
          · simp at h3; linarith
          · rw [List.getLast?_cons_cons]
    · -- the second point is on the edge
      push Not at hA
      have hsp := hg.head.2.1 h2 hA
      have hstep : splitPrimitive k split trim s1 s2 p1 p2 current e = .ok ((split e p2).1.toList, (split e p2).2.toList) := by
        rw [splitPrimitive, if_neg (by rintro ⟨_, h⟩; linarith), if_neg (by rintro (h | h) <;> linarith),
          if_neg (by rintro ⟨⟨h, _⟩, _⟩; linarith), if_neg (by rintro ⟨h, _⟩; linarith), if_pos ⟨h2, hA⟩]
      rcases eq_or_lt_of_le hA with heq | hlt
      · -- at its end
        have hb : (split e p2).2 = none := hsp.after_none.2 (by linarith)
        have ha : (split e p2).1 ≠ none := fun h => by have := hsp.before_none.1 h; linarith
        obtain ⟨a, ha⟩ := Option.ne_none_iff_exists'.1 ha
        obtain ⟨a1, a2, a3⟩ := hsp.before a ha
        obtain ⟨ins, outs, hok, hi1, ho1, hi2, hi3, hi4, ho2, ho3, ho4⟩ := ih (current + k.length e) hg.tail hch' hpos' (by linarith) (by linarith) h3
        have hins : ins = [] := by
          rw [if_pos heq.symm] at hi3
          simpa using hi3
        subst hins
        refine ⟨[a], outs, ?_, ?_, ?_, by simp, ?_, ?_, ho2, ho3, ?_⟩
        · rw [splitLoop, hstep]
          dsimp only
          rw [hok, ha, hb]
          rfl
        · simp [a1]
        · rw [ho1]
        · rw [if_neg (by intro h; rw [h] at heq; linarith)]
          simp [a2]
        · intro last hlast
          simp at hlast
          subst hlast
          exact a3
        · rw [ho4]
          by_cases hq : s2 = current + k.length e + (es.map k.length).sum
          · rw [if_pos hq, if_pos hq]
          · rw [if_neg hq, if_neg hq]
            rcases es with _ | ⟨a, l⟩
            · simp at hq; exact absurd heq hq
            · rw [List.getLast?_cons_cons]
      · -- before its end
        have hb : (split e p2).2 ≠ none := fun h => by have := hsp.after_none.1 h; linarith
        obtain ⟨b, hb⟩ := Option.ne_none_iff_exists'.1 hb
        obtain ⟨b1, b2, b3⟩ := hsp.after b hb
        have hok := splitLoop_after (k := k) (split := split) (trim := trim) (p1 := p1) (p2 := p2) (s1 := s1) es (current + k.length e) hlt
        have hne : s2 ≠ current + k.length e + (es.map k.length).sum := by intro h; linarith
        have hbl : (b :: es).getLast?.map k.fin = (e :: es).getLast?.map k.fin := by
          rcases es with _ | ⟨a, l⟩
          · simp [b2]
          · rw [List.getLast?_cons_cons, List.getLast?_cons_cons]
        have hbch : (b :: es).IsChain (Follows k tol) := by
          rw [List.isChain_cons]
          refine ⟨fun y hy => ?_, hch'⟩
          have := hfol y hy
          unfold Follows at this ⊢
          rw [b2]; exact this
        rcases ha : (split e p2).1 with _ | a
        · have hs := hsp.before_none.1 ha
          refine ⟨[], b :: es, ?_, ?_, ?_, by simp, ?_, by simp, hbch, ?_, ?_⟩
          · rw [splitLoop, hstep]
            dsimp only
            rw [hok, ha, hb]
            rfl
          · simp; linarith
          · rw [List.map_cons, List.sum_cons, b1]; ring
          · rw [if_pos (by linarith)]; rfl
          · simpa using b3
          · rw [if_neg hne, hbl]
        · have hs : s2 - current ≠ 0 := fun h => by have := hsp.before_none.2 h; rw [ha] at this; cases this
          obtain ⟨a1, a2, a3⟩ := hsp.before a ha
          refine ⟨[a], b :: es, ?_, ?_, ?_, by simp, ?_, ?_, hbch, ?_, ?_⟩
          · rw [splitLoop, hstep]
            dsimp only
            rw [hok, ha, hb]
            rfl
          · simp [a1]
          · rw [List.map_cons, List.sum_cons, b1]; ring
          · rw [if_neg (by intro h; apply hs; linarith)]; simp [a2]
          · intro last hlast
            simp at hlast
            subst hlast
            exact a3
          · simpa using b3
          · rw [if_neg hne, hbl]

/-! ## From the start -/

omit [IsStrictOrderedRing K] in
lemma chain_cons_of_head {e : E} {es l : List E} (hfol : ∀ y ∈ es.head?, Follows k tol e y) (hl : l.IsChain (Follows k tol))
    {e' : E} (he' : k.fin e' = k.fin e) (hh : l.head?.map k.start = none ∨ l.head?.map k.start = es.head?.map k.start) :
    (e' :: l).IsChain (Follows k tol) := by
  rw [List.isChain_cons]
  refine ⟨?_, hl⟩
  intro y hy
  rw [Option.mem_def] at hy
  rw [hy] at hh
  rcases hh with hh | hh
  · simp at hh
  · rcases hf : es.head? with _ | f
    · rw [hf] at hh; simp at hh
    · rw [hf] at hh
      simp only [Option.map_some, Option.some.injEq] at hh
      have := hfol f hf
      unfold Follows at this ⊢
      rw [hh, he']; exact this

lemma splitLoop_before (h12 : s1 < s2) : ∀ (prims : List E) (current : K),
    GoodCuts k tol split trim s1 s2 p1 p2 current prims → prims.IsChain (Follows k tol) → (∀ e ∈ prims, 0 < k.length e) →
    current ≤ s1 → s2 ≤ current + (prims.map k.length).sum →
    ∃ ins A B, splitLoop k split trim s1 s2 p1 p2 current prims = .ok (ins, A ++ B) ∧
      (ins.map k.length).sum = s2 - s1 ∧ (A.map k.length).sum = s1 - current ∧
      (B.map k.length).sum = current + (prims.map k.length).sum - s2 ∧
      PathFrom k tol p1 ins p2 ∧
      A.IsChain (Follows k tol) ∧ (A.head?.map k.start = if s1 = current then none else prims.head?.map k.start) ∧
      (∀ last ∈ A.getLast?, k.dist (k.fin last) p1 ≤ tol) ∧
      B.IsChain (Follows k tol) ∧ (∀ first ∈ B.head?, k.dist p2 (k.start first) ≤ tol) ∧
      (B.getLast?.map k.fin = if s2 = current + (prims.map k.length).sum then none else prims.getLast?.map k.fin) := by
  intro prims
  induction prims with
  | nil =>
    intro current hg hch hpos h1 h3
    simp at h3
    linarith
  | cons e es ih =>
    intro current hg hch hpos h1 h3
    have hl := hpos e List.mem_cons_self
    have hch' : es.IsChain (Follows k tol) := (List.isChain_cons.1 hch).2
    have hfol := (List.isChain_cons.1 hch).1
    have hpos' : ∀ a ∈ es, 0 < k.length a := fun a ha => hpos a (List.mem_cons_of_mem _ ha)
    have hsum : current + ((e :: es).map k.length).sum = current + k.length e + (es.map k.length).sum := by
      rw [List.map_cons, List.sum_cons]; ring
    have hes := sum_length_nonneg (k := k) es
    rw [hsum] at h3 ⊢
    have hlast : s2 = current + k.length e + (es.map k.length).sum ∨ es ≠ [] ∨ s2 < current + k.length e := by
      rcases es with _ | ⟨a, l⟩
      · simp at h3 ⊢
        exact h3.eq_or_lt
      · simp
    by_cases hA : current + k.length e < s1
    · -- before the first point
      obtain ⟨ins, A, B, hok, q1, q2, q3, q4, q5, q6, q7, q8, q9, q10⟩ := ih (current + k.length e) hg.tail hch' hpos' hA.le h3
      refine ⟨ins, e :: A, B, ?_, q1, ?_, q3, q4, ?_, ?_, ?_, q8, q9, ?_⟩
      · rw [splitLoop, splitPrimitive, if_neg (by rintro ⟨h, _⟩; linarith), if_pos (Or.inr hA)]
        dsimp only
        rw [hok]
        rfl
      · rw [List.map_cons, List.sum_cons, q2]; ring
      · rw [if_neg (ne_of_gt hA)] at q6
        exact chain_cons_of_head hfol q5 rfl (Or.inr q6)
      · rw [if_neg (by intro h; rw [h] at hA; linarith)]; rfl
      · intro last hlast
        rcases hAl : A.getLast? with _ | l'
        · rw [List.getLast?_eq_none_iff] at hAl
          rw [hAl] at q2
          simp at q2
          linarith
        · rw [List.getLast?_cons, hAl] at hlast
          simp only [Option.getD_some, Option.mem_def, Option.some.injEq] at hlast
          subst hlast
          exact q7 _ hAl
      · rw [q10]
        by_cases hq : s2 = current + k.length e + (es.map k.length).sum
        · rw [if_pos hq, if_pos hq]
        · rw [if_neg hq, if_neg hq]
          rcases es with _ | ⟨a, l⟩
          · rcases hlast with h | h | h
            · exact absurd h hq
            · exact absurd rfl h
            · linarith
          · rw [List.getLast?_cons_cons]
    push Not at hA
    have hsp1 := hg.head.1 h1 hA
    have hA1 : ((split e p1).1.toList.map k.length).sum = s1 - current := by
      rcases ha : (split e p1).1 with _ | a
      · have := hsp1.before_none.1 ha
        simp [this]
      · simp [(hsp1.before a ha).1]
    have hA2 : (split e p1).1.toList.IsChain (Follows k tol) := by
      rcases (split e p1).1 with _ | a <;> simp
    have hA3 : (split e p1).1.toList.head?.map k.start = if s1 = current then none else (e :: es).head?.map k.start := by
      rcases ha : (split e p1).1 with _ | a
      · have := hsp1.before_none.1 ha
        rw [if_pos (by linarith)]; rfl
      · have hs : s1 ≠ current := fun h => by
          have := hsp1.before_none.2 (by linarith); rw [ha] at this; cases this
        rw [if_neg hs]
        simp [(hsp1.before a ha).2.1]
    have hA4 : ∀ last ∈ (split e p1).1.toList.getLast?, k.dist (k.fin last) p1 ≤ tol := by
      rcases ha : (split e p1).1 with _ | a
      · simp
      · simpa using (hsp1.before a ha).2.2
    by_cases hB : s2 ≤ current + k.length e
    · -- both points on the edge
      have hsp2 := hg.head.2.1 (by linarith) hB
      obtain ⟨t1, t2, t3⟩ := hg.head.2.2 h1 hB
      have hstep : splitPrimitive k split trim s1 s2 p1 p2 current e =
          .ok ([trim e p1 p2], (split e p1).1.toList ++ (split e p2).2.toList) := by
        rw [splitPrimitive, if_neg (by rintro ⟨_, h⟩; linarith), if_neg (by rintro (h | h) <;> linarith),
          if_pos ⟨⟨h1, hA⟩, by linarith, hB⟩]
      have hpath : PathFrom k tol p1 [trim e p1 p2] p2 := ⟨by simp, by simpa using t2, by simpa using t3⟩
      rcases hB.eq_or_lt with heq | hlt
      · have hb : (split e p2).2 = none := hsp2.after_none.2 (by linarith)
        obtain ⟨ins, outs, hok, hi1, ho1, hi2, hi3, hi4, ho2, ho3, ho4⟩ :=
          splitLoop_between h12 es (current + k.length e) hg.tail hch' hpos' (by linarith) heq.ge h3
        have hins : ins = [] := by
          rw [if_pos heq.symm] at hi3
          simpa using hi3
        subst hins
        refine ⟨[trim e p1 p2], (split e p1).1.toList, outs, ?_, by simpa using t1, hA1, ho1, hpath, hA2, hA3, hA4, ho2, ho3, ?_⟩
        · rw [splitLoop, hstep]
          dsimp only
          rw [hok, hb]
          simp
        · rw [ho4]
          by_cases hq : s2 = current + k.length e + (es.map k.length).sum
          · rw [if_pos hq, if_pos hq]
          · rw [if_neg hq, if_neg hq]
            rcases es with _ | ⟨a, l⟩
            · simp at hq; exact absurd heq hq
            · rw [List.getLast?_cons_cons]
      · have hb : (split e p2).2 ≠ none := fun h => by have := hsp2.after_none.1 h; linarith
        obtain ⟨b, hb⟩ := Option.ne_none_iff_exists'.1 hb
        obtain ⟨b1, b2, b3⟩ := hsp2.after b hb
        have hok := splitLoop_after (k := k) (split := split) (trim := trim) (p1 := p1) (p2 := p2) (s1 := s1) es (current + k.length e) hlt
        refine ⟨[trim e p1 p2], (split e p1).1.toList, b :: es, ?_, by simpa using t1, hA1, ?_, hpath, hA2, hA3, hA4, ?_, ?_, ?_⟩
        · rw [splitLoop, hstep]
          dsimp only
          rw [hok, hb]
          simp
        · rw [List.map_cons, List.sum_cons, b1]; ring
        · exact chain_cons_of_head hfol hch' b2 (Or.inr rfl)
        · simpa using b3
        · rw [if_neg (by intro h; linarith)]
          rcases es with _ | ⟨a, l⟩
          · simp [b2]
          · rw [List.getLast?_cons_cons, List.getLast?_cons_cons]
    · -- the second point is further
      push Not at hB
      have hstep : splitPrimitive k split trim s1 s2 p1 p2 current e = .ok ((split e p1).2.toList, (split e p1).1.toList) := by
        rw [splitPrimitive, if_neg (by rintro ⟨h, _⟩; linarith), if_neg (by rintro (h | h) <;> linarith),
          if_neg (by rintro ⟨_, _, h⟩; linarith), if_pos ⟨h1, hA⟩]
      have hne : es ≠ [] := by
        rintro rfl
        simp at h3
        linarith
      have hlast' : es.getLast?.map k.fin = (e :: es).getLast?.map k.fin := by
        rcases es with _ | ⟨a, l⟩
        · exact absurd rfl hne
        · rw [List.getLast?_cons_cons]
      rcases hA.eq_or_lt with heq | hlt
      · have hb : (split e p1).2 = none := hsp1.after_none.2 (by linarith)
        obtain ⟨ins, A, B, hok, q1, q2, q3, q4, q5, q6, q7, q8, q9, q10⟩ := ih (current + k.length e) hg.tail hch' hpos' heq.ge h3
        have hAn : A = [] := by
          rw [if_pos heq] at q6
          simpa using q6
        subst hAn
        refine ⟨ins, (split e p1).1.toList, B, ?_, q1, hA1, q3, q4, hA2, hA3, hA4, q8, q9, ?_⟩
        · rw [splitLoop, hstep]
          dsimp only
          rw [hok, hb]
          simp
        · rw [q10, hlast']
      · have hb : (split e p1).2 ≠ none := fun h => by have := hsp1.after_none.1 h; linarith
        obtain ⟨b, hb⟩ := Option.ne_none_iff_exists'.1 hb
        obtain ⟨b1, b2, b3⟩ := hsp1.after b hb
        obtain ⟨ins, outs, hok, hi1, ho1, hi2, hi3, hi4, ho2, ho3, ho4⟩ :=
          splitLoop_between h12 es (current + k.length e) hg.tail hch' hpos' hlt hB.le h3
        refine ⟨b :: ins, (split e p1).1.toList, outs, ?_, ?_, hA1, ho1, ⟨?_, ?_, ?_⟩, hA2, hA3, hA4, ho2, ho3, ?_⟩
        · rw [splitLoop, hstep]
          dsimp only
          rw [hok, hb]
          simp
        · rw [List.map_cons, List.sum_cons, hi1, b1]; ring
        · rw [if_neg (ne_of_lt hB)] at hi3
          exact chain_cons_of_head hfol hi2 b2 (Or.inr hi3)
        · simpa using b3
        · intro last hlast
          rcases hins : ins.getLast? with _ | l'
          · rw [List.getLast?_eq_none_iff] at hins
            rw [hins] at hi1
            simp at hi1
            linarith
          · rw [List.getLast?_cons, hins] at hlast
            simp only [Option.getD_some, Option.mem_def, Option.some.injEq] at hlast
            subst hlast
            exact hi4 _ hins
        · rw [ho4, hlast']

/-! ## The property -/

variable (k)

/-- **C164.** `split_with_two_points` on a wire without degenerate edges, for two of its points, the first of them before the second:
no exception; the first list is a chain from the first point to the second one, as long as the part of the wire between them; the second
list is the rest of the wire, made of a chain from the start of the wire to the first point followed by a chain from the second point to
the end of the wire, with the lengths of these parts. -/
theorem C164_split_with_two_points (tol : K) (split : E → P → Option E × Option E) (trim : E → P → P → E)
    (abscissa : P → Except WireError K) (prims : List E) (p1 p2 : P) (s1 s2 : K)
    (ha1 : abscissa p1 = .ok s1) (ha2 : abscissa p2 = .ok s2) (h0 : 0 ≤ s1) (h12 : s1 < s2) (hL : s2 ≤ wireLength k prims)
    (hcuts : GoodCuts k tol split trim s1 s2 p1 p2 0 prims) (hch : prims.IsChain (Follows k tol)) (hpos : ∀ e ∈ prims, 0 < k.length e) :
    ∃ inside before after, splitWithTwoPoints k split trim abscissa prims p1 p2 = .ok (inside, before ++ after) ∧
      wireLength k inside = s2 - s1 ∧ wireLength k before = s1 ∧ wireLength k after = wireLength k prims - s2 ∧
      PathFrom k tol p1 inside p2 ∧
      (∀ first ∈ prims.head?, before.IsChain (Follows k tol) ∧ (∀ last ∈ before.getLast?, k.dist (k.fin last) p1 ≤ tol) ∧
        ∀ b ∈ before.head?, k.start b = k.start first) ∧
      (∀ last ∈ prims.getLast?, after.IsChain (Follows k tol) ∧ (∀ first ∈ after.head?, k.dist p2 (k.start first) ≤ tol) ∧
        ∀ b ∈ after.getLast?, k.fin b = k.fin last) := by
  simp only [C52_length] at hL ⊢
  obtain ⟨ins, A, B, hok, q1, q2, q3, q4, q5, q6, q7, q8, q9, q10⟩ := splitLoop_before h12 prims 0 hcuts hch hpos h0 (by simpa using hL)
  refine ⟨ins, A, B, ?_, q1, by simpa using q2, by simpa using q3, q4, ?_, ?_⟩
  · unfold splitWithTwoPoints
    rw [ha1, ha2]
    dsimp only
    rw [if_neg (not_lt.2 h12.le), hok]
  · intro first hf
    refine ⟨q5, q7, ?_⟩
    intro b hb
    rw [Option.mem_def] at hb hf
    rw [hb, hf] at q6
    split_ifs at q6
    · simp at q6
    · simpa using q6
  · intro last hf
    refine ⟨q8, q9, ?_⟩
    intro b hb
    rw [Option.mem_def] at hb hf
    rw [hb, hf] at q10
    split_ifs at q10
    · simp at q10
    · simpa using q10

/-- **C164.** The order in which the two points are given does not matter. -/
theorem C164_symmetric (split : E → P → Option E × Option E) (trim : E → P → P → E)
    (abscissa : P → Except WireError K) (prims : List E) (p1 p2 : P) (s1 s2 : K)
    (ha1 : abscissa p1 = .ok s1) (ha2 : abscissa p2 = .ok s2) (h12 : s1 ≠ s2) :
    splitWithTwoPoints k split trim abscissa prims p1 p2 = splitWithTwoPoints k split trim abscissa prims p2 p1 := by
  unfold splitWithTwoPoints
  rw [ha1, ha2]
  dsimp only
  rcases lt_or_gt_of_ne h12 with h | h
  · rw [if_neg (not_lt.2 h.le), if_pos h]
  · rw [if_pos h, if_neg (not_lt.2 h.le)]

/-- **C164.** On any wire and for any points on it, whatever the edges give when they are split, `NotImplementedError` is not raised. -/
theorem C164_no_exception (split : E → P → Option E × Option E) (trim : E → P → P → E) (abscissa : P → Except WireError K)
    (prims : List E) (p1 p2 : P) (s1 s2 : K) (ha1 : abscissa p1 = .ok s1) (ha2 : abscissa p2 = .ok s2) :
    ∃ parts, splitWithTwoPoints k split trim abscissa prims p1 p2 = .ok parts := by
  have key : ∀ (a b : K) (p q : P), ∀ (l : List E) (c : K), ∃ parts, splitLoop k split trim a b p q c l = .ok parts := by
    intro a b p q l
    induction l with
    | nil => intro c; exact ⟨_, rfl⟩
    | cons e es ih =>
      intro c
      obtain ⟨rest, hr⟩ := ih (c + k.length e)
      rw [splitLoop, hr]
      have : ∃ parts, splitPrimitive k split trim a b p q c e = .ok parts := by
        unfold splitPrimitive
        split_ifs with h1 h2 h3 h4 h5
        · exact ⟨_, rfl⟩
        · exact ⟨_, rfl⟩
        · exact ⟨_, rfl⟩
        · exact ⟨_, rfl⟩
        · exact ⟨_, rfl⟩
        · exfalso
          rw [not_or, not_lt, not_lt] at h2
          have h4' : a < c := by
            by_contra hc
            exact h4 ⟨not_lt.1 hc, h2.2⟩
          have h5' : c + k.length e < b := by
            by_contra hc
            exact h5 ⟨h2.1, not_lt.1 hc⟩
          exact h1 ⟨h4', h5'⟩
      obtain ⟨parts, hp⟩ := this
      rw [hp]
      exact ⟨_, rfl⟩
  unfold splitWithTwoPoints
  rw [ha1, ha2]
  dsimp only
  split_ifs
  · exact key _ _ _ _ _ _
  · exact key _ _ _ _ _ _

/-- **C164.** `extract_with_points` inside and outside: together, the length of the wire. -/
theorem C164_extract (tol : K) (split : E → P → Option E × Option E) (trim : E → P → P → E)
    (abscissa : P → Except WireError K) (prims : List E) (p1 p2 : P) (s1 s2 : K)
    (ha1 : abscissa p1 = .ok s1) (ha2 : abscissa p2 = .ok s2) (h0 : 0 ≤ s1) (h12 : s1 < s2) (hL : s2 ≤ wireLength k prims)
    (hcuts : GoodCuts k tol split trim s1 s2 p1 p2 0 prims) (hch : prims.IsChain (Follows k tol)) (hpos : ∀ e ∈ prims, 0 < k.length e) :
    ∃ inside outside, extractWithPoints k split trim abscissa prims p1 p2 true = .ok inside ∧
      extractWithPoints k split trim abscissa prims p1 p2 false = .ok outside ∧
      wireLength k inside = s2 - s1 ∧ wireLength k inside + wireLength k outside = wireLength k prims ∧ PathFrom k tol p1 inside p2 := by
  obtain ⟨ins, A, B, hok, q1, q2, q3, q4, -, -⟩ :=
    C164_split_with_two_points k tol split trim abscissa prims p1 p2 s1 s2 ha1 ha2 h0 h12 hL hcuts hch hpos
  refine ⟨ins, A ++ B, ?_, ?_, q1, ?_, q4⟩
  · rw [extractWithPoints, hok]; rfl
  · rw [extractWithPoints, hok]; rfl
  · have : wireLength k (A ++ B) = wireLength k A + wireLength k B := by simp [C52_length]
    rw [this, q1, q2, q3]; ring

/-! ## Example -/

/-- `LineSegment.split` (edges.py:686-699), exactly, and `trim`, for segments of a line. -/
def C164_split (e : ℚ × ℚ) (p : ℚ) : Option (ℚ × ℚ) × Option (ℚ × ℚ) :=
  if p = e.1 then (none, some e) else if p = e.2 then (some e, none) else (some (e.1, p), some (p, e.2))

/-- Splitting in one edge, and over several edges. -/
example : splitWithTwoPoints C51_segments C164_split (fun _ p q => (p, q)) (fun p => .ok p) [(0, 1), (1, 3), (3, 6)] 2 (1 / 2) =
      .ok ([(1 / 2, 1), (1, 2)], [(0, 1 / 2), (2, 3), (3, 6)]) ∧
    splitWithTwoPoints C51_segments C164_split (fun _ p q => (p, q)) (fun p => .ok p) [(0, 1), (1, 3), (3, 6)] 4 5 =
      .ok ([(4, 5)], [(0, 1), (1, 3), (3, 4), (5, 6)]) ∧
    splitWithTwoPoints C51_segments C164_split (fun _ p q => (p, q)) (fun p => .ok p) [(0, 1), (1, 3), (3, 6)] 1 3 =
      .ok ([(1, 3)], [(0, 1), (3, 6)]) := by
  decide +kernel

/-- The hypotheses of the theorems are met. -/
example : GoodCuts C51_segments 0 C164_split (fun _ p q => (p, q)) (1 / 2) 2 (1 / 2) 2 0 [(0, 1), (1, 3), (3, 6)] ∧
    [((0 : ℚ), (1 : ℚ)), (1, 3), (3, 6)].IsChain (Follows C51_segments 0) ∧
    (∀ e ∈ [((0 : ℚ), (1 : ℚ)), (1, 3), (3, 6)], 0 < C51_segments.length e) ∧ 2 ≤ wireLength C51_segments [(0, 1), (1, 3), (3, 6)] := by
  refine ⟨⟨?_, ?_, ?_⟩, ?_, by decide +kernel, by decide +kernel⟩
  rotate_right
  · simp only [List.isChain_cons_cons, List.isChain_singleton, and_true]
    unfold Follows
    decide +kernel
  all_goals
    intro before e after he
    rcases before with _ | ⟨a, _ | ⟨b, _ | ⟨c, _ | ⟨d, l⟩⟩⟩⟩
    all_goals simp at he
    all_goals obtain ⟨rfl, he⟩ := he
    all_goals (try obtain ⟨rfl, he⟩ := he)
    all_goals (try obtain ⟨rfl, he⟩ := he)
    all_goals intro h1 h2
    all_goals (try norm_num [C51_segments] at h1)
    all_goals (try norm_num [C51_segments] at h2)
    all_goals first
      | (constructor <;> decide +kernel)
      | decide +kernel

end Volmdlr.Wire
