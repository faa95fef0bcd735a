import Verif.Wire.ContoursModel
import Mathlib.Tactic.FinCases
import Verif.Wire.FromEdgesProps

/-!
# C166: contours built from loose edges
-/

namespace Volmdlr.Wire

variable {E P K : Type} [Field K] [LinearOrder K] [IsStrictOrderedRing K] (k : EdgeKit E P K)

/-! ## One step -/

lemma contourStep_some (sameEdge : E → E → Bool) {tol : K} (htol : 0 ≤ tol) (first last : E) : ∀ (edges rest : List E) (e' : E) (front : Bool),
    contourStep k sameEdge tol first last edges = some (rest, e', front) →
    ∃ a e b, edges = a ++ e :: b ∧ rest = a ++ b ∧ (e' = e ∨ e' = k.reverse e) ∧
      (front = false → Follows k tol last e') ∧
      (front = true → Follows k tol e' first ∧ sameEdge e first = false ∧
        (k.dist (k.start e) (k.fin last) ≤ tol ∨ k.dist (k.fin e) (k.fin last) ≤ tol → sameEdge e last = true)) := by
  intro edges
  induction edges with
  | nil => intro rest e' front h; simp [contourStep] at h
  | cons e es ih =>
    intro rest e' front h
    unfold contourStep at h
    by_cases h1 : (isExtremity k e (k.fin last) tol && !sameEdge e last) = true
    · rw [if_pos h1] at h
      simp only [Option.some.injEq, Prod.mk.injEq] at h
      obtain ⟨rfl, h, rfl⟩ := h
      rw [Bool.and_eq_true, isExtremity_iff k htol] at h1
      refine ⟨[], e, es, rfl, rfl, ?_, fun _ => ?_, fun hf => by cases hf⟩
      · rw [← h]; split_ifs
        · exact Or.inl rfl
        · exact Or.inr rfl
      · by_cases h2 : isClose k (k.fin last) (k.start e) tol = true
        · rw [if_pos h2] at h
          subst h
          exact (isClose_iff k htol _ _).1 h2
        · rw [if_neg h2] at h
          subst h
          rw [isClose_iff k htol, k.dist_comm] at h2
          unfold Follows
          rw [k.reverse_start, k.dist_comm]
          exact h1.1.resolve_left h2
    · rw [if_neg h1] at h
      by_cases h3 : (isExtremity k e (k.start first) tol && !sameEdge e first) = true
      · rw [if_pos h3] at h
        simp only [Option.some.injEq, Prod.mk.injEq] at h
        obtain ⟨rfl, h, rfl⟩ := h
        rw [Bool.and_eq_true, isExtremity_iff k htol, Bool.not_eq_true'] at h3
        refine ⟨[], e, es, rfl, rfl, ?_, (fun hf => by cases hf), fun _ => ⟨?_, h3.2, ?_⟩⟩
        · rw [← h]; split_ifs
          · exact Or.inl rfl
          · exact Or.inr rfl
        · by_cases h2 : isClose k (k.start first) (k.fin e) tol = true
          · rw [if_pos h2] at h
            subst h
            unfold Follows
            rw [k.dist_comm]
            exact (isClose_iff k htol _ _).1 h2
          · rw [if_neg h2] at h
            subst h
            rw [isClose_iff k htol, k.dist_comm] at h2
            unfold Follows
            rw [k.reverse_fin]
            exact h3.1.resolve_right h2
        · intro hx
          by_contra hs
          rw [Bool.not_eq_true] at hs
          exact h1 (by rw [Bool.and_eq_true, isExtremity_iff k htol, hs]; exact ⟨hx, rfl⟩)
      · rw [if_neg h3, Option.map_eq_some_iff] at h
        obtain ⟨⟨rest0, e0, f0⟩, hr, heq⟩ := h
        simp only [Prod.mk.injEq] at heq
        obtain ⟨rfl, rfl, rfl⟩ := heq
        obtain ⟨a, x, b, rfl, rfl, q1, q2, q3⟩ := ih _ _ _ hr
        exact ⟨e :: a, x, b, rfl, rfl, q1, q2, q3⟩

omit [IsStrictOrderedRing K] in
lemma upTo_insert {a b l : List E} {e e' : E} (h : UpToOrientation k (a ++ b) l) (he : e' = e ∨ e' = k.reverse e) :
    ∃ l2, UpToOrientation k (a ++ e :: b) l2 ∧ l2.Perm (e' :: l) := by
  induction a generalizing l with
  | nil => exact ⟨e' :: l, List.Forall₂.cons he h, List.Perm.refl _⟩
  | cons x a ih =>
    rcases h with _ | ⟨hx, h⟩
    rename_i y l
    obtain ⟨l2, h1, h2⟩ := ih h
    exact ⟨y :: l2, List.Forall₂.cons hx h1, (h2.cons y).trans (List.Perm.swap _ _ _)⟩

/-! ## The loop: nothing lost, chains -/

lemma contourLoop_parts [DecidableEq P] (sameEdge : E → E → Bool) {tol : K} (htol : 0 ≤ tol) : ∀ (n : ℕ) (edges : List E) (points : List P)
    (prims : List E) (found all : List (List E)), prims.IsChain (Follows k tol) →
    contourLoop k sameEdge tol n edges points prims found = .ok all →
    ∃ new l, all = found ++ new ∧ UpToOrientation k edges l ∧ new.flatten.Perm (prims ++ l) ∧ new ≠ [] ∧
      ∀ c ∈ new, c.IsChain (Follows k tol) := by
  intro n
  induction n with
  | zero => intro edges points prims found all _ h; cases h
  | succ n ih =>
    intro edges points prims found all hch h
    rw [contourLoop.eq_def] at h
    dsimp only at h
    rcases hf : prims.head? with _ | first
    · rw [hf] at h
      rcases edges with _ | ⟨e, es⟩
      · simp only [List.isEmpty_nil, if_true] at h
        obtain rfl := Except.ok.inj h
        refine ⟨[prims], [], rfl, List.Forall₂.nil, by simp, by simp, ?_⟩
        intro c hc
        rw [List.mem_singleton] at hc
        rw [hc]; exact hch
      · cases h
    rcases hl : prims.getLast? with _ | last
    · rw [List.getLast?_eq_none_iff] at hl
      rw [hl] at hf; simp at hf
    rw [hf, hl] at h
    dsimp only at h
    rcases hs : contourStep k sameEdge tol first last edges with _ | ⟨rest, e', front⟩
    · rw [hs] at h
      dsimp only at h
      rcases edges with _ | ⟨e, es⟩
      · dsimp only at h
        obtain rfl := Except.ok.inj h
        refine ⟨[prims], [], rfl, List.Forall₂.nil, by simp, by simp, ?_⟩
        intro c hc
        rw [List.mem_singleton] at hc
        rw [hc]; exact hch
      · dsimp only at h
        obtain ⟨new, l, rfl, h1, h2, h3, h4⟩ := ih _ _ _ _ _ (List.isChain_singleton _) h
        refine ⟨prims :: new, e :: l, by simp, List.Forall₂.cons (Or.inl rfl) h1, ?_, by simp, ?_⟩
        · rw [List.flatten_cons]
          exact List.Perm.append_left prims (by simpa using h2)
        · intro c hc
          rcases List.mem_cons.1 hc with rfl | hc
          · exact hch
          · exact h4 c hc
    · rw [hs] at h
      dsimp only at h
      obtain ⟨a, e, b, rfl, rfl, hflip, hend, hfront⟩ := contourStep_some k sameEdge htol first last _ _ _ _ hs
      set prims' := (if front then e' :: prims else prims ++ [e']) with hprims'
      have hch' : prims'.IsChain (Follows k tol) := by
        rw [hprims']
        cases front
        · exact follows_append k hl hch (hend rfl)
        · exact follows_cons k hf hch (hfront rfl).1
      have hperm : prims'.Perm (e' :: prims) := by
        rw [hprims']
        cases front
        · exact (List.perm_append_comm (l₁ := prims) (l₂ := [e']))
        · exact List.Perm.refl _
      -- the result of going on from `w`, when `c` has been put aside
      have key : ∀ (m : ℕ) (pts : List P) (w : List E) (fnd : List (List E)) (cs : List (List E)),
          m = n → fnd = found ++ cs → (cs.flatten ++ w).Perm prims' → (∀ c ∈ cs, c.IsChain (Follows k tol)) → w.IsChain (Follows k tol) →
          contourLoop k sameEdge tol m (a ++ b) pts w fnd = .ok all →
          ∃ new l, all = found ++ new ∧ UpToOrientation k (a ++ e :: b) l ∧ new.flatten.Perm (prims ++ l) ∧ new ≠ [] ∧
            ∀ c ∈ new, c.IsChain (Follows k tol) := by
        rintro m pts w fnd cs rfl rfl hp hcs hw hgo
        obtain ⟨new, l, rfl, h1, h2, h3, h4⟩ := ih _ _ _ _ _ hw hgo
        obtain ⟨l2, g1, g2⟩ := upTo_insert k h1 hflip
        refine ⟨cs ++ new, l2, by simp, g1, ?_, by simp [h3], ?_⟩
        · rw [List.flatten_append]
          refine (List.Perm.append_left _ h2).trans ?_
          rw [← List.append_assoc]
          refine (List.Perm.append_right l (hp.trans hperm)).trans ?_
          rw [List.cons_append]
          exact (List.perm_middle.symm).trans (List.Perm.append_left prims g2.symm)
        · intro c hc
          rcases List.mem_append.1 hc with hc | hc
          · exact hcs c hc
          · exact h4 c hc
      by_cases hin : inList k (if front then k.start e' else k.fin e') points = true
      · rw [if_pos hin] at h
        rcases hp0 : points.head? with _ | p0
        · rw [hp0] at h; cases h
        rcases hi : pointIndex k (if front then k.start e' else k.fin e') points with _ | i
        · rw [hp0, hi] at h; cases h
        rw [hp0, hi] at h
        dsimp only at h
        by_cases hc : isClose k (if front then k.start e' else k.fin e') p0 (1 / 10 ^ 6) = true
        · rw [if_pos hc] at h
          rcases hab : a ++ b with _ | ⟨x, es⟩
          · rw [hab] at h
            dsimp only at h
            obtain rfl := Except.ok.inj h
            obtain ⟨rfl, rfl⟩ := List.append_eq_nil_iff.1 hab
            refine ⟨[prims'], [e'], rfl, List.Forall₂.cons hflip List.Forall₂.nil, ?_, by simp, ?_⟩
            · simp only [List.flatten_cons, List.flatten_nil, List.append_nil]
              exact hperm.trans (List.perm_append_comm (l₁ := [e']) (l₂ := prims))
            · intro c hc'
              rw [List.mem_singleton] at hc'
              rw [hc']; exact hch'
          · rw [hab] at h
            dsimp only at h
            obtain ⟨new, l, rfl, h1, h2, h3, h4⟩ := ih _ _ _ _ _ (List.isChain_singleton _) h
            obtain ⟨l2, g1, g2⟩ := upTo_insert k (a := a) (b := b) (l := x :: l)
              (by rw [hab]; exact List.Forall₂.cons (Or.inl rfl) h1) hflip
            refine ⟨prims' :: new, l2, by simp, g1, ?_, by simp, ?_⟩
            · rw [List.flatten_cons]
              refine (List.Perm.append_left _ h2).trans ?_
              refine (List.Perm.append_right _ hperm).trans ?_
              rw [List.cons_append, List.singleton_append]
              exact (List.perm_middle.symm).trans (List.Perm.append_left prims g2.symm)
            · intro c hc'
              rcases List.mem_cons.1 hc' with rfl | hc'
              · exact hch'
              · exact h4 c hc'
        · rw [if_neg hc] at h
          split_ifs at h with hhead
          all_goals first
            | exact key _ _ _ _ [prims'.take (i + 1)] rfl rfl (by simp) (by
                intro c hc'
                rw [List.mem_singleton] at hc'
                rw [hc']; exact hch'.take _) (hch'.drop _) h
            | exact key _ _ _ _ [prims'.drop i] rfl rfl (by
                simp only [List.flatten_cons, List.flatten_nil, List.append_nil]
                exact List.perm_append_comm.trans (by rw [List.take_append_drop])) (by
                intro c hc'
                rw [List.mem_singleton] at hc'
                rw [hc']; exact hch'.drop _) (hch'.take _) h
      · rw [if_neg hin] at h
        exact key _ _ _ _ [] rfl (by simp) (by simp) (by simp) hch' h

/-! ## The loop: simple contours -/

/-- The two points are at the same place, up to the default tolerance. -/
def Close (p q : P) : Prop := k.dist p q ≤ 1 / 10 ^ 6

/-- A simple contour: a chain of edges whose starts are all at different places, and whose end is either at the first start (a closed contour)
or at none of them (an open one). -/
structure SimpleContour (w : List E) : Prop where
  nonempty : w ≠ []
  chain : w.IsChain (Follows k (1 / 10 ^ 6))
  distinct : w.Pairwise fun e e' => ¬ Close k (k.start e) (k.start e')
  closing : ∀ first ∈ w.head?, ∀ last ∈ w.getLast?,
    Close k (k.fin last) (k.start first) ∨ ∀ e ∈ w, ¬ Close k (k.fin last) (k.start e)

/-- Closeness is transitive on the extremities of the edges of the list. -/
def CloseTransitive (edges : List E) : Prop :=
  ∀ p q r, IsExtremityOf k edges p → IsExtremityOf k edges q → IsExtremityOf k edges r → Close k p q → Close k q r → Close k p r

variable {k}

omit [IsStrictOrderedRing K] in
lemma Close.symm {p q : P} (h : Close k p q) : Close k q p := by
  unfold Close at h ⊢
  rw [k.dist_comm]; exact h

/-- The points recorded along the contour being built. -/
structure Recorded (edges : List E) (points : List P) (prims : List E) : Prop where
  len : points.length = prims.length + 1
  starts : ∀ (i : ℕ) p e, points[i]? = some p → prims[i]? = some e → Close k p (k.start e)
  fins : ∀ (i : ℕ) p e, points[i + 1]? = some p → prims[i]? = some e → Close k p (k.fin e)
  distinct : points.Pairwise fun p q => ¬ Close k p q
  points_mem : ∀ p ∈ points, IsExtremityOf k edges p
  prims_mem : ∀ e ∈ prims, IsExtremityOf k edges (k.start e) ∧ IsExtremityOf k edges (k.fin e)

omit [IsStrictOrderedRing K] in
lemma distinct_idx {points : List P} (h : points.Pairwise fun p q => ¬ Close k p q) {i j : ℕ} {p q : P} (hi : points[i]? = some p)
    (hj : points[j]? = some q) (hc : Close k p q) : i = j := by
  rw [List.pairwise_iff_getElem] at h
  obtain ⟨hi1, hi2⟩ := List.getElem?_eq_some_iff.1 hi
  obtain ⟨hj1, hj2⟩ := List.getElem?_eq_some_iff.1 hj
  rcases lt_trichotomy i j with hlt | heq | hlt
  · exact absurd (by rw [hi2, hj2]; exact hc) (h i j hi1 hj1 hlt)
  · exact heq
  · exact absurd (by rw [hi2, hj2]; exact hc.symm) (h j i hj1 hi1 hlt)

omit [IsStrictOrderedRing K] in
/-- The starts of the edges are at different places when the points recorded for them are. -/
lemma starts_distinct {edges : List E} (ht : CloseTransitive k edges) : ∀ (ps : List P) (w : List E), ps.length = w.length →
    (∀ (i : ℕ) p e, ps[i]? = some p → w[i]? = some e → Close k p (k.start e)) → ps.Pairwise (fun p q => ¬ Close k p q) →
    (∀ p ∈ ps, IsExtremityOf k edges p) → (∀ e ∈ w, IsExtremityOf k edges (k.start e)) →
    w.Pairwise fun e e' => ¬ Close k (k.start e) (k.start e') := by
  intro ps w hlen hst hd hp hw
  rw [List.pairwise_iff_getElem]
  intro i j hi hj hij hc
  have hpi : ps[i]? = some ps[i] := List.getElem?_eq_getElem (by omega)
  have hpj : ps[j]? = some ps[j] := List.getElem?_eq_getElem (by omega)
  have h1 := hst i _ _ hpi (List.getElem?_eq_getElem hi)
  have h2 := hst j _ _ hpj (List.getElem?_eq_getElem hj)
  have e1 := hp _ (List.getElem_mem (l := ps) (n := i) (by omega))
  have e2 := hp _ (List.getElem_mem (l := ps) (n := j) (by omega))
  have e3 := hw _ (List.getElem_mem hi)
  have e4 := hw _ (List.getElem_mem hj)
  have h3 := ht _ _ _ e1 e3 e4 h1 hc
  have h4 := ht _ _ _ e1 e4 e2 h3 h2.symm
  have := distinct_idx hd hpi hpj h4
  omega

omit [IsStrictOrderedRing K] in
lemma recorded_first {edges : List E} {points : List P} {prims : List E} (h : Recorded (k := k) edges points prims) {first : E} {p0 : P}
    (hf : prims.head? = some first) (hp : points.head? = some p0) : Close k p0 (k.start first) := by
  rw [List.head?_eq_getElem?] at hf hp
  exact h.starts 0 _ _ hp hf

omit [IsStrictOrderedRing K] in
lemma recorded_last {edges : List E} {points : List P} {prims : List E} (h : Recorded (k := k) edges points prims) {last : E}
    (hl : prims.getLast? = some last) : ∃ p, points[prims.length]? = some p ∧ Close k p (k.fin last) := by
  have hpos : 0 < prims.length := by
    rcases prims with _ | _
    · simp at hl
    · simp
  have hlen := h.len
  refine ⟨points[prims.length], List.getElem?_eq_getElem (by omega), ?_⟩
  rw [List.getLast?_eq_getElem?] at hl
  refine h.fins (prims.length - 1) _ _ ?_ hl
  rw [show prims.length - 1 + 1 = prims.length by omega]
  exact List.getElem?_eq_getElem (by omega)

omit [IsStrictOrderedRing K] in
/-- An open contour: what is left when no edge prolongs it. -/
lemma simple_open {edges : List E} (ht : CloseTransitive k edges) {points : List P} {prims : List E} (hne : prims ≠ [])
    (h : Recorded (k := k) edges points prims) (hch : prims.IsChain (Follows k (1 / 10 ^ 6))) : SimpleContour k prims := by
  have hlen := h.len
  refine ⟨hne, hch, ?_, ?_⟩
  · refine starts_distinct ht points.dropLast prims (by simp [hlen]) ?_ (h.distinct.sublist (List.dropLast_sublist _)) ?_ ?_
    · intro i p e hp he
      rw [List.getElem?_dropLast] at hp
      split_ifs at hp with hi
      exact h.starts i p e hp he
    · intro p hp
      exact h.points_mem p (List.mem_of_mem_dropLast hp)
    · intro e he
      exact (h.prims_mem e he).1
  · intro first hf last hl
    right
    intro e he hc
    obtain ⟨p, hp, hpc⟩ := recorded_last h hl
    obtain ⟨i, hi, hie⟩ := List.getElem_of_mem he
    have hq : points[i]? = some points[i] := List.getElem?_eq_getElem (by omega)
    have hst := h.starts i _ _ hq (by rw [List.getElem?_eq_getElem hi, hie])
    have m1 := h.points_mem p (List.mem_of_getElem? hp)
    have m2 := (h.prims_mem last (List.mem_of_getLast? hl)).2
    have m3 := (h.prims_mem e he).1
    have m4 := h.points_mem _ (List.mem_of_getElem? hq)
    have := distinct_idx h.distinct hp hq (ht _ _ _ m1 m3 m4 (ht _ _ _ m1 m2 m3 hpc hc) hst.symm)
    omega

omit [IsStrictOrderedRing K] in
lemma recorded_start {edges : List E} (hself : ∀ p, k.dist p p = 0) (hnd : ∀ e ∈ edges, ¬ Close k (k.start e) (k.fin e)) (h10 : (0 : K) ≤ 1 / 10 ^ 6)
    {e : E} (he : e ∈ edges) : Recorded (k := k) edges [k.start e, k.fin e] [e] := by
  have hr : ∀ p, Close k p p := fun p => by unfold Close; rw [hself]; exact h10
  refine ⟨rfl, ?_, ?_, ?_, ?_, ?_⟩
  · intro i p a hp ha
    rcases i with _ | i
    · simp at hp ha; rw [← hp, ← ha]; exact hr _
    · simp at ha
  · intro i p a hp ha
    rcases i with _ | i
    · simp at hp ha; rw [← hp, ← ha]; exact hr _
    · simp at ha
  · simpa using hnd e he
  · intro p hp
    simp at hp
    exact ⟨e, he, hp⟩
  · intro a ha
    rw [List.mem_singleton] at ha
    subst ha
    exact ⟨⟨a, he, Or.inl rfl⟩, ⟨a, he, Or.inr rfl⟩⟩

omit [IsStrictOrderedRing K] in
lemma recorded_drop {edges : List E} {points : List P} {prims : List E} (h : Recorded (k := k) edges points prims) (i : ℕ) (hi : i ≤ prims.length) :
    Recorded (k := k) edges (points.drop i) (prims.drop i) := by
  have hlen := h.len
  refine ⟨by simp only [List.length_drop]; omega, ?_, ?_, h.distinct.sublist (List.drop_sublist _ _),
    fun p hp => h.points_mem p (List.mem_of_mem_drop hp), fun e he => h.prims_mem e (List.mem_of_mem_drop he)⟩
  · intro j p e hp he
    rw [List.getElem?_drop] at hp he
    exact h.starts _ _ _ hp he
  · intro j p e hp he
    rw [List.getElem?_drop] at hp he
    exact h.fins _ _ _ (by rw [← hp]; congr 1) he

omit [IsStrictOrderedRing K] in
lemma recorded_take {edges : List E} {points : List P} {prims : List E} (h : Recorded (k := k) edges points prims) (i : ℕ) (hi : i ≤ prims.length) :
    Recorded (k := k) edges (points.take (i + 1)) (prims.take i) := by
  have hlen := h.len
  refine ⟨by simp only [List.length_take]; omega, ?_, ?_, h.distinct.sublist (List.take_sublist _ _),
    fun p hp => h.points_mem p (List.mem_of_mem_take hp), fun e he => h.prims_mem e (List.mem_of_mem_take he)⟩
  · intro j p e hp he
    rw [List.getElem?_take] at hp he
    split_ifs at hp he
    exact h.starts _ _ _ hp he
  · intro j p e hp he
    rw [List.getElem?_take] at hp he
    split_ifs at hp he
    exact h.fins _ _ _ hp he

omit [IsStrictOrderedRing K] in
lemma pointIndex_some {points : List P} {p : P} {i : ℕ} (h : pointIndex k p points = some i) :
    ∃ q, points[i]? = some q ∧ Close k p q := by
  unfold pointIndex at h
  rw [List.findIdx?_eq_some_iff_getElem] at h
  obtain ⟨hi, hc, -⟩ := h
  refine ⟨points[i], List.getElem?_eq_getElem hi, ?_⟩
  rw [decide_eq_true_eq] at hc
  exact Close.symm hc

omit [IsStrictOrderedRing K] in
lemma pointIndex_of_inList {points : List P} {p : P} (h : inList k p points = true) : ∃ i, pointIndex k p points = some i := by
  unfold inList at h
  rw [List.any_eq_true] at h
  obtain ⟨q, hq, hc⟩ := h
  rw [decide_eq_true_eq] at hc
  rcases hp : pointIndex k p points with _ | i
  · unfold pointIndex at hp
    rw [List.findIdx?_eq_none_iff] at hp
    have := hp q hq
    rw [decide_eq_false_iff_not, k.dist_comm] at this
    exact absurd hc this
  · exact ⟨i, rfl⟩

omit [IsStrictOrderedRing K] in
lemma flip_extremities {edges0 : List E} {e e' : E} (he : e ∈ edges0) (hflip : e' = e ∨ e' = k.reverse e) :
    IsExtremityOf k edges0 (k.start e') ∧ IsExtremityOf k edges0 (k.fin e') := by
  rcases hflip with rfl | rfl
  · exact ⟨⟨_, he, Or.inl rfl⟩, ⟨_, he, Or.inr rfl⟩⟩
  · rw [k.reverse_start, k.reverse_fin]
    exact ⟨⟨_, he, Or.inr rfl⟩, ⟨_, he, Or.inl rfl⟩⟩

omit [IsStrictOrderedRing K] in
lemma flip_open {e e' : E} (hnd : ¬ Close k (k.start e) (k.fin e)) (hflip : e' = e ∨ e' = k.reverse e) : ¬ Close k (k.start e') (k.fin e') := by
  rcases hflip with rfl | rfl
  · exact hnd
  · rw [k.reverse_start, k.reverse_fin]
    exact fun h => hnd h.symm

omit [IsStrictOrderedRing K] in
/-- The edge goes to the end: the starts. -/
lemma append_starts {edges0 : List E} (ht : CloseTransitive k edges0) {points : List P} {prims : List E}
    (h : Recorded (k := k) edges0 points prims) {last e' : E} (hl : prims.getLast? = some last)
    (hm : IsExtremityOf k edges0 (k.start e')) (hfol : Close k (k.fin last) (k.start e')) :
    ∀ (i : ℕ) p e, points[i]? = some p → (prims ++ [e'])[i]? = some e → Close k p (k.start e) := by
  intro i p e hp he
  rcases lt_trichotomy i prims.length with hi | hi | hi
  · rw [List.getElem?_append_left hi] at he
    exact h.starts i p e hp he
  · subst hi
    rw [List.getElem?_append_right le_rfl] at he
    simp at he
    subst he
    obtain ⟨q, hq, hc⟩ := recorded_last h hl
    rw [hp] at hq
    obtain rfl := Option.some.inj hq
    exact ht _ _ _ (h.points_mem p (List.mem_of_getElem? hp)) (h.prims_mem last (List.mem_of_getLast? hl)).2 hm hc hfol
  · rw [List.getElem?_eq_none (by simp; omega)] at he
    cases he

omit [IsStrictOrderedRing K] in
lemma recorded_append {edges0 : List E} (hself : ∀ p, k.dist p p = 0) (h10 : (0 : K) ≤ 1 / 10 ^ 6) (ht : CloseTransitive k edges0) {points : List P} {prims : List E}
    (h : Recorded (k := k) edges0 points prims) {last e' : E} (hl : prims.getLast? = some last)
    (hm : IsExtremityOf k edges0 (k.start e') ∧ IsExtremityOf k edges0 (k.fin e')) (hfol : Close k (k.fin last) (k.start e'))
    (hnew : ¬ inList k (k.fin e') points = true) : Recorded (k := k) edges0 (points ++ [k.fin e']) (prims ++ [e']) := by
  have hlen := h.len
  have hst := append_starts ht h hl hm.1 hfol
  refine ⟨by simp [hlen], ?_, ?_, ?_, ?_, ?_⟩
  · intro i p e hp he
    have hi : i < prims.length + 1 := by
      have := (List.getElem?_eq_some_iff.1 he).1
      simpa using this
    rw [List.getElem?_append_left (by omega)] at hp
    exact hst i p e hp he
  · intro i p e hp he
    have hi : i < prims.length + 1 := by
      have := (List.getElem?_eq_some_iff.1 he).1
      simpa using this
    rcases Nat.lt_succ_iff_lt_or_eq.1 hi with hlt | heq
    · rw [List.getElem?_append_left (by omega)] at hp
      rw [List.getElem?_append_left hlt] at he
      exact h.fins i p e hp he
    · subst heq
      rw [List.getElem?_append_right (by omega), hlen] at hp
      rw [List.getElem?_append_right le_rfl] at he
      simp at hp he
      subst he hp
      unfold Close; rw [hself]; exact h10
  · rw [List.pairwise_append]
    refine ⟨h.distinct, by simp, ?_⟩
    intro p hp q hq hc
    rw [List.mem_singleton] at hq
    subst hq
    apply hnew
    unfold inList
    rw [List.any_eq_true]
    exact ⟨p, hp, by rw [decide_eq_true_eq]; exact hc.symm⟩
  · intro p hp
    rcases List.mem_append.1 hp with hp | hp
    · exact h.points_mem p hp
    · rw [List.mem_singleton] at hp; subst hp; exact hm.2
  · intro e he
    rcases List.mem_append.1 he with he | he
    · exact h.prims_mem e he
    · rw [List.mem_singleton] at he; subst he; exact hm

omit [IsStrictOrderedRing K] in
lemma recorded_cons {edges0 : List E} (hself : ∀ p, k.dist p p = 0) (h10 : (0 : K) ≤ 1 / 10 ^ 6) (ht : CloseTransitive k edges0) {points : List P} {prims : List E}
    (h : Recorded (k := k) edges0 points prims) {first e' : E} (hf : prims.head? = some first)
    (hm : IsExtremityOf k edges0 (k.start e') ∧ IsExtremityOf k edges0 (k.fin e')) (hfol : Close k (k.fin e') (k.start first))
    (hnew : ¬ inList k (k.start e') points = true) : Recorded (k := k) edges0 (k.start e' :: points) (e' :: prims) := by
  have hlen := h.len
  refine ⟨by simp [hlen], ?_, ?_, ?_, ?_, ?_⟩
  · intro i p e hp he
    rcases i with _ | i
    · simp at hp he
      subst he hp
      unfold Close; rw [hself]; exact h10
    · simp at hp he
      exact h.starts i p e hp he
  · intro i p e hp he
    rcases i with _ | i
    · simp at hp he
      subst he
      have hp0 : points.head? = some p := by rw [List.head?_eq_getElem?]; exact hp
      exact ht _ _ _ (h.points_mem p (List.mem_of_getElem? hp)) (h.prims_mem first (List.mem_of_head? hf)).1 hm.2 (recorded_first h hf hp0) hfol.symm
    · simp at hp he
      exact h.fins i p e hp he
  · rw [List.pairwise_cons]
    refine ⟨?_, h.distinct⟩
    intro q hq hc
    apply hnew
    unfold inList
    rw [List.any_eq_true]
    exact ⟨q, hq, by rw [decide_eq_true_eq]; exact hc⟩
  · intro p hp
    rcases List.mem_cons.1 hp with rfl | hp
    · exact hm.1
    · exact h.points_mem p hp
  · intro e he
    rcases List.mem_cons.1 he with rfl | he
    · exact hm
    · exact h.prims_mem e he

/-- What `direction_independent_is_close` says of the extremities. -/
def SameExtremities (sameEdge : E → E → Bool) : Prop := ∀ e f, sameEdge e f = true →
  (Close k (k.start e) (k.start f) ∧ Close k (k.fin e) (k.fin f)) ∨ (Close k (k.start e) (k.fin f) ∧ Close k (k.fin e) (k.start f))

/-- The contour ends where it starts. -/
def ClosedContour (w : List E) : Prop := ∀ first ∈ w.head?, ∀ last ∈ w.getLast?, Close k (k.fin last) (k.start first)

omit [IsStrictOrderedRing K] in
lemma simple_of_closed {w : List E} (h1 : w ≠ []) (h2 : w.IsChain (Follows k (1 / 10 ^ 6)))
    (h3 : w.Pairwise fun e e' => ¬ Close k (k.start e) (k.start e')) (h4 : ClosedContour (k := k) w) : SimpleContour k w :=
  ⟨h1, h2, h3, fun first hf last hl => Or.inl (h4 first hf last hl)⟩

/-- The two edges are never taken one for the other. -/
def NeverSame (sameEdge : E → E → Bool) (e f : E) : Prop :=
  (sameEdge e f = false ∧ sameEdge e (k.reverse f) = false) ∧ sameEdge f e = false ∧ sameEdge f (k.reverse e) = false

omit [IsStrictOrderedRing K] in
lemma NeverSame.symm {sameEdge : E → E → Bool} {e f : E} (h : NeverSame (k := k) sameEdge e f) : NeverSame (k := k) sameEdge f e := ⟨h.2, h.1⟩

/-- Along a chain, a place other than the two ends is met an even number of times. -/
lemma parity_chain {edges0 : List E} (ht : CloseTransitive k edges0) {p : P} (hp : IsExtremityOf k edges0 p) : ∀ (w : List E) (first last : E),
    (∀ e ∈ w, IsExtremityOf k edges0 (k.start e) ∧ IsExtremityOf k edges0 (k.fin e)) → w.IsChain (Follows k (1 / 10 ^ 6)) →
    w.head? = some first → w.getLast? = some last →
    Even (ends k (1 / 10 ^ 6) p w + (if k.dist (k.start first) p ≤ 1 / 10 ^ 6 then 1 else 0) + (if k.dist (k.fin last) p ≤ 1 / 10 ^ 6 then 1 else 0)) := by
  intro w
  induction w with
  | nil => intro first last _ _ hf; simp at hf
  | cons a w ih =>
    intro first last hm hch hf hl
    obtain rfl : a = first := by simpa using hf
    rcases w with _ | ⟨b, w⟩
    · obtain rfl : a = last := by simpa using hl
      simp only [ends, List.map_cons, List.map_nil, List.sum_cons, List.sum_nil]
      split_ifs <;> decide
    · rw [List.isChain_cons_cons] at hch
      have := ih b last (fun e he => hm e (List.mem_cons_of_mem _ he)) hch.2 rfl (by simpa using hl)
      have hab : k.dist (k.fin a) p ≤ 1 / 10 ^ 6 ↔ k.dist (k.start b) p ≤ 1 / 10 ^ 6 := by
        have ma := (hm a (by simp)).2
        have mb := (hm b (by simp)).1
        have hc : Close k (k.fin a) (k.start b) := hch.1
        exact ⟨fun h => ht _ _ _ mb ma hp hc.symm h, fun h => ht _ _ _ ma mb hp hc h⟩
      simp only [ends, List.map_cons, List.sum_cons] at this ⊢
      simp only [hab]
      rw [Nat.even_iff] at this ⊢
      split_ifs at this ⊢ <;> omega

/-- What is kept along the loop when every place is met an even number of times. -/
def EvenLeft (sameEdge : E → E → Bool) (edges0 prims edges : List E) : Prop :=
  (∀ p, IsExtremityOf k edges0 p → Even (ends k (1 / 10 ^ 6) p prims + ends k (1 / 10 ^ 6) p edges)) ∧
  (∀ x ∈ prims, ∀ e ∈ edges, sameEdge e x = false) ∧ edges.Pairwise (NeverSame (k := k) sameEdge)

lemma ends_flip {tol : K} {p : P} {e e' : E} (h : e' = e ∨ e' = k.reverse e) : ends k tol p [e'] = ends k tol p [e] :=
  ends_orientation k tol p (List.Forall₂.cons h List.Forall₂.nil)

lemma evenLeft_step {sameEdge : E → E → Bool} {edges0 prims a b : List E} {e e' : E} (h : EvenLeft (k := k) sameEdge edges0 prims (a ++ e :: b))
    (hflip : e' = e ∨ e' = k.reverse e) (l : List E) (hl : l.Perm (e' :: prims)) : EvenLeft (k := k) sameEdge edges0 l (a ++ b) := by
  obtain ⟨h1, h2, h3⟩ := h
  have hp : (a ++ e :: b).Perm (e :: (a ++ b)) := List.perm_middle
  have h3' := (hp.pairwise_iff (R := NeverSame (k := k) sameEdge) NeverSame.symm).1 h3
  rw [List.pairwise_cons] at h3'
  refine ⟨?_, ?_, h3'.2⟩
  · intro p hpx
    have := h1 p hpx
    rw [ends_perm k _ p hp, ← List.singleton_append, ends_append, ← ends_flip hflip] at this
    rw [ends_perm k _ p hl, ← List.singleton_append, ends_append]
    rw [Nat.even_iff] at this ⊢
    omega
  · intro x hx f hf
    rcases List.mem_cons.1 (hl.mem_iff.1 hx) with rfl | hx
    · have := h3'.1 f hf
      rcases hflip with rfl | rfl
      · exact this.2.1
      · exact this.2.2
    · exact h2 x hx f (hp.mem_iff.2 (List.mem_cons_of_mem _ hf))

lemma even_closed {edges0 w : List E} (ht : CloseTransitive k edges0) (hne : w ≠ [])
    (hm : ∀ e ∈ w, IsExtremityOf k edges0 (k.start e) ∧ IsExtremityOf k edges0 (k.fin e)) (hch : w.IsChain (Follows k (1 / 10 ^ 6)))
    (hc : ClosedContour (k := k) w) {p : P} (hp : IsExtremityOf k edges0 p) : Even (ends k (1 / 10 ^ 6) p w) := by
  obtain ⟨first, hf⟩ : ∃ first, w.head? = some first := by
    rcases w with _ | ⟨a, l⟩
    · exact absurd rfl hne
    · exact ⟨a, rfl⟩
  obtain ⟨last, hl⟩ : ∃ last, w.getLast? = some last := ⟨_, List.getLast?_eq_some_getLast hne⟩
  have h := parity_chain ht hp w first last hm hch hf hl
  have hcl := hc first hf last hl
  have mf := (hm first (List.mem_of_head? hf)).1
  have ml := (hm last (List.mem_of_getLast? hl)).2
  have hab : k.dist (k.fin last) p ≤ 1 / 10 ^ 6 ↔ k.dist (k.start first) p ≤ 1 / 10 ^ 6 :=
    ⟨fun h => ht _ _ _ mf ml hp hcl.symm h, fun h => ht _ _ _ ml mf hp hcl h⟩
  simp only [hab] at h
  rw [Nat.even_iff] at h ⊢
  split_ifs at h <;> omega

lemma evenLeft_split {sameEdge : E → E → Bool} {edges0 prims edges u w : List E} (ht : CloseTransitive k edges0)
    (h : EvenLeft (k := k) sameEdge edges0 prims edges) (hs : prims.Perm (u ++ w)) (hne : w ≠ [])
    (hm : ∀ e ∈ w, IsExtremityOf k edges0 (k.start e) ∧ IsExtremityOf k edges0 (k.fin e)) (hch : w.IsChain (Follows k (1 / 10 ^ 6)))
    (hc : ClosedContour (k := k) w) : EvenLeft (k := k) sameEdge edges0 u edges := by
  refine ⟨?_, fun x hx => h.2.1 x (hs.mem_iff.2 (List.mem_append_left _ hx)), h.2.2⟩
  intro p hp
  have h1 := h.1 p hp
  have h2 := even_closed ht hne hm hch hc hp
  rw [ends_perm k _ p hs, ends_append] at h1
  rw [Nat.even_iff] at h1 h2 ⊢
  omega

lemma evenLeft_fresh {sameEdge : E → E → Bool} {edges0 es w : List E} {e : E} (ht : CloseTransitive k edges0)
    (h : EvenLeft (k := k) sameEdge edges0 w (e :: es)) (hne : w ≠ [])
    (hm : ∀ e ∈ w, IsExtremityOf k edges0 (k.start e) ∧ IsExtremityOf k edges0 (k.fin e)) (hch : w.IsChain (Follows k (1 / 10 ^ 6)))
    (hc : ClosedContour (k := k) w) : EvenLeft (k := k) sameEdge edges0 [e] es := by
  obtain ⟨h1, h2, h3⟩ := h
  rw [List.pairwise_cons] at h3
  refine ⟨?_, ?_, h3.2⟩
  · intro p hp
    have h1 := h1 p hp
    have h2 := even_closed ht hne hm hch hc hp
    rw [← List.singleton_append, ends_append] at h1
    rw [Nat.even_iff] at h1 h2 ⊢
    omega
  · intro x hx f hf
    rw [List.mem_singleton] at hx
    rw [hx]
    exact (h3.1 f hf).2.1

lemma ends_zero {tol : K} {p : P} : ∀ {l : List E}, (∀ e ∈ l, ¬ k.dist (k.start e) p ≤ tol ∧ ¬ k.dist (k.fin e) p ≤ tol) → ends k tol p l = 0 := by
  intro l
  induction l with
  | nil => intro _; rfl
  | cons a l ih =>
    intro h
    have h1 := h a (by simp)
    have h2 := ih fun e he => h e (List.mem_cons_of_mem _ he)
    simp only [ends, List.map_cons, List.sum_cons] at h2 ⊢
    rw [if_neg h1.1, if_neg h1.2, h2]

lemma contourStep_none (sameEdge : E → E → Bool) {tol : K} (htol : 0 ≤ tol) (first last : E) : ∀ (edges : List E),
    contourStep k sameEdge tol first last edges = none → ∀ e ∈ edges,
      (k.dist (k.start e) (k.fin last) ≤ tol ∨ k.dist (k.fin e) (k.fin last) ≤ tol) → sameEdge e last = true := by
  intro edges
  induction edges with
  | nil => intro _ e he; simp at he
  | cons a l ih =>
    intro h e he hx
    unfold contourStep at h
    split_ifs at h with h1 h2
    rw [Option.map_eq_none_iff] at h
    rcases List.mem_cons.1 he with rfl | he
    · by_contra hs
      apply h1
      rw [Bool.and_eq_true]
      refine ⟨(isExtremity_iff k htol _ _).2 hx, by simpa using hs⟩
    · exact ih h e he hx

/-- When every place is met an even number of times the contour can always be continued. -/
lemma not_stuck {sameEdge : E → E → Bool} {edges0 prims edges : List E} (ht : CloseTransitive k edges0) (hself : ∀ p, k.dist p p = 0)
    (h : EvenLeft (k := k) sameEdge edges0 prims edges)
    (hm : ∀ e ∈ prims, IsExtremityOf k edges0 (k.start e) ∧ IsExtremityOf k edges0 (k.fin e)) (hch : prims.IsChain (Follows k (1 / 10 ^ 6)))
    {first last : E} (hf : prims.head? = some first) (hl : prims.getLast? = some last) (hopen : ¬ Close k (k.fin last) (k.start first)) :
    contourStep k sameEdge (1 / 10 ^ 6) first last edges ≠ none := by
  intro hn
  have h10 : (0 : K) ≤ 1 / 10 ^ 6 := by positivity
  have ml := (hm last (List.mem_of_getLast? hl)).2
  have h1 := parity_chain ht ml prims first last hm hch hf hl
  have hno : ¬ k.dist (k.start first) (k.fin last) ≤ 1 / 10 ^ 6 := fun hc => hopen (Close.symm hc)
  rw [if_neg hno, if_pos (by rw [hself]; exact h10)] at h1
  have h2 := h.1 _ ml
  have h3 : ends k (1 / 10 ^ 6) (k.fin last) edges = 0 := by
    apply ends_zero
    intro e he
    rw [← not_or]
    intro hx
    have := contourStep_none (k := k) sameEdge h10 first last edges hn e he hx
    rw [h.2.1 last (List.mem_of_getLast? hl) e he] at this
    cases this
  rw [h3] at h2
  rw [Nat.even_iff] at h1 h2
  omega

lemma contourLoop_simple [DecidableEq P] (sameEdge : E → E → Bool) (hsame : SameExtremities (k := k) sameEdge) (hself : ∀ p, k.dist p p = 0)
    (edges0 : List E) (ht : CloseTransitive k edges0) (hnd : ∀ e ∈ edges0, ¬ Close k (k.start e) (k.fin e)) (G : Prop) : ∀ (n : ℕ) (edges : List E)
    (points : List P) (prims : List E) (found : List (List E)), edges.length < n → (∀ e ∈ edges, e ∈ edges0) → prims ≠ [] →
    prims.IsChain (Follows k (1 / 10 ^ 6)) → Recorded (k := k) edges0 points prims → (G → EvenLeft (k := k) sameEdge edges0 prims edges) →
    (∀ c ∈ found, SimpleContour k c ∧ (G → ClosedContour (k := k) c)) →
    ∃ all, contourLoop k sameEdge (1 / 10 ^ 6) n edges points prims found = .ok all ∧
      ∀ c ∈ all, SimpleContour k c ∧ (G → ClosedContour (k := k) c) := by
  have h10 : (0 : K) ≤ 1 / 10 ^ 6 := by positivity
  have hrefl : ∀ p, Close k p p := fun p => by unfold Close; rw [hself]; exact h10
  intro n
  induction n with
  | zero => intro edges points prims found h; simp at h
  | succ n ih =>
    intro edges points prims found hn hmem hne hch hrec hev hfound
    have hlen := hrec.len
    -- going on with a new contour, from the list of edges `rest`
    have fresh : ∀ (rest : List E) (w : List E), rest.length ≤ n → (∀ e ∈ rest, e ∈ edges0) → SimpleContour k w →
        (G → ClosedContour (k := k) w) → (∀ e ∈ w, IsExtremityOf k edges0 (k.start e) ∧ IsExtremityOf k edges0 (k.fin e)) →
        (G → EvenLeft (k := k) sameEdge edges0 w rest) →
        ∃ all : List (List E), (match rest with
          | [] => (Except.ok (found ++ [w]) : Except WireError (List (List E)))
          | e :: es => contourLoop k sameEdge (1 / 10 ^ 6) n es [k.start e, k.fin e] [e] (found ++ [w])) = .ok all ∧
          ∀ c ∈ all, SimpleContour k c ∧ (G → ClosedContour (k := k) c) := by
      intro rest w hr hm hw hwc hwm hwe
      have hf' : ∀ c ∈ found ++ [w], SimpleContour k c ∧ (G → ClosedContour (k := k) c) := by
        intro c hc
        rcases List.mem_append.1 hc with hc | hc
        · exact hfound c hc
        · rw [List.mem_singleton] at hc; rw [hc]; exact ⟨hw, hwc⟩
      rcases rest with _ | ⟨e, es⟩
      · exact ⟨_, rfl, hf'⟩
      · exact ih es _ [e] _ (by simp at hr; omega) (fun x hx => hm x (List.mem_cons_of_mem _ hx)) (by simp) (List.isChain_singleton _)
          (recorded_start hself hnd h10 (hm e (by simp)))
          (fun g => evenLeft_fresh ht (hwe g) hw.nonempty hwm hw.chain (hwc g)) hf'
    obtain ⟨first, hf⟩ : ∃ first, prims.head? = some first := by
      rcases prims with _ | ⟨a, l⟩
      · exact absurd rfl hne
      · exact ⟨a, rfl⟩
    obtain ⟨last, hl⟩ : ∃ last, prims.getLast? = some last := ⟨_, List.getLast?_eq_some_getLast hne⟩
    obtain ⟨p0, hp0⟩ : ∃ p0, points.head? = some p0 := by
      rcases points with _ | ⟨a, l⟩
      · simp at hlen
      · exact ⟨a, rfl⟩
    have hp0' : points[0]? = some p0 := by rw [← List.head?_eq_getElem?]; exact hp0
    have hplen : 0 < prims.length := List.length_pos_iff.2 hne
    rw [contourLoop.eq_def]
    dsimp only
    rw [hf, hl]
    dsimp only
    rcases hs : contourStep k sameEdge (1 / 10 ^ 6) first last edges with _ | ⟨rest, e', front⟩
    · dsimp only
      have hstuck : ¬ G := by
        intro g
        by_cases hopen : Close k (k.fin last) (k.start first)
        · obtain ⟨q, hq, hqf⟩ := recorded_last hrec hl
          have mq := hrec.points_mem q (List.mem_of_getElem? hq)
          have mp := hrec.points_mem p0 (List.mem_of_getElem? hp0')
          have mlast := hrec.prims_mem last (List.mem_of_getLast? hl)
          have mfirst := hrec.prims_mem first (List.mem_of_head? hf)
          have := distinct_idx hrec.distinct hp0' hq (ht _ _ _ mp mlast.2 mq
            (ht _ _ _ mp mfirst.1 mlast.2 (recorded_first hrec hf hp0) hopen.symm) hqf.symm)
          omega
        · exact not_stuck ht hself (hev g) hrec.prims_mem hch hf hl hopen hs
      exact fresh edges prims (by omega) hmem (simple_open ht hne hrec hch) (fun g => absurd g hstuck) hrec.prims_mem (fun g => absurd g hstuck)
    · dsimp only
      obtain ⟨a, e, b, rfl, rfl, hflip, hend, hfront⟩ := contourStep_some k sameEdge h10 first last _ _ _ _ hs
      have he0 : e ∈ edges0 := hmem e (by simp)
      have hext := flip_extremities (k := k) he0 hflip
      have hopen := flip_open (k := k) (hnd e he0) hflip
      have hrest : (a ++ b).length < n := by
        simp only [List.length_append, List.length_cons] at hn ⊢; omega
      have hrmem : ∀ x ∈ a ++ b, x ∈ edges0 := by
        intro x hx
        apply hmem
        simp only [List.mem_append, List.mem_cons] at hx ⊢
        tauto
      have mlast := hrec.prims_mem last (List.mem_of_getLast? hl)
      have mfirst := hrec.prims_mem first (List.mem_of_head? hf)
      have mp0 := hrec.points_mem p0 (List.mem_of_getElem? hp0')
      have hstep : ∀ l : List E, l.Perm (e' :: prims) → G → EvenLeft (k := k) sameEdge edges0 l (a ++ b) :=
        fun l hperm g => evenLeft_step (hev g) hflip l hperm
      have hpm : ∀ l : List E, l.Perm (e' :: prims) → ∀ x ∈ l, IsExtremityOf k edges0 (k.start x) ∧ IsExtremityOf k edges0 (k.fin x) := by
        intro l hperm x hx
        rcases List.mem_cons.1 (hperm.mem_iff.1 hx) with rfl | hx
        · exact hext
        · exact hrec.prims_mem x hx
      have happ : (prims ++ [e']).Perm (e' :: prims) := List.perm_append_singleton _ _
      cases front
      · -- at the end
        simp only [Bool.false_eq_true, if_false]
        have hfol : Close k (k.fin last) (k.start e') := hend rfl
        have hch' : (prims ++ [e']).IsChain (Follows k (1 / 10 ^ 6)) := follows_append k hl hch hfol
        have hst := append_starts ht hrec hl hext.1 hfol
        by_cases hin : inList k (k.fin e') points = true
        · rw [if_pos hin]
          obtain ⟨i, hi⟩ := pointIndex_of_inList hin
          obtain ⟨q, hq, hqc⟩ := pointIndex_some hi
          rw [hp0, hi]
          dsimp only
          have hdist : (prims ++ [e']).Pairwise fun x y => ¬ Close k (k.start x) (k.start y) := by
            refine starts_distinct ht points (prims ++ [e']) (by simp [hlen]) hst hrec.distinct hrec.points_mem ?_
            intro x hx
            rcases List.mem_append.1 hx with hx | hx
            · exact (hrec.prims_mem x hx).1
            · rw [List.mem_singleton] at hx; rw [hx]; exact hext.1
          by_cases hc : isClose k (k.fin e') p0 (1 / 10 ^ 6) = true
          · rw [if_pos hc]
            rw [isClose_iff k h10] at hc
            have hclosed : ClosedContour (k := k) (prims ++ [e']) := by
              intro first' hf' last' hl'
              obtain rfl : e' = last' := by simpa using hl'
              obtain rfl : first = first' := by
                rw [List.head?_append, hf] at hf'
                simpa using hf'
              exact ht _ _ _ hext.2 mp0 mfirst.1 hc (recorded_first hrec hf hp0)
            exact fresh (a ++ b) (prims ++ [e']) hrest.le hrmem (simple_of_closed (by simp) hch' hdist hclosed) (fun _ => hclosed)
              (hpm _ happ) (hstep _ happ)
          · rw [if_neg hc]
            rw [isClose_iff k h10] at hc
            have hhead : ¬ (points ++ [k.fin e']).head? = some (k.fin e') := by
              rw [List.head?_append, hp0]
              simp only [Option.some_or, Option.some.injEq]
              rintro rfl
              exact hc (hrefl _)
            rw [if_neg hhead]
            have hi0 : i ≠ 0 := by
              rintro rfl
              rw [hp0'] at hq
              obtain rfl := Option.some.inj hq
              exact hc hqc
            have hile : i ≤ prims.length := by
              have := (List.getElem?_eq_some_iff.1 hq).1
              omega
            have hin' : i ≠ prims.length := by
              rintro rfl
              have h1 := hst prims.length q e' hq (by simp)
              have mq := hrec.points_mem q (List.mem_of_getElem? hq)
              exact hopen (ht _ _ _ hext.1 mq hext.2 h1.symm hqc.symm)
            have hilt : i < prims.length := lt_of_le_of_ne hile hin'
            rw [List.take_append_of_le_length (by omega), List.take_append_of_le_length (by omega)]
            have hdne : (prims ++ [e']).drop i ≠ [] := by rw [ne_eq, List.drop_eq_nil_iff]; simp; omega
            have hclosed : ClosedContour (k := k) ((prims ++ [e']).drop i) := by
                intro first' hf' last' hl'
                have hl2 : e' = last' := by
                  rw [List.getLast?_drop] at hl'
                  simp only [List.length_append, List.length_singleton] at hl'
                  rw [if_neg (by omega)] at hl'
                  simpa using hl'
                subst hl2
                rw [List.head?_drop] at hf'
                have h1 := hst i q first' hq hf'
                have mq := hrec.points_mem q (List.mem_of_getElem? hq)
                have mf : IsExtremityOf k edges0 (k.start first') := by
                  have := List.mem_of_getElem? hf'
                  rcases List.mem_append.1 this with hx | hx
                  · exact (hrec.prims_mem _ hx).1
                  · rw [List.mem_singleton] at hx; rw [hx]; exact hext.1
                exact ht _ _ _ hext.2 mq mf hqc h1
            refine ih (a ++ b) _ (prims.take i) _ hrest hrmem ?_ (hch.take _) (recorded_take hrec i hile) ?_ ?_
            · rw [ne_eq, List.take_eq_nil_iff]; push Not; exact ⟨hi0, hne⟩
            · intro g
              refine evenLeft_split ht (hstep _ happ g) (w := (prims ++ [e']).drop i) ?_ hdne
                (fun x hx => hpm _ happ x (List.mem_of_mem_drop hx)) (hch'.drop _) hclosed
              rw [← List.take_append_of_le_length (l₂ := [e']) (by omega : i ≤ prims.length), List.take_append_drop]
            · intro c hc'
              rcases List.mem_append.1 hc' with hc' | hc'
              · exact hfound c hc'
              · rw [List.mem_singleton] at hc'
                rw [hc']
                exact ⟨simple_of_closed hdne (hch'.drop _) (hdist.sublist (List.drop_sublist _ _)) hclosed, fun _ => hclosed⟩
        · rw [if_neg hin]
          exact ih (a ++ b) _ _ _ hrest hrmem (by simp) hch' (recorded_append hself h10 ht hrec hl hext hfol hin)
            (hstep _ happ) hfound
      · -- at the front
        simp only [if_true]
        obtain ⟨hfol, hns, himp⟩ := hfront rfl
        have hfol : Close k (k.fin e') (k.start first) := hfol
        have hch' : (e' :: prims).IsChain (Follows k (1 / 10 ^ 6)) := follows_cons k hf hch hfol
        have hfp0 : Close k (k.fin e') p0 := ht _ _ _ hext.2 mfirst.1 mp0 hfol (recorded_first hrec hf hp0).symm
        by_cases hin : inList k (k.start e') points = true
        · rw [if_pos hin]
          obtain ⟨i, hi⟩ := pointIndex_of_inList hin
          obtain ⟨q, hq, hqc⟩ := pointIndex_some hi
          have mq := hrec.points_mem q (List.mem_of_getElem? hq)
          rw [hp0, hi]
          dsimp only
          have hc : ¬ isClose k (k.start e') p0 (1 / 10 ^ 6) = true := by
            rw [isClose_iff k h10]
            intro hc
            exact hopen (ht _ _ _ hext.1 mp0 hext.2 hc hfp0.symm)
          rw [if_neg hc, if_pos (by simp)]
          rw [isClose_iff k h10] at hc
          have hi0 : i ≠ 0 := by
            rintro rfl
            rw [hp0'] at hq
            obtain rfl := Option.some.inj hq
            exact hc hqc
          have hile : i ≤ prims.length := by
            have := (List.getElem?_eq_some_iff.1 hq).1
            omega
          have hin' : i ≠ prims.length := by
            rintro rfl
            -- the edge would be the last edge, hence the first one
            obtain ⟨q', hq', hqf⟩ := recorded_last hrec hl
            rw [hq] at hq'
            obtain rfl := Option.some.inj hq'
            have hsl : Close k (k.start e') (k.fin last) := ht _ _ _ hext.1 mq mlast.2 hqc hqf
            have hx : k.dist (k.start e) (k.fin last) ≤ 1 / 10 ^ 6 ∨ k.dist (k.fin e) (k.fin last) ≤ 1 / 10 ^ 6 := by
              rcases hflip with rfl | rfl
              · exact Or.inl hsl
              · rw [k.reverse_start] at hsl; exact Or.inr hsl
            have hse := hsame e last (himp hx)
            -- the other extremity is at the start of the last edge
            have hfl : Close k (k.fin e') (k.start last) := by
              have hse' : (Close k (k.start e') (k.start last) ∧ Close k (k.fin e') (k.fin last)) ∨
                  (Close k (k.start e') (k.fin last) ∧ Close k (k.fin e') (k.start last)) := by
                rcases hflip with rfl | rfl
                · exact hse
                · rw [k.reverse_start, k.reverse_fin]
                  rcases hse with ⟨u, v⟩ | ⟨u, v⟩
                  · exact Or.inr ⟨v, u⟩
                  · exact Or.inl ⟨v, u⟩
              rcases hse' with ⟨u, v⟩ | ⟨u, v⟩
              · exact absurd (ht _ _ _ hext.1 mlast.2 hext.2 hsl v.symm) hopen
              · exact v
            have hlast : prims[prims.length - 1]? = some last := by rw [← List.getLast?_eq_getElem?]; exact hl
            have hpl : points[prims.length - 1]? = some points[prims.length - 1] := List.getElem?_eq_getElem (by omega)
            have h1 := hrec.starts _ _ _ hpl hlast
            have ml := hrec.points_mem _ (List.mem_of_getElem? hpl)
            have hcl : Close k p0 points[prims.length - 1] :=
              ht _ _ _ mp0 hext.2 ml hfp0.symm (ht _ _ _ hext.2 mlast.1 ml hfl h1.symm)
            have hidx := distinct_idx hrec.distinct hp0' hpl hcl
            have hone : first = last := by
              rw [← hidx, ← List.head?_eq_getElem?, hf] at hlast
              exact Option.some.inj hlast
            rw [hone] at hns
            rw [himp hx] at hns
            cases hns
          have hilt : i < prims.length := lt_of_le_of_ne hile hin'
          rw [List.drop_succ_cons, List.drop_succ_cons, List.take_succ_cons]
          have hdist : (e' :: prims.take i).Pairwise fun x y => ¬ Close k (k.start x) (k.start y) := by
                refine starts_distinct ht (k.start e' :: points.take i) (e' :: prims.take i) (by simp; omega) ?_ ?_ ?_ ?_
                · intro j p x hp hx
                  rcases j with _ | j
                  · simp at hp hx
                    subst hp hx
                    exact hrefl _
                  · simp only [List.getElem?_cons_succ, List.getElem?_take] at hp hx
                    split_ifs at hp hx
                    exact hrec.starts j p x hp hx
                · rw [List.pairwise_cons]
                  refine ⟨?_, hrec.distinct.sublist (List.take_sublist _ _)⟩
                  intro p hp hcp
                  obtain ⟨j, hj, hjp⟩ := List.getElem_of_mem hp
                  rw [List.length_take] at hj
                  rw [List.getElem_take] at hjp
                  have hpj : points[j]? = some p := by rw [← hjp]; exact List.getElem?_eq_getElem (by omega)
                  have mp := hrec.points_mem p (List.mem_of_mem_take hp)
                  have := distinct_idx hrec.distinct hpj hq (ht _ _ _ mp hext.1 mq hcp.symm hqc)
                  omega
                · intro p hp
                  rcases List.mem_cons.1 hp with rfl | hp
                  · exact hext.1
                  · exact hrec.points_mem p (List.mem_of_mem_take hp)
                · intro x hx
                  rcases List.mem_cons.1 hx with rfl | hx
                  · exact hext.1
                  · exact (hrec.prims_mem x (List.mem_of_mem_take hx)).1
          have hclosed : ClosedContour (k := k) (e' :: prims.take i) := by
                intro first' hf' last' hl'
                obtain rfl : e' = first' := by simpa using hf'
                rw [List.getLast?_cons, List.getLast?_take, if_neg hi0] at hl'
                have hpi : prims[i - 1]? = some prims[i - 1] := List.getElem?_eq_getElem (by omega)
                rw [hpi] at hl'
                simp only [Option.some_or, Option.getD_some, Option.mem_def, Option.some.injEq] at hl'
                subst hl'
                have h1 := hrec.fins (i - 1) q _ (by rw [show i - 1 + 1 = i by omega]; exact hq) hpi
                exact ht _ _ _ (hrec.prims_mem _ (List.mem_of_getElem? hpi)).2 mq hext.1 h1.symm hqc.symm
          have hchain : (e' :: prims.take i).IsChain (Follows k (1 / 10 ^ 6)) := List.take_succ_cons ▸ hch'.take (i + 1)
          refine ih (a ++ b) _ (prims.drop i) _ hrest hrmem ?_ (hch.drop _) (recorded_drop hrec i hile) ?_ ?_
          · rw [ne_eq, List.drop_eq_nil_iff]; omega
          · intro g
            refine evenLeft_split ht (hstep _ (List.Perm.refl _) g) (w := e' :: prims.take i) ?_ (by simp)
              (fun x hx => ?_) hchain hclosed
            · refine List.Perm.trans ?_ List.perm_append_comm
              rw [List.cons_append, List.take_append_drop]
            · rcases List.mem_cons.1 hx with rfl | hx
              · exact hext
              · exact hrec.prims_mem x (List.mem_of_mem_take hx)
          · intro c hc'
            rcases List.mem_append.1 hc' with hc' | hc'
            · exact hfound c hc'
            · rw [List.mem_singleton] at hc'
              rw [hc']
              exact ⟨simple_of_closed (by simp) hchain hdist hclosed, fun _ => hclosed⟩
        · rw [if_neg hin]
          exact ih (a ++ b) _ _ _ hrest hrmem (by simp) hch' (recorded_cons hself h10 ht hrec hf hext hfol hin)
            (hstep _ (List.Perm.refl _)) hfound

/-! ## Superposed contours -/

omit [Field K] [LinearOrder K] [IsStrictOrderedRing K] in
lemma keepDifferent_spec (superposing : List E → List E → Bool) : ∀ (cs kept : List (List E)),
    ∃ new, keepDifferent superposing kept cs = kept ++ new ∧ new.Sublist cs ∧
      (∀ c ∈ cs, c ∈ new ∨ ∃ d ∈ kept ++ new, superposing c d = true) ∧
      (kept.Pairwise (fun d c => superposing c d = false) → (kept ++ new).Pairwise fun d c => superposing c d = false) := by
  intro cs
  induction cs with
  | nil => intro kept; exact ⟨[], by simp [keepDifferent], by simp, by simp, by simp⟩
  | cons c cs ih =>
    intro kept
    unfold keepDifferent
    split_ifs with h
    · obtain ⟨new, h1, h2, h3, h4⟩ := ih kept
      refine ⟨new, h1, h2.cons _, ?_, h4⟩
      intro x hx
      rcases List.mem_cons.1 hx with rfl | hx
      · rw [List.any_eq_true] at h
        obtain ⟨d, hd, hs⟩ := h
        exact Or.inr ⟨d, List.mem_append_left _ hd, hs⟩
      · exact h3 x hx
    · obtain ⟨new, h1, h2, h3, h4⟩ := ih (kept ++ [c])
      refine ⟨c :: new, by rw [h1]; simp, h2.cons_cons _, ?_, ?_⟩
      · intro x hx
        rcases List.mem_cons.1 hx with rfl | hx
        · exact Or.inl (by simp)
        · rcases h3 x hx with h3 | ⟨d, hd, hs⟩
          · exact Or.inl (List.mem_cons_of_mem _ h3)
          · exact Or.inr ⟨d, by simpa using hd, hs⟩
      · intro hk
        have := h4 (by
          rw [List.pairwise_append]
          refine ⟨hk, by simp, ?_⟩
          intro d hd x hx
          rw [List.mem_singleton] at hx
          rw [hx]
          by_contra hs
          apply h
          rw [List.any_eq_true]
          exact ⟨d, hd, by simpa using hs⟩)
        simpa using this

/-! ## The theorems -/

/-- **C166.** Whatever the edges, when it does not raise: the edges, each turned or not, are distributed among chains, each edge in exactly
one of them; the contours given are these chains without those which superpose one given before, and no contour given superposes one given
before it. -/
theorem C166_every_edge_once [DecidableEq P] (sameEdge : E → E → Bool) (superposing : List E → List E → Bool) {tol : K} (htol : 0 ≤ tol)
    (edges : List E) (res : List (List E)) (h : contoursFromEdges k sameEdge superposing tol edges = .ok res) :
    ∃ (all : List (List E)) (l : List E), UpToOrientation k edges l ∧ all.flatten.Perm l ∧ (∀ c ∈ all, c.IsChain (Follows k tol)) ∧
      res.Sublist all ∧ res.head? = all.head? ∧ (∀ c ∈ all, c ∈ res ∨ ∃ d ∈ res, superposing c d = true) ∧
      res.Pairwise fun d c => superposing c d = false := by
  have hre : ∀ l : List E, UpToOrientation k l l := fun l => by
    induction l with
    | nil => exact List.Forall₂.nil
    | cons a l ih => exact List.Forall₂.cons (Or.inl rfl) ih
  match edges with
  | [] =>
    obtain rfl := Except.ok.inj h
    exact ⟨[], [], List.Forall₂.nil, by simp, by simp, by simp, rfl, by simp, by simp⟩
  | [e] =>
    obtain rfl := Except.ok.inj h
    exact ⟨[[e]], [e], hre _, by simp, by simp, by simp, rfl, by simp, by simp⟩
  | e :: e2 :: es =>
    unfold contoursFromEdges at h
    dsimp only at h
    split at h
    · cases h
    · cases h
    · rename_i c cs hc
      obtain rfl := Except.ok.inj h
      obtain ⟨new, l, h1, h2, h3, -, h5⟩ := contourLoop_parts k sameEdge htol _ _ _ _ _ _ (List.isChain_singleton e) hc
      rw [List.nil_append] at h1
      obtain ⟨nw, g1, g2, g3, g4⟩ := keepDifferent_spec superposing cs [c]
      refine ⟨c :: cs, e :: l, List.Forall₂.cons (Or.inl rfl) h2, by rw [h1]; simpa using h3, by rw [h1]; exact h5, ?_, ?_, ?_, ?_⟩
      · rw [g1]; exact g2.cons_cons c
      · rw [g1]; rfl
      · rw [g1]
        intro x hx
        rcases List.mem_cons.1 hx with rfl | hx
        · left; simp
        · rcases g3 x hx with h | h
          · left; exact List.mem_append_right _ h
          · exact Or.inr h
      · rw [g1]; exact g4 (by simp)

/-- **C166.** With the default tolerance, when being close is transitive on the extremities and no edge has its two extremities close to each
other, no exception is raised and every contour is simple: it passes at each place once, and it is closed or ends at a place it does not
pass at otherwise. -/
theorem C166_simple_contours [DecidableEq P] (sameEdge : E → E → Bool) (superposing : List E → List E → Bool)
    (hsame : SameExtremities (k := k) sameEdge) (hself : ∀ p, k.dist p p = 0) (edges : List E) (ht : CloseTransitive k edges)
    (hnd : ∀ e ∈ edges, ¬ Close k (k.start e) (k.fin e)) :
    ∃ res, contoursFromEdges k sameEdge superposing (1 / 10 ^ 6) edges = .ok res ∧ ∀ c ∈ res, SimpleContour k c := by
  match edges with
  | [] => exact ⟨[], rfl, by simp⟩
  | [e] =>
    refine ⟨[[e]], rfl, ?_⟩
    intro c hc
    rw [List.mem_singleton] at hc
    rw [hc]
    exact simple_open ht (by simp) (recorded_start hself hnd (by positivity) (by simp)) (List.isChain_singleton _)
  | e :: e2 :: es =>
    obtain ⟨all, h1, h2⟩ := contourLoop_simple sameEdge hsame hself (e :: e2 :: es) ht hnd False ((e2 :: es).length + 1) (e2 :: es)
      [k.start e, k.fin e] [e] [] (by simp) (fun x hx => List.mem_cons_of_mem _ hx) (by simp) (List.isChain_singleton e)
      (recorded_start hself hnd (by positivity) (by simp)) (fun g => g.elim) (by simp)
    obtain ⟨new, l, h3, -, -, h4, -⟩ := contourLoop_parts k sameEdge (by positivity : (0 : K) ≤ 1 / 10 ^ 6) _ _ _ _ _ _ (List.isChain_singleton e) h1
    rcases all with _ | ⟨c, cs⟩
    · rw [List.nil_append] at h3; exact absurd h3.symm h4
    · obtain ⟨nw, g1, g2, -, -⟩ := keepDifferent_spec superposing cs [c]
      refine ⟨keepDifferent superposing [c] cs, ?_, ?_⟩
      · unfold contoursFromEdges
        dsimp only
        rw [h1]
      · intro x hx
        rw [g1] at hx
        exact (h2 x ((g2.cons_cons c).subset hx)).1

/-- **C166.** If, besides, no edge is taken for another one and every place is the extremity of an even number of edges, as for the boundaries
of faces, every contour is closed. -/
theorem C166_closed_contours [DecidableEq P] (sameEdge : E → E → Bool) (superposing : List E → List E → Bool)
    (hsame : SameExtremities (k := k) sameEdge) (hself : ∀ p, k.dist p p = 0) (edges : List E) (ht : CloseTransitive k edges)
    (hnd : ∀ e ∈ edges, ¬ Close k (k.start e) (k.fin e)) (hns : edges.Pairwise (NeverSame (k := k) sameEdge))
    (heven : ∀ p, IsExtremityOf k edges p → Even (ends k (1 / 10 ^ 6) p edges)) :
    ∃ res, contoursFromEdges k sameEdge superposing (1 / 10 ^ 6) edges = .ok res ∧ ∀ c ∈ res, SimpleContour k c ∧ ClosedContour (k := k) c := by
  match edges with
  | [] => exact ⟨[], rfl, by simp⟩
  | [e] =>
    exfalso
    have h10 : (0 : K) ≤ 1 / 10 ^ 6 := by positivity
    have hx := heven (k.start e) ⟨e, by simp, Or.inl rfl⟩
    have hno : ¬ k.dist (k.fin e) (k.start e) ≤ 1 / 10 ^ 6 := fun hc => hnd e (by simp) (Close.symm hc)
    simp only [ends, List.map_cons, List.map_nil, List.sum_cons, List.sum_nil, hself, if_pos h10, if_neg hno] at hx
    exact absurd hx (by decide)
  | e :: e2 :: es =>
    rw [List.pairwise_cons] at hns
    obtain ⟨all, h1, h2⟩ := contourLoop_simple sameEdge hsame hself (e :: e2 :: es) ht hnd True ((e2 :: es).length + 1) (e2 :: es)
      [k.start e, k.fin e] [e] [] (by simp) (fun x hx => List.mem_cons_of_mem _ hx) (by simp) (List.isChain_singleton e)
      (recorded_start hself hnd (by positivity) (by simp)) (fun _ => ⟨fun p hp => by
        have := heven p hp
        rwa [← List.singleton_append, ends_append] at this, fun x hx f hf => by
        rw [List.mem_singleton] at hx
        rw [hx]; exact (hns.1 f hf).2.1, hns.2⟩) (by simp)
    obtain ⟨new, l, h3, -, -, h4, -⟩ := contourLoop_parts k sameEdge (by positivity : (0 : K) ≤ 1 / 10 ^ 6) _ _ _ _ _ _ (List.isChain_singleton e) h1
    rcases all with _ | ⟨c, cs⟩
    · rw [List.nil_append] at h3; exact absurd h3.symm h4
    · obtain ⟨nw, g1, g2, -, -⟩ := keepDifferent_spec superposing cs [c]
      refine ⟨keepDifferent superposing [c] cs, ?_, ?_⟩
      · unfold contoursFromEdges
        dsimp only
        rw [h1]
      · intro x hx
        rw [g1] at hx
        obtain ⟨u, v⟩ := h2 x ((g2.cons_cons c).subset hx)
        exact ⟨u, v trivial⟩

/-! ## Examples: edges between numbered places -/

/-- Edges between numbered places at distance one from each other. -/
def C166_graph : EdgeKit (ℤ × ℤ) ℤ ℚ where
  start := Prod.fst
  fin := Prod.snd
  reverse := Prod.swap
  length _ := 1
  pointAt e _ := e.1
  edgeClose e e' _ := decide (e = e')
  dist p q := if p = q then 0 else 1
  reverse_start _ := rfl
  reverse_fin _ := rfl
  reverse_length _ := rfl
  length_nonneg _ := by norm_num
  dist_nonneg p q := by split_ifs <;> norm_num
  dist_comm p q := by simp only [eq_comm]

/-- The same edge, in one direction or the other. -/
def C166_same (e f : ℤ × ℤ) : Bool := decide (e = f ∨ e = f.swap)

-- a figure of eight and a separate triangle, with the edges in disorder, and a bowl with a handle
example : contoursFromEdges C166_graph C166_same (fun _ _ => false) (1 / 10 ^ 6) [(0, 1), (5, 6), (2, 1), (2, 0), (0, 3), (7, 6), (4, 3), (0, 4), (5, 7)] =
    .ok [[(0, 1), (1, 2), (2, 0)], [(5, 6), (6, 7), (7, 5)], [(0, 3), (3, 4), (4, 0)]] := by decide +kernel

example : contoursFromEdges C166_graph C166_same (fun _ _ => false) (1 / 10 ^ 6) [(9, 0), (0, 1), (2, 1), (2, 0)] =
    .ok [[(0, 1), (1, 2), (2, 0)], [(9, 0)]] := by decide +kernel

lemma C166_close {p q : ℤ} (h : Close C166_graph p q) : p = q := by
  by_contra hne
  have : (1 : ℚ) ≤ 1 / 10 ^ 6 := by
    have h' : C166_graph.dist p q ≤ 1 / 10 ^ 6 := h
    simpa [C166_graph, hne] using h'
  norm_num at this

/-- The hypotheses of `C166_closed_contours` are met by a figure of eight. -/
example : ∃ res, contoursFromEdges C166_graph C166_same (fun _ _ => false) (1 / 10 ^ 6) [(0, 1), (2, 1), (2, 0), (0, 3), (4, 3), (0, 4)] = .ok res ∧
    ∀ c ∈ res, SimpleContour C166_graph c ∧ ClosedContour (k := C166_graph) c := by
  apply C166_closed_contours
  · intro e f h
    have hr : ∀ p : ℤ, Close C166_graph p p := fun p => by
      show C166_graph.dist p p ≤ 1 / 10 ^ 6
      simp [C166_graph]
    unfold C166_same at h
    rw [decide_eq_true_eq] at h
    rcases h with rfl | rfl
    · exact Or.inl ⟨hr _, hr _⟩
    · exact Or.inr ⟨hr _, hr _⟩
  · intro p; simp [C166_graph]
  · intro p q r _ _ _ h1 h2
    rw [C166_close h1]; exact h2
  · intro e he hc
    have := C166_close hc
    clear hc
    revert e
    decide +kernel
  · unfold NeverSame
    decide +kernel
  · rintro p ⟨e, he, hp⟩
    have : p = 0 ∨ p = 1 ∨ p = 2 ∨ p = 3 ∨ p = 4 := by
      fin_cases he <;> simp [C166_graph] at hp <;> omega
    rcases this with rfl | rfl | rfl | rfl | rfl <;> decide +kernel

/-- Every contour is simple. -/
def C166_simple_full_statement : Prop :=
  ∀ (edges : List (ℤ × ℤ)) (res : List (List (ℤ × ℤ))), contoursFromEdges C166_graph C166_same (fun _ _ => false) (1 / 10 ^ 6) edges = .ok res →
    ∀ c ∈ res, SimpleContour C166_graph c

/-- **C166 (counterexample).** With an edge whose two extremities are at the same place, it is not: a contour can be made of a closed edge and
of the open chain which leaves from it. -/
theorem C166_simple_counterexample :
    contoursFromEdges C166_graph C166_same (fun _ _ => false) (1 / 10 ^ 6) [(0, 0), (0, 1), (1, 2)] = .ok [[(0, 0), (0, 1), (1, 2)]] ∧
    ¬ C166_simple_full_statement := by
  have h : contoursFromEdges C166_graph C166_same (fun _ _ => false) (1 / 10 ^ 6) [(0, 0), (0, 1), (1, 2)] = .ok [[(0, 0), (0, 1), (1, 2)]] := by
    decide +kernel
  refine ⟨h, fun hc => ?_⟩
  have := (hc _ _ h _ (List.mem_singleton.2 rfl)).distinct
  rw [List.pairwise_cons] at this
  refine this.1 (0, 1) (by simp) ?_
  show C166_graph.dist 0 0 ≤ 1 / 10 ^ 6
  decide +kernel

end Volmdlr.Wire
