import Verif.Wire.OrderProps
import Mathlib.Data.Rat.Floor
import Mathlib.Algebra.BigOperators.Group.List.Lemmas
import Mathlib.Tactic.FieldSimp

/-!
# C51 (contours), C52 (abscissas), C65 (inversion) and C66 (ordering edges of a STEP contour)
-/

namespace Volmdlr.Wire

variable {E P K : Type} [Field K] [LinearOrder K] [IsStrictOrderedRing K] (k : EdgeKit E P K)

/-! ## C51: contours -/

/-- Parity of the number of extremities at a point, along a chain. -/
lemma ends_parity {tol : K} (X : P → Prop)
    (htrans : ∀ p q r, X p → X q → X r → k.dist p q ≤ tol → k.dist q r ≤ tol → k.dist p r ≤ tol) (p : P) (hXp : X p) :
    ∀ (l : List E) (first last : E), (∀ e ∈ l, X (k.start e) ∧ X (k.fin e)) → l.IsChain (Follows k tol) →
    first ∈ l.head? → last ∈ l.getLast? →
    ends k tol p l % 2 = ((if k.dist (k.start first) p ≤ tol then 1 else 0) + if k.dist (k.fin last) p ≤ tol then 1 else 0) % 2 := by
  intro l
  induction l with
  | nil => intro first last _ _ hf; simp at hf
  | cons a l ih =>
    intro first last hX hch hf hl
    simp at hf; subst hf
    rcases l with _ | ⟨b, l⟩
    · simp at hl; subst hl
      simp [ends]
    · rw [List.isChain_cons_cons] at hch
      obtain ⟨hab, hch⟩ := hch
      have hXa := hX a List.mem_cons_self
      have hXb := hX b (List.mem_cons_of_mem _ List.mem_cons_self)
      have hl' : last ∈ (b :: l).getLast? := by simpa using hl
      have := ih b last (fun e he => hX e (List.mem_cons_of_mem _ he)) hch (by simp) hl'
      have hiff : k.dist (k.fin a) p ≤ tol ↔ k.dist (k.start b) p ≤ tol := by
        constructor
        · exact fun h => htrans _ (k.fin a) _ hXb.1 hXa.2 hXp (by rw [k.dist_comm]; exact hab) h
        · exact fun h => htrans _ (k.start b) _ hXa.2 hXb.1 hXp hab h
      have e : ends k tol p (a :: b :: l) = ((if k.dist (k.start a) p ≤ tol then 1 else 0) + if k.dist (k.fin a) p ≤ tol then 1 else 0) +
          ends k tol p (b :: l) := by
        simp only [ends, List.map_cons, List.sum_cons]
      rw [e]
      simp only [hiff]
      omega

/-- **C51.** Ordering the edges of a closed contour gives a closed contour: if at every extremity of an edge there is an even number of
extremities (and closeness is transitive on them), then the last edge of the result ends where the first one starts. -/
theorem C51_closed_contour [DecidableEq E] {tol : K} (htol : 0 ≤ tol) (prims res : List E)
    (htrans : ∀ p q r, IsExtremityOf k prims p → IsExtremityOf k prims q → IsExtremityOf k prims r →
      k.dist p q ≤ tol → k.dist q r ≤ tol → k.dist p r ≤ tol)
    (hlen : ∀ e ∈ prims, tol < k.length e) (heven : ∀ p, IsExtremityOf k prims p → ends k tol p prims % 2 = 0)
    (hself : ∀ p, k.dist p p ≤ tol) (h : orderingPrimitives k tol prims = .ok res) :
    ∃ first ∈ res.head?, ∃ last ∈ res.getLast?, k.dist (k.fin last) (k.start first) ≤ tol := by
  obtain ⟨hch, l, hl, hu⟩ := C51_ordering_primitives k htol prims res h
  rw [List.filter_eq_self.2 (fun e he => by simpa using hlen e he)] at hl
  have hresX : ∀ e ∈ res, IsExtremityOf k prims (k.start e) ∧ IsExtremityOf k prims (k.fin e) := by
    have hlX : ∀ e ∈ l, IsExtremityOf k prims (k.start e) ∧ IsExtremityOf k prims (k.fin e) := fun e he =>
      ⟨⟨e, hl.subset he, Or.inl rfl⟩, ⟨e, hl.subset he, Or.inr rfl⟩⟩
    clear * - hu hlX
    induction hu with
    | nil => simp
    | cons hab _ ih =>
      intro e he
      rcases List.mem_cons.1 he with rfl | h
      · have := hlX _ List.mem_cons_self
        rcases hab with rfl | rfl
        · exact this
        · rw [k.reverse_start, k.reverse_fin]; exact this.symm
      · exact ih (fun e he => hlX e (List.mem_cons_of_mem _ he)) e h
  have hne : res ≠ [] := by
    rintro rfl
    have h0 : l = [] := List.length_eq_zero_iff.1 (List.Forall₂.length_eq hu)
    rw [h0] at hl
    have h1 : prims = [] := hl.nil_eq.symm
    rw [h1] at h
    simp [orderingPrimitives, notDegenerate] at h
  have hf : res.head hne ∈ res.head? := List.head?_eq_some_head hne
  have hla : res.getLast hne ∈ res.getLast? := List.getLast?_eq_some_getLast hne
  refine ⟨_, hf, _, hla, ?_⟩
  have hX0 := (hresX _ (List.head_mem hne)).1
  have hp := ends_parity k _ htrans _ hX0 res _ _ hresX hch hf hla
  rw [ends_orientation k tol _ hu, ends_perm k tol _ hl, heven _ hX0, if_pos (hself _)] at hp
  by_contra hc
  rw [if_neg hc] at hp
  omega

/-- **C51.** `order_contour` gives the list itself, or a chain made of its edges longer than the tolerance each used once. -/
theorem C51_order_contour [DecidableEq E] (sameEdge : E → E → Bool) {tol : K} (htol : 0 ≤ tol) (prims res : List E)
    (h : orderContour k sameEdge tol prims = .ok res) :
    (res = prims ∧ (contourIsOrdered k sameEdge tol prims = .ok true ∨ prims.length < 2)) ∨
    (res.IsChain (Follows k tol) ∧
      ∃ l, l.Perm (prims.filter fun e => decide (tol < k.length e)) ∧ UpToOrientation k l res) := by
  unfold orderContour at h
  rcases hc : contourIsOrdered k sameEdge tol prims with err | b
  · rw [hc] at h; cases h
  · rw [hc] at h
    dsimp only at h
    by_cases hb : b = true ∨ prims.length < 2
    · rw [if_pos hb] at h
      obtain rfl := Except.ok.inj h
      left
      refine ⟨rfl, ?_⟩
      rcases hb with rfl | hb
      · exact Or.inl rfl
      · exact Or.inr hb
    · rw [if_neg hb] at h
      exact Or.inr (C51_ordering_primitives k htol prims res h)

/-- A square (on a line of length four closed on itself would need two dimensions): the triangle inequality degenerate loop
`0 - 1 - 3 - 0` of segments of a line, in disorder, closes. -/
example : orderingPrimitives C51_segments (1 / 10) [(1, 0), (3, 0), (1, 3)] = .ok [(1, 0), (0, 3), (3, 1)] := by
  decide +kernel

example : ∀ p ∈ [(0 : ℚ), 1, 3], ends C51_segments (1 / 10) p [(1, 0), (3, 0), (1, 3)] % 2 = 0 := by
  decide +kernel

/-- Remark: edges which can be put in a chain may be refused, when more than two of them meet at a point: `1 → 2` is followed by
`2 → 4` and the loop `2 → 3 → 2` is left over. -/
theorem C51_orderable_but_refused :
    orderingPrimitives C51_segments (1 / 10) [(1, 2), (2, 4), (2, 3), (3, 2)] = .error .notImplemented ∧
    [((1 : ℚ), (2 : ℚ)), (2, 3), (3, 2), (2, 4)].IsChain (Follows C51_segments (1 / 10)) := by
  constructor
  · decide +kernel
  · rw [← wireIsOrdered_iff]
    decide +kernel

/-! ## C52: abscissas -/

lemma foldl_length (l : List E) (acc : K) : l.foldl (fun length e => length + k.length e) acc = acc + (l.map k.length).sum := by
  induction l generalizing acc with
  | nil => simp
  | cons a l ih => rw [List.foldl_cons, ih, List.map_cons, List.sum_cons]; ring

/-- **C52.** The length of a wire is the sum of the lengths of its edges. -/
theorem C52_length (prims : List E) : wireLength k prims = (prims.map k.length).sum := by
  unfold wireLength; rw [foldl_length]; simp

lemma pointAtLoop_spec (s : K) : ∀ (l : List E) (acc : K), acc ≤ s →
    (∃ before e after, l = before ++ e :: after ∧ acc + (before.map k.length).sum ≤ s ∧
      s < acc + (before.map k.length).sum + k.length e ∧
      pointAtLoop k s acc l = .inr (k.pointAt e (s - (acc + (before.map k.length).sum)))) ∨
    (acc + (l.map k.length).sum ≤ s ∧ pointAtLoop k s acc l = .inl (acc + (l.map k.length).sum)) := by
  intro l
  induction l with
  | nil => intro acc h; right; simp [pointAtLoop, h]
  | cons a l ih =>
    intro acc h
    rw [show pointAtLoop k s acc (a :: l) =
      if acc + k.length a > s then .inr (k.pointAt a (s - acc)) else pointAtLoop k s (acc + k.length a) l from rfl]
    by_cases hc : acc + k.length a > s
    · rw [if_pos hc]
      left
      exact ⟨[], a, l, rfl, by simpa using h, by simpa using hc, by simp⟩
    · rw [if_neg hc]
      rcases ih (acc + k.length a) (not_lt.1 hc) with ⟨before, e, after, rfl, h1, h2, h3⟩ | ⟨h1, h2⟩
      · left
        have e1 : acc + ((a :: before).map k.length).sum = acc + k.length a + (before.map k.length).sum := by
          rw [List.map_cons, List.sum_cons]; ring
        exact ⟨a :: before, e, after, rfl, by rw [e1]; exact h1, by rw [e1]; exact h2, by rw [e1]; exact h3⟩
      · right
        have e1 : acc + ((a :: l).map k.length).sum = acc + k.length a + (l.map k.length).sum := by
          rw [List.map_cons, List.sum_cons]; ring
        rw [e1]
        exact ⟨h1, h2⟩

/-- **C52.** For every abscissa `s` in `[0, length)`, `point_at_abscissa(s)` is the point of the edge whose piece of the wire contains
`s`, at its local abscissa: `s` minus the lengths of the edges before. -/
theorem C52_point_at_abscissa (prims : List E) (s : K) (h0 : 0 ≤ s) (hs : s < wireLength k prims) :
    ∃ before e after, prims = before ++ e :: after ∧ wireLength k before ≤ s ∧ s < wireLength k before + k.length e ∧
      pointAtAbscissa k prims s = .ok (k.pointAt e (s - wireLength k before)) := by
  rcases pointAtLoop_spec k s prims 0 h0 with ⟨before, e, after, hp, h1, h2, h3⟩ | ⟨h1, h2⟩
  · refine ⟨before, e, after, hp, ?_, ?_, ?_⟩
    · rw [C52_length]; simpa using h1
    · rw [C52_length]; simpa using h2
    · unfold pointAtAbscissa
      rw [h3, C52_length, zero_add]
  · rw [C52_length] at hs
    rw [zero_add] at h1
    exact absurd hs (not_lt.2 h1)

/-- **C52.** At the length itself (and up to the tolerance beyond), the end of the last edge is returned. -/
theorem C52_end (prims : List E) (s : K) (hs : wireLength k prims ≤ s) (htol : s - wireLength k prims ≤ 1 / 10 ^ 6) (last : E)
    (hl : last ∈ prims.getLast?) : pointAtAbscissa k prims s = .ok (k.fin last) := by
  have h0 : 0 ≤ wireLength k prims := by
    rw [C52_length]
    exact List.sum_nonneg (by simpa using fun e _ => k.length_nonneg e)
  rcases pointAtLoop_spec k s prims 0 (le_trans h0 hs) with ⟨before, e, after, rfl, h1, h2, h3⟩ | ⟨h1, h2⟩
  · rw [C52_length] at hs
    rw [List.map_append, List.sum_append, List.map_cons, List.sum_cons] at hs
    have : 0 ≤ (after.map k.length).sum := List.sum_nonneg (by simpa using fun e _ => k.length_nonneg e)
    rw [zero_add] at h2
    linarith
  · unfold pointAtAbscissa
    rw [h2]
    dsimp only
    rw [zero_add, ← C52_length, if_pos, Option.mem_def.1 hl]
    unfold mathIsClose
    rw [decide_eq_true_iff, abs_of_nonneg (by linarith)]
    exact le_max_of_le_right htol

/-- **C52.** Beyond the length plus the tolerances (absolute `1e-6`, relative `1e-9`), `ValueError`. -/
theorem C52_out_of_wire (prims : List E) (s : K) (htol : wireLength k prims + 1 / 10 ^ 6 < s)
    (hrel : wireLength k prims + 1 / 10 ^ 9 * s < s) : pointAtAbscissa k prims s = .error .valueError := by
  have h0 : 0 ≤ wireLength k prims := by
    rw [C52_length]
    exact List.sum_nonneg (by simpa using fun e _ => k.length_nonneg e)
  have hpos : (0 : K) < 1 / 10 ^ 6 := by positivity
  rcases pointAtLoop_spec k s prims 0 (by linarith) with ⟨before, e, after, rfl, h1, h2, h3⟩ | ⟨h1, h2⟩
  · rw [C52_length] at htol
    rw [List.map_append, List.sum_append, List.map_cons, List.sum_cons] at htol
    have : 0 ≤ (after.map k.length).sum := List.sum_nonneg (by simpa using fun e _ => k.length_nonneg e)
    rw [zero_add] at h2
    linarith
  · unfold pointAtAbscissa
    rw [h2]
    dsimp only
    rw [zero_add, ← C52_length, if_neg]
    unfold mathIsClose
    rw [decide_eq_true_iff, not_le, abs_of_nonneg (by linarith : (0 : K) ≤ s - wireLength k prims), abs_of_nonneg (by linarith : (0 : K) ≤ s), abs_of_nonneg h0,
      max_eq_left (by linarith : wireLength k prims ≤ s)]
    exact max_lt (by linarith) (by linarith)

/-- The abscissas of `[0, length]` are all accepted. -/
lemma pointAt_ok (prims : List E) (hne : prims ≠ []) (s : K) (h0 : 0 ≤ s) (hs : s ≤ wireLength k prims) :
    ∃ p, pointAtAbscissa k prims s = .ok p := by
  rcases hs.lt_or_eq with h | h
  · obtain ⟨_, _, _, _, _, _, hp⟩ := C52_point_at_abscissa k prims s h0 h
    exact ⟨_, hp⟩
  · exact ⟨_, C52_end k prims s h.ge (by rw [h, sub_self]; positivity) _ (List.getLast?_eq_some_getLast hne)⟩

lemma mapM_ok {α β ε : Type} (f : α → Except ε β) (l : List α) (h : ∀ a ∈ l, ∃ b, f a = .ok b) :
    ∃ bs, l.mapM f = .ok bs ∧ List.Forall₂ (fun a b => f a = .ok b) l bs := by
  induction l with
  | nil => exact ⟨[], rfl, List.Forall₂.nil⟩
  | cons a l ih =>
    obtain ⟨b, hb⟩ := h a List.mem_cons_self
    obtain ⟨bs, hbs, hf⟩ := ih fun a ha => h a (List.mem_cons_of_mem _ ha)
    refine ⟨b :: bs, ?_, List.Forall₂.cons hb hf⟩
    rw [List.mapM_cons, hb]
    show (do let bs ← l.mapM f; pure (b :: bs) : Except ε (List β)) = _
    rw [hbs]
    rfl

/-- **C52.** The discretization of a non empty wire in `n ≥ 1` intervals has `n + 1` points, the point of index `i` being at the
abscissa `i / n` times the length; the last one is the end of the last edge. -/
theorem C52_discretization (prims : List E) (n : ℕ) (hn : n ≠ 0) (last : E) (hl : last ∈ prims.getLast?) :
    ∃ points, discretizationPoints k prims n = .ok points ∧ points.length = n + 1 ∧
      (∀ i (hi : i < points.length), pointAtAbscissa k prims ((i : K) / n * wireLength k prims) = .ok points[i]) ∧
      points.getLast? = some (k.fin last) := by
  have hne : prims ≠ [] := by rintro rfl; simp at hl
  have hn' : (0 : K) < n := by exact_mod_cast Nat.pos_of_ne_zero hn
  have h0 : 0 ≤ wireLength k prims := by
    rw [C52_length]
    exact List.sum_nonneg (by simpa using fun e _ => k.length_nonneg e)
  obtain ⟨bs, hbs, hf⟩ := mapM_ok (fun i : ℕ => pointAtAbscissa k prims ((i : K) / n * wireLength k prims)) (List.range (n + 1)) (by
    intro i hi
    rw [List.mem_range] at hi
    have hi' : (i : K) ≤ n := by exact_mod_cast Nat.lt_succ_iff.1 hi
    refine pointAt_ok k prims hne _ (mul_nonneg (div_nonneg (Nat.cast_nonneg _) hn'.le) h0) ?_
    calc (i : K) / n * wireLength k prims ≤ 1 * wireLength k prims :=
          mul_le_mul_of_nonneg_right ((div_le_one hn').2 hi') h0
      _ = _ := one_mul _)
  have hlen : bs.length = n + 1 := by
    have := List.Forall₂.length_eq hf
    rw [List.length_range] at this
    exact this.symm
  have hget : ∀ i (hi : i < bs.length), pointAtAbscissa k prims ((i : K) / n * wireLength k prims) = .ok bs[i] := by
    intro i hi
    have := (List.forall₂_iff_get.1 hf).2 i (by rw [List.length_range]; omega) hi
    simpa using this
  refine ⟨bs, ?_, hlen, hget, ?_⟩
  · unfold discretizationPoints
    rw [if_neg hn, hbs]
  · have hg := hget n (by omega)
    have e : (n : K) / n * wireLength k prims = wireLength k prims := by field_simp
    rw [e, C52_end k prims _ le_rfl (by rw [sub_self]; positivity) last hl] at hg
    rw [List.getLast?_eq_getElem?, hlen, Nat.add_sub_cancel, List.getElem?_eq_getElem (by omega), ← Except.ok.inj hg]

/-- **C52.** If the first edge has a positive length, the discretization starts at its start. -/
theorem C52_discretization_start (hk : ∀ e, k.pointAt e 0 = k.start e) (first : E) (rest : List E) (hpos : 0 < k.length first)
    (n : ℕ) (points : List P) (h : discretizationPoints k (first :: rest) n = .ok points) :
    points.head? = some (k.start first) := by
  by_cases hn : n = 0
  · unfold discretizationPoints at h
    rw [if_pos hn] at h
    cases h
  · obtain ⟨points', h1, h2, h3, h4⟩ := C52_discretization k (first :: rest) n hn _ (List.getLast?_eq_some_getLast (by simp))
    rw [h1] at h
    obtain rfl := Except.ok.inj h
    have := h3 0 (by omega)
    rw [Nat.cast_zero, zero_div, zero_mul] at this
    have e : pointAtAbscissa k (first :: rest) 0 = .ok (k.pointAt first 0) := by
      unfold pointAtAbscissa
      rw [show pointAtLoop k 0 0 (first :: rest) = if 0 + k.length first > 0 then .inr (k.pointAt first (0 - 0))
        else pointAtLoop k 0 (0 + k.length first) rest from rfl, if_pos (by simpa using hpos), sub_zero]
    rw [e, hk] at this
    rw [List.head?_eq_getElem?, List.getElem?_eq_getElem (by omega), ← Except.ok.inj this]

/-- One interval less than one: `number_points = 1` raises `ZeroDivisionError`. -/
theorem C52_one_point (prims : List E) : discretizationPoints k prims 0 = .error .zeroDivision := rfl

/-- **C52.** Going from the abscissa to the point and back: if the edge containing the abscissa `s` is the first one containing the
point, and if its own abscissa is right, `abscissa(point_at_abscissa(s)) = s`. -/
theorem C52_round_trip (belongs : E → P → Bool) (abscissa : E → P → K) (before after : List E) (e : E) (t : K)
    (hb : ∀ e' ∈ before, belongs e' (k.pointAt e t) = false) (he : belongs e (k.pointAt e t) = true)
    (ha : abscissa e (k.pointAt e t) = t) (h0 : 0 ≤ t) (ht : t < k.length e) :
    let s := wireLength k before + t
    ∃ p, pointAtAbscissa k (before ++ e :: after) s = .ok p ∧ wireAbscissa k belongs abscissa (before ++ e :: after) p = .ok s := by
  intro s
  have hnn : ∀ l : List E, 0 ≤ wireLength k l := by
    intro l
    rw [C52_length]
    exact List.sum_nonneg (by simpa using fun e _ => k.length_nonneg e)
  refine ⟨k.pointAt e t, ?_, ?_⟩
  · have key : ∀ (l : List E) (acc : K), pointAtLoop k (acc + wireLength k l + t) acc (l ++ e :: after) = .inr (k.pointAt e t) := by
      intro l
      induction l with
      | nil =>
        intro acc
        rw [List.nil_append, show pointAtLoop k (acc + wireLength k [] + t) acc (e :: after) =
          if acc + k.length e > acc + wireLength k [] + t then .inr (k.pointAt e (acc + wireLength k [] + t - acc))
          else pointAtLoop k (acc + wireLength k [] + t) (acc + k.length e) after from rfl]
        rw [show wireLength k ([] : List E) = 0 from rfl, add_zero, if_pos (by linarith)]
        congr 2
        ring
      | cons a l ih =>
        intro acc
        have e1 : wireLength k (a :: l) = k.length a + wireLength k l := by
          rw [C52_length, C52_length, List.map_cons, List.sum_cons]
        rw [List.cons_append, show ∀ s', pointAtLoop k s' acc (a :: (l ++ e :: after)) =
          if acc + k.length a > s' then .inr (k.pointAt a (s' - acc))
          else pointAtLoop k s' (acc + k.length a) (l ++ e :: after) from fun _ => rfl]
        rw [if_neg, e1, ← add_assoc, ih]
        rw [e1, gt_iff_lt, not_lt]
        have := hnn l
        linarith
    unfold pointAtAbscissa
    have := key before 0
    rw [zero_add] at this
    rw [this]
  · unfold wireAbscissa
    rw [if_pos (by rw [List.any_eq_true]; exact ⟨e, by simp, he⟩)]
    congr 1
    have key : ∀ (l : List E) (acc : K), (∀ e' ∈ l, belongs e' (k.pointAt e t) = false) →
        wireAbscissa.loop k belongs abscissa (k.pointAt e t) acc (l ++ e :: after) = acc + wireLength k l + t := by
      intro l
      induction l with
      | nil =>
        intro acc _
        rw [List.nil_append, show wireAbscissa.loop k belongs abscissa (k.pointAt e t) acc (e :: after) =
          if belongs e (k.pointAt e t) then acc + abscissa e (k.pointAt e t)
          else wireAbscissa.loop k belongs abscissa (k.pointAt e t) (acc + k.length e) after from rfl, if_pos he, ha]
        rw [show wireLength k ([] : List E) = 0 from rfl, add_zero]
      | cons a l ih =>
        intro acc hall
        have e1 : wireLength k (a :: l) = k.length a + wireLength k l := by
          rw [C52_length, C52_length, List.map_cons, List.sum_cons]
        rw [List.cons_append, show wireAbscissa.loop k belongs abscissa (k.pointAt e t) acc (a :: (l ++ e :: after)) =
          if belongs a (k.pointAt e t) then acc + abscissa a (k.pointAt e t)
          else wireAbscissa.loop k belongs abscissa (k.pointAt e t) (acc + k.length a) (l ++ e :: after) from rfl,
          if_neg (by rw [hall a List.mem_cons_self]; simp), ih _ (fun e' he' => hall e' (List.mem_cons_of_mem _ he')), e1]
        ring
    rw [key before 0 hb, zero_add]

/-- Two segments of a line: the point at abscissa 3/2. -/
example : pointAtAbscissa C51_segments [(0, 1), (1, 3)] (3 / 2) = .ok (3 / 2) ∧
    pointAtAbscissa C51_segments [(0, 1), (1, 3)] 3 = .ok 3 ∧
    pointAtAbscissa C51_segments [(0, 1), (1, 3)] 4 = .error .valueError ∧
    (0 : ℚ) ≤ 3 / 2 ∧ (3 / 2 : ℚ) < wireLength C51_segments [(0, 1), (1, 3)] := by
  decide +kernel

example : discretizationPoints C51_segments [(0, 1), (1, 3)] 3 = .ok [0, 1, 2, 3] := by decide +kernel

/-- Remark: a negative abscissa is not refused, it is given to the first edge which has a positive length. -/
theorem C52_negative_abscissa (first : E) (rest : List E) (s : K) (hs : s < 0) :
    pointAtAbscissa k (first :: rest) s = .ok (k.pointAt first s) := by
  unfold pointAtAbscissa
  have := k.length_nonneg first
  rw [show pointAtLoop k s 0 (first :: rest) = if 0 + k.length first > s then .inr (k.pointAt first (s - 0))
        else pointAtLoop k s (0 + k.length first) rest from rfl, if_pos (by linarith), sub_zero]

/-! ## C65: inversion -/

/-- **C65.** Inverting a wire: same length, the extremities exchanged, ordered if and only if the wire was. -/
theorem C65_invert (prims : List E) (tol : K) :
    wireLength k (invert k prims) = wireLength k prims ∧
    (invert k prims).head?.map k.start = prims.getLast?.map k.fin ∧
    (invert k prims).getLast?.map k.fin = prims.head?.map k.start ∧
    (wireIsOrdered k tol (invert k prims) = true ↔ wireIsOrdered k tol prims = true) := by
  refine ⟨?_, ?_, ?_, ?_⟩
  · rw [C52_length, C52_length]
    unfold invert
    rw [List.map_map, ← List.map_reverse.symm, show k.length ∘ k.reverse = k.length from funext k.reverse_length]
    exact (List.map_reverse ▸ (List.reverse_perm _).sum_eq)
  · unfold invert
    rw [List.head?_map, List.head?_reverse, Option.map_map, show k.start ∘ k.reverse = k.fin from funext k.reverse_start]
  · unfold invert
    rw [List.getLast?_map, List.getLast?_reverse, Option.map_map, show k.fin ∘ k.reverse = k.start from funext k.reverse_fin]
  · rw [wireIsOrdered_iff, wireIsOrdered_iff]
    unfold invert
    rw [List.isChain_map, List.isChain_reverse]
    apply iff_of_eq
    congr 1
    funext a b
    unfold Follows
    rw [k.reverse_fin, k.reverse_start, k.dist_comm]

/-- **C65.** Inverting twice gives back the wire when reversing an edge twice gives back the edge. -/
theorem C65_invert_invert (prims : List E) (hrev : ∀ e, k.reverse (k.reverse e) = e) : invert k (invert k prims) = prims := by
  unfold invert
  rw [← List.map_reverse, List.reverse_reverse, List.map_map, show k.reverse ∘ k.reverse = id from funext hrev, List.map_id]

/-- **C65.** The point at abscissa `s` of the inverted wire is the point at abscissa `length - s` of the wire, wherever that is inside of
an edge and when this holds of the edges. -/
theorem C65_invert_point (hrev : ∀ e s, 0 ≤ s → s ≤ k.length e → k.pointAt (k.reverse e) s = k.pointAt e (k.length e - s))
    (before after : List E) (e : E) (t : K) (h0 : 0 < t) (ht : t < k.length e) :
    ∃ p, pointAtAbscissa k (before ++ e :: after) (wireLength k before + t) = .ok p ∧
      pointAtAbscissa k (invert k (before ++ e :: after)) (wireLength k (before ++ e :: after) - (wireLength k before + t)) = .ok p := by
  obtain ⟨p, hp, -⟩ := C52_round_trip k (fun _ _ => true) (fun _ _ => t) [] [] e t (by simp) rfl rfl h0.le ht
  have key : ∀ (l l' : List E) (e : E) (t : K), 0 ≤ t → t < k.length e →
      pointAtAbscissa k (l ++ e :: l') (wireLength k l + t) = .ok (k.pointAt e t) := by
    intro l l' e t h0 ht
    obtain ⟨b', e', a', h1, h2, h3, h4⟩ := C52_point_at_abscissa k (l ++ e :: l') (wireLength k l + t) (by
        have : 0 ≤ wireLength k l := by
          rw [C52_length]; exact List.sum_nonneg (by simpa using fun e _ => k.length_nonneg e)
        linarith) (by
        rw [C52_length, C52_length, List.map_append, List.sum_append, List.map_cons, List.sum_cons]
        have : 0 ≤ (l'.map k.length).sum := List.sum_nonneg (by simpa using fun e _ => k.length_nonneg e)
        linarith)
    rw [h4]
    -- both decompositions are the same piece of the wire
    have hcmp : b' = l ∧ e' = e := by
      clear h4 hp
      rw [C52_length, C52_length] at h2 h3
      have nn : ∀ m : List E, 0 ≤ (m.map k.length).sum := fun m => List.sum_nonneg (by simpa using fun e _ => k.length_nonneg e)
      induction l generalizing b' with
      | nil =>
        rcases b' with _ | ⟨c, b'⟩
        · simp at h1; exact ⟨rfl, h1.1.symm⟩
        · simp at h1
          obtain ⟨rfl, h1⟩ := h1
          rw [List.map_cons, List.sum_cons] at h2
          simp at h2
          have := nn b'
          linarith
      | cons c l ih =>
        rcases b' with _ | ⟨c', b'⟩
        · simp at h1
          obtain ⟨rfl, h1⟩ := h1
          rw [List.map_cons, List.sum_cons] at h3
          simp at h3
          have := nn l
          linarith
        · simp at h1
          obtain ⟨rfl, h1⟩ := h1
          rw [List.map_cons, List.sum_cons, List.map_cons, List.sum_cons] at h2 h3
          obtain ⟨h, h'⟩ := ih b' h1 (by linarith) (by linarith)
          exact ⟨by rw [h], h'⟩
    obtain ⟨rfl, rfl⟩ := hcmp
    congr 2
    ring
  refine ⟨k.pointAt e t, key before after e t h0.le ht, ?_⟩
  have e1 : invert k (before ++ e :: after) = invert k after ++ k.reverse e :: invert k before := by
    unfold invert
    simp
  have e2 : wireLength k (before ++ e :: after) - (wireLength k before + t) = wireLength k (invert k after) + (k.length e - t) := by
    rw [(C65_invert k after 0).1, C52_length, C52_length, C52_length, List.map_append, List.sum_append, List.map_cons, List.sum_cons]
    ring
  rw [e1, e2, key _ _ _ _ (by linarith) (by rw [k.reverse_length]; linarith), hrev e _ (by linarith) (by linarith)]
  congr 2
  ring

example : invert C51_segments [(0, 1), (1, 3)] = [(3, 1), (1, 0)] := by decide +kernel

/-! ## C66: ordering the edges of a STEP contour -/

lemma argmin_lt : ∀ (l : List K), l ≠ [] → argmin l < l.length ∧ ∀ x ∈ l, ∃ y ∈ l[argmin l]?, y ≤ x := by
  intro l
  induction l with
  | nil => intro h; exact absurd rfl h
  | cons a l ih =>
    intro _
    rcases l with _ | ⟨b, l⟩
    · refine ⟨by simp [argmin], ?_⟩
      intro x hx
      simp at hx
      exact ⟨a, by simp [argmin], hx.ge⟩
    · rw [show argmin (a :: b :: l) = if ∀ x ∈ b :: l, a ≤ x then 0 else argmin (b :: l) + 1 from rfl]
      by_cases h : ∀ x ∈ b :: l, a ≤ x
      · rw [if_pos h]
        refine ⟨by simp, fun x hx => ⟨a, by simp, ?_⟩⟩
        rcases List.mem_cons.1 hx with rfl | hx
        · exact le_rfl
        · exact h x hx
      · rw [if_neg h]
        obtain ⟨h1, h2⟩ := ih (by simp)
        refine ⟨by simpa using h1, fun x hx => ?_⟩
        rcases List.mem_cons.1 hx with rfl | hx
        · push Not at h
          obtain ⟨y, hy, hlt⟩ := h
          obtain ⟨z, hz, hzy⟩ := h2 y hy
          exact ⟨z, by simpa using hz, le_trans hzy hlt.le⟩
        · obtain ⟨z, hz, hzx⟩ := h2 x hx
          exact ⟨z, by simpa using hz, hzx⟩

lemma argmin_two (a b : K) : (argmin [a, b] = 0 → a = min a b) ∧ (argmin [a, b] ≠ 0 → b = min a b) := by
  rw [show argmin [a, b] = if ∀ x ∈ [b], a ≤ x then 0 else argmin [b] + 1 from rfl]
  by_cases h : a ≤ b
  · rw [if_pos (by simpa using h)]
    exact ⟨fun _ => (min_eq_left h).symm, fun hc => absurd rfl hc⟩
  · rw [if_neg (by simpa using h)]
    exact ⟨fun hc => by simp [argmin] at hc, fun _ => (min_eq_right (not_le.1 h).le).symm⟩

/-- The edges of `res` are those of `raw`, in order and up to orientation, except that edges may be left out. -/
def SubUpToOrientation (raw res : List E) : Prop := ∃ l, l.Sublist raw ∧ UpToOrientation k l res

lemma connectNext_spec (sameEdge : E → E → Bool) : ∀ (es : List E) (last : E) (new res used : List E),
    last ∈ new.getLast? → new.IsChain (Follows k (1 / 10 ^ 3)) → UpToOrientation k used new →
    connectNext k sameEdge es last new = some res →
    res.IsChain (Follows k (1 / 10 ^ 3)) ∧ ∃ l, l.Sublist es ∧ UpToOrientation k (used ++ l) res ∧
      ((∀ e ∈ es, ∀ e', sameEdge e e' = false) → l = es) := by
  intro es
  induction es with
  | nil =>
    intro last new res used hl hch hu h
    simp only [connectNext] at h
    obtain rfl := Option.some.inj h
    exact ⟨hch, [], List.Sublist.slnil, by simpa using hu, fun _ => rfl⟩
  | cons e es ih =>
    intro last new res used hl hch hu h
    rw [show connectNext k sameEdge (e :: es) last new =
      if sameEdge e last then connectNext k sameEdge es last new
      else if min (k.dist (k.start e) (k.fin last)) (k.dist (k.fin e) (k.fin last)) > 1 / 10 ^ 3 then none
      else connectNext k sameEdge es
        (if argmin [k.dist (k.start e) (k.fin last), k.dist (k.fin e) (k.fin last)] = 0 then e else k.reverse e)
        (new ++ [if argmin [k.dist (k.start e) (k.fin last), k.dist (k.fin e) (k.fin last)] = 0 then e else k.reverse e]) from rfl] at h
    by_cases hs : sameEdge e last = true
    · rw [if_pos hs] at h
      obtain ⟨h1, l, h2, h3, h4⟩ := ih last new res used hl hch hu h
      refine ⟨h1, l, h2.trans (List.sublist_cons_self _ _), h3, fun hno => ?_⟩
      have := hno e List.mem_cons_self last
      rw [hs] at this
      cases this
    · rw [if_neg hs] at h
      by_cases hm : min (k.dist (k.start e) (k.fin last)) (k.dist (k.fin e) (k.fin last)) > 1 / 10 ^ 3
      · rw [if_pos hm] at h; cases h
      · rw [if_neg hm] at h
        rw [gt_iff_lt, not_lt] at hm
        obtain ⟨ha, hb⟩ := argmin_two (k.dist (k.start e) (k.fin last)) (k.dist (k.fin e) (k.fin last))
        by_cases hz : argmin [k.dist (k.start e) (k.fin last), k.dist (k.fin e) (k.fin last)] = 0
        · rw [if_pos hz] at h
          have hfol : Follows k (1 / 10 ^ 3) last e := by
            unfold Follows
            rw [k.dist_comm, ha hz]; exact hm
          obtain ⟨h1, l, h2, h3, h4⟩ := ih e (new ++ [e]) res (used ++ [e]) (by simp) (follows_append k hl hch hfol)
            (List.rel_append hu (List.Forall₂.cons (Or.inl rfl) List.Forall₂.nil)) h
          refine ⟨h1, e :: l, h2.cons_cons e, by simpa using h3, fun hno => ?_⟩
          rw [h4 fun e' he' => hno e' (List.mem_cons_of_mem _ he')]
        · rw [if_neg hz] at h
          have hfol : Follows k (1 / 10 ^ 3) last (k.reverse e) := by
            unfold Follows
            rw [k.reverse_start, k.dist_comm, hb hz]; exact hm
          obtain ⟨h1, l, h2, h3, h4⟩ := ih (k.reverse e) (new ++ [k.reverse e]) res (used ++ [e]) (by simp) (follows_append k hl hch hfol)
            (List.rel_append hu (List.Forall₂.cons (Or.inr rfl) List.Forall₂.nil)) h
          refine ⟨h1, e :: l, h2.cons_cons e, by simpa using h3, fun hno => ?_⟩
          rw [h4 fun e' he' => hno e' (List.mem_cons_of_mem _ he')]

lemma isReversedChain_spec (raw : List E) (h : isReversedChain k raw = true) : raw.reverse.IsChain (Follows k (1 / 10 ^ 6)) := by
  unfold isReversedChain at h
  generalize raw.reverse = l at h
  induction l with
  | nil => exact List.isChain_nil
  | cons a l ih =>
    rcases l with _ | ⟨b, l⟩
    · exact List.isChain_singleton _
    · rw [List.isChain_cons_cons]
      rw [List.tail_cons, List.zip_cons_cons, List.all_cons, Bool.and_eq_true, decide_eq_true_iff] at h
      refine ⟨?_, ih ?_⟩
      · unfold Follows
        rw [k.dist_comm]
        exact h.1.le
      · rw [List.tail_cons]
        exact h.2

/-- **C66.** When `reorder_contour3d_edges_from_step` returns a list, every edge of it starts within one thousandth of the end of the
previous one; its edges are, up to orientation, the given edges in the given order (or all of them in the opposite order), of which
only edges equal to the edge before (`direction_independent_is_close`) are left out. -/
theorem C66_reorder_from_step (sameEdge : E → E → Bool) (raw res : List E) (h : reorderFromStep k sameEdge raw = .ok (some res)) :
    res.IsChain (Follows k (1 / 10 ^ 3)) ∧
    (res = raw.reverse ∨ SubUpToOrientation k raw res) ∧
    ((∀ e ∈ raw, ∀ e', sameEdge e e' = false) → res = raw.reverse ∨ UpToOrientation k raw res) := by
  unfold reorderFromStep at h
  by_cases hr : isReversedChain k raw = true
  · rw [if_pos hr] at h
    obtain rfl := Option.some.inj (Except.ok.inj h)
    refine ⟨(isReversedChain_spec k raw hr).imp fun a b hab => le_trans hab (by norm_num), Or.inl rfl, fun _ => Or.inl rfl⟩
  · rw [if_neg hr] at h
    rcases raw with _ | ⟨a, _ | ⟨b, rest⟩⟩
    · cases h
    · cases h
    · dsimp only at h
      set ds := [k.dist (k.fin a) (k.start b), k.dist (k.start a) (k.start b), k.dist (k.fin a) (k.fin b), k.dist (k.start a) (k.fin b)] with hds
      by_cases hfar : ∀ d ∈ ds, d > 1 / 10 ^ 3
      · rw [if_pos hfar] at h; cases h
      · rw [if_neg hfar] at h
        have hc := Except.ok.inj h
        obtain ⟨hlt, hmin⟩ := argmin_lt ds (by simp [hds])
        set i := argmin ds with hi
        push Not at hfar
        obtain ⟨d, hd, hd3⟩ := hfar
        obtain ⟨y, hy, hyd⟩ := hmin d hd
        have hy3 : y ≤ 1 / 10 ^ 3 := le_trans hyd hd3
        have hfol : Follows k (1 / 10 ^ 3) (if i = 0 ∨ i = 2 then a else k.reverse a) (if i = 0 ∨ i = 1 then b else k.reverse b) := by
          unfold Follows
          have h4 : i < 4 := by simpa [hds] using hlt
          have : i = 0 ∨ i = 1 ∨ i = 2 ∨ i = 3 := by omega
          rcases this with e | e | e | e <;> rw [e] at hy ⊢ <;> simp [hds] at hy <;> simp [k.reverse_fin, k.reverse_start] <;>
            rw [hy] <;> norm_num at hy3 ⊢ <;> exact hy3
        have hu : UpToOrientation k [a, b] [if i = 0 ∨ i = 2 then a else k.reverse a, if i = 0 ∨ i = 1 then b else k.reverse b] := by
          refine List.Forall₂.cons ?_ (List.Forall₂.cons ?_ List.Forall₂.nil)
          · split_ifs
            · exact Or.inl rfl
            · exact Or.inr rfl
          · split_ifs
            · exact Or.inl rfl
            · exact Or.inr rfl
        obtain ⟨h1, l, h2, h3, h4⟩ := connectNext_spec k sameEdge rest _ _ res [a, b] (by simp)
          (by rw [List.isChain_cons_cons]; exact ⟨hfol, List.isChain_singleton _⟩) hu hc
        refine ⟨h1, Or.inr ⟨[a, b] ++ l, ?_, h3⟩, fun hno => Or.inr ?_⟩
        · exact (h2.cons_cons b).cons_cons a
        · rw [h4 fun e he => hno e (List.mem_cons_of_mem _ (List.mem_cons_of_mem _ he))] at h3
          exact h3

example : reorderFromStep C51_segments (fun e e' => decide (e = e')) [(0, 1), (3, 1), (3, 3), (4, 3)] =
    .ok (some [(0, 1), (1, 3), (3, 3), (3, 4)]) := by decide +kernel

example : reorderFromStep C51_segments (fun e e' => decide (e = e')) [(0, 1), (3, 2)] = .ok none := by decide +kernel

end Volmdlr.Wire
