import Verif.Nurbs.KnotLists
import Verif.Nurbs.Insert
import Verif.Nurbs.Reparam

/-!
# C22, C23, C24: `insert_knot_curve`, `split_curve`, `get_reverse`
-/

namespace Volmdlr
open Finset
section
variable {K : Type*} [Field K] [LinearOrder K] [IsStrictOrderedRing K]
variable {V : Type*} [AddCommGroup V] [Module K V]

/-- Specification: a well-formed clamped B-spline curve on `[0, 1]`: sorted knot vector of the right length,
`degree + 1` equal knots at both ends, interior multiplicities at most the degree, distinct knots more than the
tolerance apart, positive weights (one for each control point) if there are weights. -/
structure BCurve.Valid (tol : K) (c : BCurve K V) : Prop where
  tol0 : 0 ≤ tol
  deg : 0 < c.degree
  headK : c.knots.head? = some 0
  lastK : c.knots.getLast? = some 1
  multlen : c.mults.length = c.knots.length
  sorted : c.knotvector.Pairwise (· ≤ ·)
  sep : Separated tol c.knotvector
  length : c.knotvector.length = c.ctrlpts.length + c.degree + 1
  clamped : Clamped c.degree c.ctrlpts.length (kvFun c.knotvector)
  interior : InteriorMult c.degree c.ctrlpts.length (kvFun c.knotvector)
  dom0 : kvFun c.knotvector c.degree = 0
  dom1 : kvFun c.knotvector c.ctrlpts.length = 1
  wlen : ∀ w, c.weights = some w → w.length = c.ctrlpts.length
  wpos : ∀ w, c.weights = some w → ∀ a ∈ w, 0 < a

theorem curvePoint_congr (p : ℕ) (U : ℕ → K) (P P' : ℕ → V) (n : ℕ) (hpn : p < n) (h : ∀ i < n, P i = P' i) (u : K) :
    curvePoint p U P n u = curvePoint p U P' n u := by
  rw [curvePoint_eq p U P n u hpn, curvePoint_eq p U P' n u hpn]
  apply sum_congr rfl
  intro i hi
  rw [h i (mem_range.1 hi)]

theorem kvFun_insKnotsN (kv : List K) (x : K) (k num : ℕ) (hk : k + 1 < kv.length) :
    kvFun (knotInsertionKv kv x k num) = insKnotsN (kvFun kv) k x num := by
  funext i; rw [kvFun_insert kv x k num hk]; rfl

theorem insKnotsN_clamped (p n : ℕ) (U : ℕ → K) (hc : Clamped p n U) (k : ℕ) (x : K) (hk : p ≤ k) (hkn : k < n)
    (h0 : U p < x) (h1 : U k ≤ x) (h2 : x < U (k + 1)) (num : ℕ) :
    Clamped p (n + num) (insKnotsN U k x num) := by
  have hpn := hc.pn
  have hn : insKnotsN U k x num (n + num) = U n := by
    unfold insKnotsN
    rw [if_neg (by omega), if_neg (by omega)]; congr 1; omega
  refine ⟨by omega, (insKnotsN_mono U hc.mono k x h1 h2 num).1, ?_, ?_, ?_, ?_⟩
  · unfold insKnotsN; rw [if_pos (by omega), if_pos hk, hc.left]
  · rw [hn]
    unfold insKnotsN
    rw [if_neg (by omega), if_neg (by omega), show n + num + p - num = n + p by omega, hc.right]
  · unfold insKnotsN
    rw [if_pos hk]
    split_ifs with a b
    · exact hc.first
    · exact h0
    · obtain rfl : num = 0 := by omega
      exact hc.first
  · rw [hn]
    unfold insKnotsN
    split_ifs with a b
    · exact (hc.mono (show n + num - 1 ≤ n - 1 by omega)).trans_lt hc.last
    · exact h2.trans_le (hc.mono (by omega))
    · rw [show n + num - 1 - num = n - 1 by omega]; exact hc.last

/-- Boehm's coefficients are between 0 and 1, so positive coordinates stay positive. -/
theorem insPtsN_pos (U : ℕ → K) (hU : Monotone U) (k : ℕ) (x : K) (h1 : U k ≤ x) (h2 : x < U (k + 1)) (p n : ℕ)
    (hp : p ≤ k) (hkn : k < n) (P : ℕ → V × K) (hP : ∀ i < n, 0 < (P i).2) (j : ℕ) :
    ∀ i < n + j, 0 < (insPtsN U k x p P j i).2 := by
  induction j with
  | zero => exact hP
  | succ j ih =>
    intro i hi
    obtain ⟨hm, ha, hb⟩ := insKnotsN_mono U hU k x h1 h2 j
    simp only [insPtsN, insPts, Prod.snd_add, Prod.smul_snd, smul_eq_mul]
    set W := insKnotsN U k x j with hW
    have hα : insAlpha W (k + j) x p i = 1 ∨ (0 ≤ insAlpha W (k + j) x p i ∧ insAlpha W (k + j) x p i ≤ 1 ∧
        0 < i ∧ i ≤ k + j) ∨ (insAlpha W (k + j) x p i = 0 ∧ 0 < i) := by
      unfold insAlpha
      split_ifs with a b
      · left; rfl
      · right; left
        have e1 : W i ≤ x := (hm b).trans ha
        have e2 : x < W (i + p) := hb.trans_le (hm (by omega))
        refine ⟨div_nonneg (by linarith) (by linarith), (div_le_one (by linarith)).2 (by linarith), by omega, b⟩
      · right; right; exact ⟨rfl, by omega⟩
    rcases hα with h | ⟨ha0, ha1, hi0, hik⟩ | ⟨h, hi0⟩
    · rw [h]
      rcases Nat.lt_or_ge i (n + j) with h' | h'
      · have := ih i h'; linarith
      · exfalso
        unfold insAlpha at h
        rw [if_neg (by omega), if_neg (by omega)] at h
        exact zero_ne_one h
    · have p1 := ih i (by omega)
      have p2 := ih (i - 1) (by omega)
      rcases ha0.lt_or_eq with h | h
      · have := mul_pos h p1
        have := mul_nonneg (sub_nonneg.2 ha1) p2.le
        linarith
      · rw [← h]; linarith
    · rw [h]
      have := ih (i - 1) (by omega)
      linarith

section generic
variable (p : ℕ) (kv : List K) (cp : List V) (x : K) (hs : kv.Pairwise (· ≤ ·))
  (hlen : kv.length = cp.length + p + 1) (hc : Clamped p cp.length (kvFun kv))
  (h0 : kvFun kv p < x) (h1 : x < kvFun kv cp.length)
include hs hlen hc h0 h1

theorem span_facts (k : ℕ) (hk : k = findSpanLinear p (kvFun kv) cp.length x) :
    p ≤ k ∧ k < cp.length ∧ kvFun kv k ≤ x ∧ x < kvFun kv (k + 1) ∧ k + 1 < kv.length ∧ kv.count x ≤ k ∧
    (∀ i, k < i + kv.count x → i ≤ k → kvFun kv i = x) ∧ kvFun kv (k - kv.count x) < x := by
  obtain ⟨a, b, c, -⟩ := C19_linear p cp.length (kvFun kv) x hc.pn
  obtain ⟨d, e⟩ := c h0.le h1
  rw [← hk] at *
  have hl : k + 1 < kv.length := by omega
  obtain ⟨f, g, i⟩ := mult_positions kv hs x k hl d e (by rw [hc.left]; exact h0)
  exact ⟨a, b, d, e, hl, f, g, i⟩

/-- The control points after inserting up to full multiplicity. -/
theorem insert_full (k : ℕ) (hk : k = findSpanLinear p (kvFun kv) cp.length x) (num : ℕ)
    (hnum : num + kv.count x = p) :
    (if num = 0 then cp else knotInsertion p kv cp x num (kv.count x) k) =
      (List.range (cp.length + num)).map (insPtsN (kvFun kv) k x p (cpFun cp) num) := by
  obtain ⟨a, b, d, e, hl, f, g, i⟩ := span_facts p kv cp x hs hlen hc h0 h1 k hk
  by_cases hz : num = 0
  · rw [if_pos hz, hz]
    apply List.ext_getElem
    · simp
    · intro j hj1 hj2
      simp only [List.getElem_map, List.getElem_range, insPtsN, cpFun]
      rw [List.getD_eq_getElem _ _ hj1]
  · rw [if_neg hz, knotInsertion_eq p kv cp x num _ k a b (by omega) (by omega) g, if_neg (by omega)]
    have : (List.range (k - kv.count x + 1)).map (insPtsN (kvFun kv) k x p (cpFun cp) num) =
        ((List.range (cp.length + num)).map (insPtsN (kvFun kv) k x p (cpFun cp) num)).take (k - kv.count x + 1) := by
      rw [← List.map_take, List.take_range]
      congr 2; omega
    rw [this, List.take_append_drop]

theorem insert_full_curve (k : ℕ) (hk : k = findSpanLinear p (kvFun kv) cp.length x) (num : ℕ)
    (u : K) (hu1 : kvFun kv p ≤ u) (hu2 : u ≤ kvFun kv cp.length) :
    curvePoint p (kvFun (knotInsertionKv kv x k num))
      (cpFun ((List.range (cp.length + num)).map (insPtsN (kvFun kv) k x p (cpFun cp) num))) (cp.length + num) u =
    curvePoint p (kvFun kv) (cpFun cp) cp.length u := by
  obtain ⟨a, b, d, e, hl, f, g, i⟩ := span_facts p kv cp x hs hlen hc h0 h1 k hk
  rw [kvFun_insKnotsN kv x k num hl,
    ← curve_insert_many p cp.length (kvFun kv) hc.mono hc.pn (cpFun cp) k x a b d e hc.last num u hu1 hu2]
  apply curvePoint_congr _ _ _ _ _ (by have := hc.pn; omega)
  intro j hj
  unfold cpFun
  rw [List.getD_eq_getElem _ _ (by simpa using hj), List.getElem_map, List.getElem_range]

/-- Inserting to less than full multiplicity: the points before the knot are kept. -/
theorem insert_before_curve (k : ℕ) (hk : k = findSpanLinear p (kvFun kv) cp.length x) (num : ℕ) (hn0 : 0 < num)
    (hnum : num + kv.count x < p) (u : K) (hu1 : kvFun kv p ≤ u) (hu2 : u < x) :
    (knotInsertion p kv cp x num (kv.count x) k).length = cp.length + num + 1 ∧
    curvePoint p (kvFun (knotInsertionKv kv x k num)) (cpFun (knotInsertion p kv cp x num (kv.count x) k))
      (knotInsertion p kv cp x num (kv.count x) k).length u =
    curvePoint p (kvFun kv) (cpFun cp) cp.length u := by
  obtain ⟨a, b, d, e, hl, f, g, i⟩ := span_facts p kv cp x hs hlen hc h0 h1 k hk
  have hpn := hc.pn
  have hk' := knotInsertion_eq p kv cp x num (kv.count x) k a b hn0 (by omega) g
  rw [if_pos hnum] at hk'
  set s := kv.count x with hsd
  set Q := insPtsN (kvFun kv) k x p (cpFun cp) num with hQ
  have hL : (knotInsertion p kv cp x num s k).length = cp.length + num + 1 := by
    rw [hk']; simp; omega
  refine ⟨hL, ?_⟩
  rw [hL, kvFun_insKnotsN kv x k num hl,
    ← curve_insert_many p cp.length (kvFun kv) hc.mono hc.pn (cpFun cp) k x a b d e hc.last num u hu1 (hu2.le.trans h1.le)]
  set W := insKnotsN (kvFun kv) k x num with hW
  have hWm : Monotone W := (insKnotsN_mono (kvFun kv) hc.mono k x d e num).1
  -- the span is at most k - s for both sizes
  have hcl := insKnotsN_clamped p cp.length (kvFun kv) hc k x a b h0 d e num
  have hWp : W p = kvFun kv p := by rw [hW]; unfold insKnotsN; rw [if_pos a]
  have hWk : x ≤ W (k - s + 1) := by
    rw [hW]; unfold insKnotsN
    split_ifs with q1 q2
    · rw [g (k - s + 1) (by omega) q1]
    · exact le_refl _
    · omega
  have hWn : W (cp.length + num) = kvFun kv cp.length := by
    rw [hW]; unfold insKnotsN
    rw [if_neg (by omega), if_neg (by omega)]; congr 1; omega
  obtain ⟨-, -, c1, -⟩ := C19_linear p (cp.length + num) W u (by omega)
  obtain ⟨-, -, c2, -⟩ := C19_linear p (cp.length + num + 1) W u (by omega)
  have c1 := c1 (by rw [hWp]; exact hu1) (by rw [hWn]; exact hu2.trans h1)
  have c2 := c2 (by rw [hWp]; exact hu1) (by
    refine lt_of_lt_of_le ?_ (hWm (show cp.length + num ≤ cp.length + num + 1 by omega))
    rw [hWn]; exact hu2.trans h1)
  have e1 := span_unique W hWm u _ _ c2 c1
  have hle : findSpanLinear p W (cp.length + num) u ≤ k - s := by
    by_contra hcon
    have : W (k - s + 1) ≤ W (findSpanLinear p W (cp.length + num) u) := hWm (by omega)
    exact absurd (hWk.trans (this.trans c1.1)) (not_le.2 hu2)
  rw [curvePoint_eq p W _ _ u (by omega), curvePoint_eq p W _ _ u (by omega), e1, sum_range_succ,
    bsp_zero_of_lt _ _ _ _ _ (by omega), zero_smul, add_zero]
  apply sum_congr rfl
  intro j hj
  have hj := mem_range.1 hj
  rcases Nat.lt_or_ge (k - s) j with h | h
  · rw [bsp_zero_of_lt _ _ _ _ _ (by omega), zero_smul, zero_smul]
  · have : cpFun (knotInsertion p kv cp x num s k) j = Q j := by
      unfold cpFun
      rw [hk', List.getD_append _ _ _ _ (by simp; omega), List.getD_eq_getElem _ _ (by simp; omega), List.getElem_map,
        List.getElem_range]
    rw [this]

end generic

/-! ### knot vectors of the new curves -/

omit [IsStrictOrderedRing K] in
theorem repeatKnots_map (f : K → K) (knots : List K) (mults : List ℕ) :
    repeatKnots (knots.map f) mults = (repeatKnots knots mults).map f := by
  unfold repeatKnots
  induction knots generalizing mults with
  | nil => simp
  | cons a t ih =>
    cases mults with
    | nil => simp
    | cons m ms => simp only [List.map_cons, List.zip_cons_cons, List.flatMap_cons, List.map_append, ih,
        List.map_replicate]

theorem sorted_headD (l : List K) (hs : l.Pairwise (· ≤ ·)) (a : K) (ha : a ∈ l) (h : ∀ b ∈ l, a ≤ b) :
    l.headD 0 = a := by
  cases l with
  | nil => simp at ha
  | cons y t =>
    rcases List.mem_cons.1 ha with h' | h'
    · exact h'.symm
    · exact le_antisymm ((List.pairwise_cons.1 hs).1 a h') (h y (by simp))

theorem sorted_getLastD (l : List K) (hs : l.Pairwise (· ≤ ·)) (a : K) (ha : a ∈ l) (h : ∀ b ∈ l, b ≤ a) :
    l.getLastD 0 = a := by
  have hne : l ≠ [] := List.ne_nil_of_mem ha
  have e : l.getLastD 0 = l.getLast hne := by
    rw [List.getLastD_eq_getLast?, List.getLast?_eq_getLast_of_ne_nil hne]; rfl
  rw [e]
  apply le_antisymm (h _ (List.getLast_mem hne))
  obtain ⟨i, hi, rfl⟩ := List.getElem_of_mem ha
  rw [List.getLast_eq_getElem]
  rcases Nat.lt_or_ge i (l.length - 1) with h' | h'
  · exact List.pairwise_iff_getElem.1 hs _ _ _ _ h'
  · have : i = l.length - 1 := by omega
    subst this; exact le_refl _

/-- A curve made from a knot vector has this knot vector, moved affinely to `[0, 1]`. -/
theorem new_knotvector (tol : K) (ht : 0 ≤ tol) (kv : List K) (hs : kv.Pairwise (· ≤ ·)) (hsep : Separated tol kv)
    (hne : kv ≠ []) (p : ℕ) (cp : List V) (w : Option (List K)) :
    (BCurve.new p cp (getKnotsAndMultiplicities tol kv).2 (getKnotsAndMultiplicities tol kv).1 w).knotvector =
      kv.map fun k => (k - kvFun kv 0) / (kvFun kv (kv.length - 1) - kvFun kv 0) := by
  have hlen : 0 < kv.length := List.length_pos_iff.2 hne
  have hsort : kv.dedup.Pairwise (· ≤ ·) := List.Pairwise.sublist (List.dedup_sublist kv) hs
  have hm := kvFun_mono kv hs
  have mem : ∀ b ∈ kv, kvFun kv 0 ≤ b ∧ b ≤ kvFun kv (kv.length - 1) := by
    intro b hb
    obtain ⟨i, hi, rfl⟩ := List.getElem_of_mem hb
    rw [← kvFun_lt kv i hi]
    exact ⟨hm (Nat.zero_le _), hm (by omega)⟩
  have h0 : kv.dedup.headD 0 = kvFun kv 0 := by
    apply sorted_headD _ hsort
    · rw [List.mem_dedup, kvFun_lt kv 0 hlen]; exact List.getElem_mem _
    · intro b hb; exact (mem b (List.mem_dedup.1 hb)).1
  have h1 : kv.dedup.getLastD 0 = kvFun kv (kv.length - 1) := by
    apply sorted_getLastD _ hsort
    · rw [List.mem_dedup, kvFun_lt kv _ (by omega)]; exact List.getElem_mem _
    · intro b hb; exact (mem b (List.mem_dedup.1 hb)).2
  unfold BCurve.knotvector BCurve.new standardizeKnotVector
  dsimp only
  rw [repeatKnots_map, C28_round_trip tol ht kv hs hsep]
  unfold getKnotsAndMultiplicities
  rw [h0, h1]

theorem kvFun_map (f : K → K) (kv : List K) (hne : kv ≠ []) (i : ℕ) : kvFun (kv.map f) i = f (kvFun kv i) := by
  rcases Nat.lt_or_ge i kv.length with h | h
  · rw [kvFun_lt _ _ (by simpa using h), kvFun_lt _ _ h, List.getElem_map]
  · rw [kvFun_last _ _ (by simp; omega) (by simpa using hne), kvFun_last _ _ (by omega) hne, List.getLast_map]

/-! ### insertion -/

theorem ctrlptsw_length (cp : List V) (w : List K) (h : w.length = cp.length) :
    (BCurve.ctrlptsw cp w).length = cp.length := by
  unfold BCurve.ctrlptsw; rw [List.length_zipWith, h, Nat.min_self]

theorem ctrlptsw_pos (cp : List V) (w : List K) (h : w.length = cp.length) (hw : ∀ a ∈ w, 0 < a) (i : ℕ)
    (hi : i < cp.length) : 0 < (cpFun (BCurve.ctrlptsw cp w) i).2 := by
  unfold cpFun
  rw [List.getD_eq_getElem _ _ (by rw [ctrlptsw_length cp w h]; exact hi)]
  unfold BCurve.ctrlptsw
  rw [List.getElem_zipWith]
  exact hw _ (List.getElem_mem _)

theorem ctrlptsw_separate (Q : List (V × K)) (hQ : ∀ q ∈ Q, q.2 ≠ 0) :
    BCurve.ctrlptsw (BCurve.separate Q).1 (BCurve.separate Q).2 = Q := by
  unfold BCurve.ctrlptsw BCurve.separate
  dsimp only
  rw [List.zipWith_map, List.zipWith_self]
  conv_rhs => rw [← List.map_id Q]
  apply List.map_congr_left
  intro q hq
  rw [smul_smul, mul_inv_cancel₀ (hQ q hq), one_smul]; rfl

omit [IsStrictOrderedRing K] [LinearOrder K] in
theorem separated_insert (tol : K) [LinearOrder K] (kv : List K) (hsep : Separated tol kv) (x : K)
    (hx : ∀ a ∈ kv, a ≠ x → tol < |x - a|) (L : List K) (hL : ∀ a ∈ L, a ∈ kv ∨ a = x) : Separated tol L := by
  intro a ha b hb hne
  rcases hL a ha with h | h <;> rcases hL b hb with h' | h'
  · exact hsep a h b h' hne
  · subst h'; rw [abs_sub_comm]; exact hx a h hne
  · subst h; exact hx b h' (Ne.symm hne)
  · exact absurd (h.trans h'.symm) hne

theorem knotInsertionKv_sorted (kv : List K) (hs : kv.Pairwise (· ≤ ·)) (x : K) (k num : ℕ) (hk : k + 1 < kv.length)
    (h1 : kvFun kv k ≤ x) (h2 : x < kvFun kv (k + 1)) : (knotInsertionKv kv x k num).Pairwise (· ≤ ·) := by
  have hm := (insKnotsN_mono (kvFun kv) (kvFun_mono kv hs) k x h1 h2 num).1
  rw [← kvFun_insKnotsN kv x k num hk] at hm
  rw [List.pairwise_iff_getElem]
  intro i j hi hj hij
  rw [← kvFun_lt _ _ hi, ← kvFun_lt _ _ hj]
  exact hm hij.le

end
end Volmdlr
