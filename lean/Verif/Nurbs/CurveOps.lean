import Verif.Nurbs.CurveProps

/-!
# C22, C23, C24: theorems on the curve objects
-/

namespace Volmdlr
open Finset
section
variable {K : Type*} [Field K] [LinearOrder K] [IsStrictOrderedRing K]
variable {V : Type*} [AddCommGroup V] [Module K V]

/-- Specification: `x` is inside the domain and not closer than the tolerance to a knot unless equal to it. -/
def BCurve.Inner (tol : K) (c : BCurve K V) (x : K) : Prop :=
  0 < x ∧ x < 1 ∧ ∀ a ∈ c.knotvector, a ≠ x → tol < |x - a|

section
variable (tol : K) (c : BCurve K V) (hv : c.Valid tol) (x : K) (hx : c.Inner tol x)
include hv hx

theorem inner_mult : findMultiplicity tol x c.knotvector = c.knotvector.count x :=
  C28_multiplicity_count tol hv.tol0 x _ hx.2.2

theorem inner_facts (k : ℕ) (hk : k = findSpanLinear c.degree (kvFun c.knotvector) c.ctrlpts.length x) :
    c.degree ≤ k ∧ k < c.ctrlpts.length ∧ kvFun c.knotvector k ≤ x ∧ x < kvFun c.knotvector (k + 1) ∧
    k + 1 < c.knotvector.length ∧ c.knotvector.count x ≤ k ∧
    (∀ i, k < i + c.knotvector.count x → i ≤ k → kvFun c.knotvector i = x) ∧
    kvFun c.knotvector (k - c.knotvector.count x) < x :=
  span_facts c.degree c.knotvector c.ctrlpts x hv.sorted hv.length hv.clamped (by rw [hv.dom0]; exact hx.1)
    (by rw [hv.dom1]; exact hx.2.1) k hk

/-- The multiplicity of an inner knot is at most the degree. -/
theorem inner_mult_le : c.knotvector.count x ≤ c.degree := by
  obtain ⟨a, b, d, e, hl, f, g, i⟩ := inner_facts tol c hv x hx _ rfl
  generalize findSpanLinear c.degree (kvFun c.knotvector) c.ctrlpts.length x = k at *
  by_contra hcon
  have h1 := g (k - c.degree) (by omega) (by omega)
  have h2 := g k (by omega) (le_refl _)
  have hpos : 0 < k - c.degree := by
    by_contra h0
    rw [show k - c.degree = 0 by omega, hv.clamped.left, hv.dom0] at h1
    exact absurd h1 hx.1.ne
  have := hv.interior (k - c.degree) hpos (by omega)
  rw [show k - c.degree + c.degree = k by omega, h1, h2] at this
  exact lt_irrefl _ this

/-- The knot vector of the curve returned by `insert_knot_curve`. -/
theorem insert_knotvector (k : ℕ) (hk : k = findSpanLinear c.degree (kvFun c.knotvector) c.ctrlpts.length x) (num : ℕ)
    (cp : List V) (w : Option (List K)) :
    (BCurve.new c.degree cp (getKnotsAndMultiplicities tol (knotInsertionKv c.knotvector x k num)).2
      (getKnotsAndMultiplicities tol (knotInsertionKv c.knotvector x k num)).1 w).knotvector =
      knotInsertionKv c.knotvector x k num := by
  obtain ⟨a, b, d, e, hl, f, g, i⟩ := inner_facts tol c hv x hx k hk
  have hmem : ∀ a ∈ knotInsertionKv c.knotvector x k num, a ∈ c.knotvector ∨ a = x := by
    intro a ha
    unfold knotInsertionKv at ha
    rcases List.mem_append.1 ha with h | h
    · rcases List.mem_append.1 h with h | h
      · left; exact List.mem_of_mem_take h
      · right; exact List.eq_of_mem_replicate h
    · left; exact List.mem_of_mem_drop h
  have hne : knotInsertionKv c.knotvector x k num ≠ [] := by
    intro h
    have := congrArg List.length h
    simp [knotInsertionKv] at this
    omega
  rw [new_knotvector tol hv.tol0 _ (knotInsertionKv_sorted _ hv.sorted x k num hl d e)
    (separated_insert tol _ hv.sep x hx.2.2 _ hmem) hne]
  have hlen : (knotInsertionKv c.knotvector x k num).length = c.knotvector.length + num := by
    simp [knotInsertionKv]; omega
  have e0 : kvFun (knotInsertionKv c.knotvector x k num) 0 = 0 := by
    rw [kvFun_insert _ _ _ _ hl, if_pos (Nat.zero_le _), hv.clamped.left, hv.dom0]
  have e1 : kvFun (knotInsertionKv c.knotvector x k num) ((knotInsertionKv c.knotvector x k num).length - 1) = 1 := by
    have := hv.length
    rw [kvFun_insert _ _ _ _ hl, hlen, if_neg (by omega), if_neg (by omega),
      show c.knotvector.length + num - 1 - num = c.ctrlpts.length + c.degree by omega, hv.clamped.right, hv.dom1]
  rw [e0, e1]
  simp

theorem insert_full_spec (k : ℕ) (hk : k = findSpanLinear c.degree (kvFun c.knotvector) c.ctrlpts.length x) (num : ℕ)
    (hnum : num + c.knotvector.count x = c.degree) (chk : Bool) :
    ∃ c', c.insertKnot tol x num chk = some c' ∧ c'.degree = c.degree ∧
      c'.knotvector = knotInsertionKv c.knotvector x k num ∧ c'.ctrlpts.length = c.ctrlpts.length + num ∧
      (c.weights = none → c'.weights = none ∧ c'.ctrlpts =
        (List.range (c.ctrlpts.length + num)).map (insPtsN (kvFun c.knotvector) k x c.degree (cpFun c.ctrlpts) num)) ∧
      (∀ w, c.weights = some w → ∃ w', c'.weights = some w' ∧ w'.length = c.ctrlpts.length + num ∧
        (∀ a ∈ w', 0 < a) ∧ BCurve.ctrlptsw c'.ctrlpts w' =
        (List.range (c.ctrlpts.length + num)).map
          (insPtsN (kvFun c.knotvector) k x c.degree (cpFun (BCurve.ctrlptsw c.ctrlpts w)) num)) := by
  obtain ⟨a, b, d, e, hl, f, g, i⟩ := inner_facts tol c hv x hx k hk
  have hd0 : kvFun c.knotvector c.degree < x := by rw [hv.dom0]; exact hx.1
  have hd1 : x < kvFun c.knotvector c.ctrlpts.length := by rw [hv.dom1]; exact hx.2.1
  have hV := insert_full c.degree c.knotvector c.ctrlpts x hv.sorted hv.length hv.clamped hd0 hd1 k hk num hnum
  have hW : ∀ w, c.weights = some w → (if num = 0 then BCurve.ctrlptsw c.ctrlpts w else
      knotInsertion c.degree c.knotvector (BCurve.ctrlptsw c.ctrlpts w) x num (c.knotvector.count x) k) =
      (List.range (c.ctrlpts.length + num)).map
          (insPtsN (kvFun c.knotvector) k x c.degree (cpFun (BCurve.ctrlptsw c.ctrlpts w)) num) := by
    intro w hw
    have hl := ctrlptsw_length c.ctrlpts w (hv.wlen w hw)
    have := insert_full c.degree c.knotvector (BCurve.ctrlptsw c.ctrlpts w) x hv.sorted (by rw [hl]; exact hv.length)
      (by rw [hl]; exact hv.clamped) hd0 (by rw [hl]; exact hd1) k (by rw [hl]; exact hk) num hnum
    rw [this, hl]
  by_cases hz : num = 0
  · rw [if_pos hz] at hV
    refine ⟨c, ?_, rfl, ?_, by omega, fun h => ⟨h, hV⟩, fun w hw => ⟨w, hw, ?_, hv.wpos w hw, ?_⟩⟩
    · unfold BCurve.insertKnot; rw [if_pos hz]
    · rw [hz]; unfold knotInsertionKv; simp
    · rw [hv.wlen w hw]; omega
    · have := hW w hw
      rwa [if_pos hz] at this
  · rw [if_neg hz] at hV
    unfold BCurve.insertKnot
    rw [if_neg hz]
    dsimp only
    rw [inner_mult tol c hv x hx, if_neg (by omega), ← hk]
    cases hcw : c.weights with
    | none =>
      refine ⟨_, rfl, rfl, insert_knotvector tol c hv x hx k hk num _ _, ?_, fun _ => ⟨rfl, hV⟩, fun w hw => ?_⟩
      · show (knotInsertion c.degree c.knotvector c.ctrlpts x num (c.knotvector.count x) k).length = _
        rw [hV]; simp
      · exact absurd hw (by simp)
    | some w =>
      have hQ := hW w hcw
      rw [if_neg hz] at hQ
      have hpos : ∀ q ∈ knotInsertion c.degree c.knotvector (BCurve.ctrlptsw c.ctrlpts w) x num (c.knotvector.count x) k,
          0 < q.2 := by
        intro q hq
        rw [hQ] at hq
        obtain ⟨j, hj, rfl⟩ := List.mem_map.1 hq
        exact insPtsN_pos (kvFun c.knotvector) hv.clamped.mono k x d e c.degree c.ctrlpts.length a b _
          (ctrlptsw_pos c.ctrlpts w (hv.wlen w hcw) (hv.wpos w hcw)) num j (List.mem_range.1 hj)
      set Q := knotInsertion c.degree c.knotvector (BCurve.ctrlptsw c.ctrlpts w) x num (c.knotvector.count x) k with hQd
      have hlen : Q.length = c.ctrlpts.length + num := by rw [hQ]; simp
      have hany : (BCurve.separate Q).2.any (fun a => a ≠ 0) = true := by
        rw [List.any_eq_true]
        obtain ⟨q, hq⟩ : ∃ q, q ∈ Q := by
          apply List.exists_mem_of_length_pos; omega
        exact ⟨q.2, List.mem_map.2 ⟨q, hq, rfl⟩, by simpa using (hpos q hq).ne'⟩
      refine ⟨_, rfl, rfl, insert_knotvector tol c hv x hx k hk num _ _, ?_, fun h => absurd h (by simp), ?_⟩
      · show (BCurve.separate Q).1.length = _
        unfold BCurve.separate; rw [List.length_map, hlen]
      · intro w' hw'
        obtain rfl : w = w' := by simpa using hw'
        refine ⟨(BCurve.separate Q).2, ?_, ?_, ?_, ?_⟩
        · show (if (BCurve.separate Q).2.any (fun a => a ≠ 0) then some (BCurve.separate Q).2 else none) = _
          rw [if_pos hany]
        · unfold BCurve.separate; rw [List.length_map, hlen]
        · intro a ha
          obtain ⟨q, hq, rfl⟩ := List.mem_map.1 ha
          exact hpos q hq
        · rw [← hQ]
          exact ctrlptsw_separate Q (fun q hq => (hpos q hq).ne')

end

/-- The curve after an insertion has the same points when the homogeneous curve has. -/
theorem curvePointRational_congr (p p' : ℕ) (U U' : ℕ → K) (P P' : ℕ → V × K) (n n' : ℕ) (u u' : K)
    (h : curvePoint p U P n u = curvePoint p' U' P' n' u') :
    curvePointRational p U P n u = curvePointRational p' U' P' n' u' := by
  unfold curvePointRational; rw [h]

/-- **C22** (partial: the knot is inserted up to multiplicity `degree`, as `split_curve` does) for every valid
curve, rational or not, the returned curve has the knots of the old one plus `num` copies of the inserted knot,
in order, and the same point at every parameter of `[0, 1]`. -/
theorem C22_insert_partial (tol : K) (c : BCurve K V) (hv : c.Valid tol) (x : K) (hx : c.Inner tol x) (num : ℕ)
    (hnum : num + c.knotvector.count x = c.degree) :
    ∃ c', c.insertKnot tol x num true = some c' ∧ c'.degree = c.degree ∧
      c'.knotvector.Perm (List.replicate num x ++ c.knotvector) ∧ c'.knotvector.Pairwise (· ≤ ·) ∧
      ∀ u, 0 ≤ u → u ≤ 1 → c'.eval u = c.eval u := by
  obtain ⟨a, b, d, e, hl, f, g, i⟩ := inner_facts tol c hv x hx _ rfl
  obtain ⟨c', h1, h2, h3, h4, h5, h6⟩ := insert_full_spec tol c hv x hx _ rfl num hnum true
  have hd0 : kvFun c.knotvector c.degree < x := by rw [hv.dom0]; exact hx.1
  have hd1 : x < kvFun c.knotvector c.ctrlpts.length := by rw [hv.dom1]; exact hx.2.1
  refine ⟨c', h1, h2, ?_, ?_, ?_⟩
  · rw [h3]
    unfold knotInsertionKv
    calc _ = c.knotvector.take _ ++ List.replicate num x ++ c.knotvector.drop _ := rfl
      _ |>.Perm (List.replicate num x ++ c.knotvector.take _ ++ c.knotvector.drop _) :=
        (List.perm_append_comm).append_right _
      _ = List.replicate num x ++ c.knotvector := by rw [List.append_assoc, List.take_append_drop]
  · rw [h3]; exact knotInsertionKv_sorted _ hv.sorted x _ num hl d e
  · intro u hu0 hu1
    unfold BCurve.eval
    cases hcw : c.weights with
    | none =>
      obtain ⟨h7, h8⟩ := h5 hcw
      rw [h7]
      dsimp only
      rw [h2, h3, h4, h8]
      exact insert_full_curve c.degree c.knotvector c.ctrlpts x hv.sorted hv.length hv.clamped hd0 hd1 _ rfl num u
        (by rw [hv.dom0]; exact hu0) (by rw [hv.dom1]; exact hu1)
    | some w =>
      obtain ⟨w', h7, -, -, h8⟩ := h6 w hcw
      rw [h7]
      dsimp only
      rw [h2, h3, h4, h8]
      apply curvePointRational_congr
      have hl := ctrlptsw_length c.ctrlpts w (hv.wlen w hcw)
      have := insert_full_curve c.degree c.knotvector (BCurve.ctrlptsw c.ctrlpts w) x hv.sorted
        (by rw [hl]; exact hv.length) (by rw [hl]; exact hv.clamped) hd0 (by rw [hl]; exact hd1) _ rfl num u
        (by rw [hv.dom0]; exact hu0) (by rw [hl, hv.dom1]; exact hu1)
      rw [hl] at this
      exact this

/-- **C22** the operation is refused (`ValueError`) exactly when the multiplicity would exceed the degree. -/
theorem C22_refused (tol : K) (c : BCurve K V) (hv : c.Valid tol) (x : K) (hx : c.Inner tol x) (num : ℕ)
    (h0 : 0 < num) : c.insertKnot tol x num true = none ↔ c.degree < num + c.knotvector.count x := by
  unfold BCurve.insertKnot
  rw [if_neg (by omega)]
  dsimp only
  rw [inner_mult tol c hv x hx]
  by_cases h : c.degree < num + c.knotvector.count x
  · rw [if_pos ⟨rfl, h⟩]; exact ⟨fun _ => h, fun _ => rfl⟩
  · rw [if_neg (fun hc => h hc.2)]
    cases c.weights <;> simp [h]

/-- **C22** (partial: fewer copies than needed for full multiplicity) the points at all parameters before the
inserted knot are kept.  After it the property is false, see `C22_counterexample`. -/
theorem C22_insert_before_partial (tol : K) (c : BCurve K V) (hv : c.Valid tol) (x : K) (hx : c.Inner tol x) (num : ℕ)
    (h0 : 0 < num) (hnum : num + c.knotvector.count x < c.degree) :
    ∃ c', c.insertKnot tol x num true = some c' ∧ c'.degree = c.degree ∧
      c'.knotvector.Perm (List.replicate num x ++ c.knotvector) ∧ c'.knotvector.Pairwise (· ≤ ·) ∧
      ∀ u, 0 ≤ u → u < x → c'.eval u = c.eval u := by
  obtain ⟨a, b, d, e, hl, f, g, i⟩ := inner_facts tol c hv x hx _ rfl
  have hd0 : kvFun c.knotvector c.degree < x := by rw [hv.dom0]; exact hx.1
  have hd1 : x < kvFun c.knotvector c.ctrlpts.length := by rw [hv.dom1]; exact hx.2.1
  generalize hk : findSpanLinear c.degree (kvFun c.knotvector) c.ctrlpts.length x = k at *
  have hperm : (knotInsertionKv c.knotvector x k num).Perm (List.replicate num x ++ c.knotvector) := by
    unfold knotInsertionKv
    calc _ = c.knotvector.take _ ++ List.replicate num x ++ c.knotvector.drop _ := rfl
      _ |>.Perm (List.replicate num x ++ c.knotvector.take _ ++ c.knotvector.drop _) :=
        (List.perm_append_comm).append_right _
      _ = List.replicate num x ++ c.knotvector := by rw [List.append_assoc, List.take_append_drop]
  have hsort := knotInsertionKv_sorted _ hv.sorted x k num hl d e
  unfold BCurve.insertKnot
  rw [if_neg (by omega)]
  dsimp only
  rw [inner_mult tol c hv x hx, if_neg (by omega), hk]
  cases hcw : c.weights with
  | none =>
    refine ⟨_, rfl, rfl, ?_, ?_, ?_⟩
    · rw [insert_knotvector tol c hv x hx k hk.symm]; exact hperm
    · rw [insert_knotvector tol c hv x hx k hk.symm]; exact hsort
    · intro u hu0 hu1
      unfold BCurve.eval
      rw [hcw]
      dsimp only [BCurve.new]
      have := insert_knotvector tol c hv x hx k hk.symm num (knotInsertion c.degree c.knotvector c.ctrlpts x num
        (c.knotvector.count x) k) none
      unfold BCurve.new at this
      rw [this]
      exact (insert_before_curve c.degree c.knotvector c.ctrlpts x hv.sorted hv.length hv.clamped hd0 hd1 k hk.symm num
        h0 hnum u (by rw [hv.dom0]; exact hu0) hu1).2
  | some w =>
    have hlw := ctrlptsw_length c.ctrlpts w (hv.wlen w hcw)
    have hkw : k = findSpanLinear c.degree (kvFun c.knotvector) (BCurve.ctrlptsw c.ctrlpts w).length x := by
      rw [hlw, hk]
    have hpos : ∀ q ∈ knotInsertion c.degree c.knotvector (BCurve.ctrlptsw c.ctrlpts w) x num (c.knotvector.count x) k,
        0 < q.2 := by
      intro q hq
      rw [knotInsertion_eq c.degree c.knotvector _ x num _ k a (by rw [hlw]; exact b) h0 hnum.le g] at hq
      have hp := insPtsN_pos (kvFun c.knotvector) hv.clamped.mono k x d e c.degree c.ctrlpts.length a b _
        (ctrlptsw_pos c.ctrlpts w (hv.wlen w hcw) (hv.wpos w hcw)) num
      rcases List.mem_append.1 hq with hq | hq
      · obtain ⟨j, hj, rfl⟩ := List.mem_map.1 hq
        exact hp j (by have := List.mem_range.1 hj; omega)
      · obtain ⟨j, hj, rfl⟩ := List.mem_map.1 (List.mem_of_mem_drop hq)
        exact hp j (by have := List.mem_range.1 hj; rw [hlw] at this; exact this)
    obtain ⟨hL, -⟩ := insert_before_curve c.degree c.knotvector (BCurve.ctrlptsw c.ctrlpts w) x hv.sorted
      (by rw [hlw]; exact hv.length) (by rw [hlw]; exact hv.clamped) hd0 (by rw [hlw]; exact hd1) k hkw num
      h0 hnum 0 hv.dom0.le hx.1
    have hcurve := fun u hu0 hu1 => (insert_before_curve c.degree c.knotvector (BCurve.ctrlptsw c.ctrlpts w) x hv.sorted
      (by rw [hlw]; exact hv.length) (by rw [hlw]; exact hv.clamped) hd0 (by rw [hlw]; exact hd1) k hkw num
      h0 hnum u hu0 hu1).2
    set Q := knotInsertion c.degree c.knotvector (BCurve.ctrlptsw c.ctrlpts w) x num (c.knotvector.count x) k with hQd
    have hany : (BCurve.separate Q).2.any (fun a => a ≠ 0) = true := by
      rw [List.any_eq_true]
      obtain ⟨q, hq⟩ : ∃ q, q ∈ Q := by
        apply List.exists_mem_of_length_pos; omega
      exact ⟨q.2, List.mem_map.2 ⟨q, hq, rfl⟩, by simpa using (hpos q hq).ne'⟩
    refine ⟨_, rfl, rfl, ?_, ?_, ?_⟩
    · rw [insert_knotvector tol c hv x hx k hk.symm]; exact hperm
    · rw [insert_knotvector tol c hv x hx k hk.symm]; exact hsort
    · intro u hu0 hu1
      have hkv := insert_knotvector tol c hv x hx k hk.symm num (BCurve.separate Q).1 (some (BCurve.separate Q).2)
      unfold BCurve.eval
      rw [hkv, hcw]
      have e1 : (BCurve.new c.degree (BCurve.separate Q).1
          (getKnotsAndMultiplicities tol (knotInsertionKv c.knotvector x k num)).2
          (getKnotsAndMultiplicities tol (knotInsertionKv c.knotvector x k num)).1
          (some (BCurve.separate Q).2)).weights = some (BCurve.separate Q).2 := by
        show (if (BCurve.separate Q).2.any (fun a => a ≠ 0) then some (BCurve.separate Q).2 else none) = _
        rw [if_pos hany]
      rw [e1]
      dsimp only [BCurve.new]
      rw [ctrlptsw_separate Q (fun q hq => (hpos q hq).ne')]
      apply curvePointRational_congr
      have e2 : (BCurve.separate Q).1.length = Q.length := by unfold BCurve.separate; simp
      rw [e2, hcurve u (by rw [hv.dom0]; exact hu0) hu1, hlw]

/-! ### a concrete curve -/

/-- A quadratic curve with four control points in the plane and the knot vector `[0,0,0,1/2,1,1,1]`. -/
def exampleCurve (w : Option (List ℚ)) : BCurve ℚ (ℚ × ℚ) :=
  ⟨2, [(0, 0), (1, 2), (3, 1), (4, 5)], [3, 1, 3], [0, 1 / 2, 1], w⟩

theorem exampleCurve_kv (w : Option (List ℚ)) : (exampleCurve w).knotvector = [0, 0, 0, 1 / 2, 1, 1, 1] := by rfl

theorem exampleCurve_valid (w : Option (List ℚ)) (h1 : ∀ l, w = some l → l.length = 4)
    (h2 : ∀ l, w = some l → ∀ a ∈ l, 0 < a) : (exampleCurve w).Valid (1 / 10 ^ 15) := by
  have hs : ([0, 0, 0, 1 / 2, 1, 1, 1] : List ℚ).Pairwise (· ≤ ·) := by decide +kernel
  refine ⟨by norm_num, show 0 < 2 by norm_num, rfl, rfl, rfl, ?_, ?_, rfl, ?_, ?_, ?_, ?_, h1, h2⟩
  · rw [exampleCurve_kv]; exact hs
  · rw [exampleCurve_kv]; unfold Separated; decide +kernel
  · show Clamped 2 4 (kvFun [0, 0, 0, 1 / 2, 1, 1, 1])
    refine ⟨by decide +kernel, kvFun_mono _ hs, ?_, ?_, ?_, ?_⟩ <;> decide +kernel
  · show InteriorMult 2 4 (kvFun [0, 0, 0, 1 / 2, 1, 1, 1])
    intro i h3 h4
    rcases (by omega : i = 1 ∨ i = 2 ∨ i = 3) with rfl | rfl | rfl <;> decide +kernel
  · show kvFun [0, 0, 0, 1 / 2, 1, 1, 1] 2 = 0
    decide +kernel
  · show kvFun [0, 0, 0, 1 / 2, 1, 1, 1] 4 = 1
    decide +kernel

theorem exampleCurve_inner (w : Option (List ℚ)) (x : ℚ) (hx : x = 1 / 2 ∨ x = 1 / 3) :
    (exampleCurve w).Inner (1 / 10 ^ 15) x := by
  unfold BCurve.Inner
  rw [exampleCurve_kv]
  rcases hx with rfl | rfl <;> decide +kernel

example : ∃ c', (exampleCurve (some [1, 2, 1, 3])).insertKnot (1 / 10 ^ 15) (1 / 3) 2 true = some c' ∧
    ∀ u, 0 ≤ u → u ≤ 1 → c'.eval u = (exampleCurve (some [1, 2, 1, 3])).eval u := by
  obtain ⟨c', h1, -, -, -, h2⟩ := C22_insert_partial (1 / 10 ^ 15) (exampleCurve (some [1, 2, 1, 3]))
    (exampleCurve_valid _ (by simp) (by simp)) (1 / 3) (exampleCurve_inner _ _ (Or.inr rfl)) 2 (by decide +kernel)
  exact ⟨c', h1, h2⟩
example : (exampleCurve (some [1, 2, 1, 3])).eval (1 / 3) ≠ (exampleCurve none).eval (1 / 3) := by decide +kernel
example : ∃ c', (exampleCurve (some [1, 2, 1, 3])).insertKnot (1 / 10 ^ 15) (1 / 3) 1 true = some c' ∧
    ∀ u, 0 ≤ u → u < 1 / 3 → c'.eval u = (exampleCurve (some [1, 2, 1, 3])).eval u := by
  obtain ⟨c', h1, -, -, -, h2⟩ := C22_insert_before_partial (1 / 10 ^ 15) (exampleCurve (some [1, 2, 1, 3]))
    (exampleCurve_valid _ (by simp) (by simp)) (1 / 3) (exampleCurve_inner _ _ (Or.inr rfl)) 1 (by norm_num)
    (by decide +kernel)
  exact ⟨c', h1, h2⟩

/-- The full property: every allowed insertion keeps every point. -/
def C22_full_statement (K V : Type) [Field K] [LinearOrder K] [AddCommGroup V] [Module K V] : Prop :=
  ∀ (c : BCurve K V), c.Valid (1 / 10 ^ 15) → ∀ x, c.Inner (1 / 10 ^ 15) x → ∀ num,
    0 < num → num + c.knotvector.count x ≤ c.degree →
    ∃ c', c.insertKnot (1 / 10 ^ 15) x num true = some c' ∧ ∀ u, 0 ≤ u → u ≤ 1 → c'.eval u = c.eval u

/-- **C22** inserting a knot once in a quadratic curve changes the curve: one control point too many is
stored, and the points after the knot are wrong. -/
theorem C22_counterexample : ¬ C22_full_statement ℚ (ℚ × ℚ) := by
  intro h
  obtain ⟨c', h1, h2⟩ := h (exampleCurve none) (exampleCurve_valid _ (by simp) (by simp)) (1 / 3)
    (exampleCurve_inner _ _ (Or.inr rfl)) 1 (by norm_num) (by decide +kernel)
  have h3 := h2 (3 / 4) (by norm_num) (by norm_num)
  have h4 : c' = ((exampleCurve none).insertKnot (1 / 10 ^ 15) (1 / 3) 1 true).getD (exampleCurve none) := by
    rw [h1]; rfl
  rw [h4] at h3
  revert h3
  decide +kernel

end
end Volmdlr
