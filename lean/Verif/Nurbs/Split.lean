import Verif.Nurbs.CurveOps

/-!
# C23: `split_curve`, C24: `get_reverse`
-/

namespace Volmdlr
open Finset
section
variable {K : Type*} [Field K] [LinearOrder K] [IsStrictOrderedRing K]
variable {V : Type*} [AddCommGroup V] [Module K V]

theorem pairwise_of_kvFun_mono (kv : List K) (h : Monotone (kvFun kv)) : kv.Pairwise (· ≤ ·) := by
  rw [List.pairwise_iff_getElem]
  intro i j hi hj hij
  rw [← kvFun_lt _ _ hi, ← kvFun_lt _ _ hj]
  exact h hij.le

theorem cpFun_range_map (N : ℕ) (Q : ℕ → V) (i : ℕ) (h : i < N) : cpFun ((List.range N).map Q) i = Q i := by
  unfold cpFun
  rw [List.getD_eq_getElem _ _ (by simpa using h), List.getElem_map, List.getElem_range]
theorem cpFun_take (l : List V) (m i : ℕ) (h : i < m) : cpFun (l.take m) i = cpFun l i := by
  unfold cpFun
  rw [List.getD_eq_getElem?_getD, List.getD_eq_getElem?_getD, List.getElem?_take_of_lt h]
theorem cpFun_drop (l : List V) (m i : ℕ) : cpFun (l.drop m) i = cpFun l (i + m) := by
  unfold cpFun
  rw [List.getD_eq_getElem?_getD, List.getD_eq_getElem?_getD, List.getElem?_drop, add_comm]

section generic
variable (p : ℕ) (kv : List K) (cp : List V) (x : K) (hp : 0 < p) (hs : kv.Pairwise (· ≤ ·))
  (hlen : kv.length = cp.length + p + 1) (hc : Clamped p cp.length (kvFun kv))
  (h0 : kvFun kv p < x) (h1 : x < kvFun kv cp.length)
include hp hs hlen hc h0 h1

/-- Both halves at the level of lists: knots and control points. -/
theorem split_generic (k : ℕ) (hk : k = findSpanLinear p (kvFun kv) cp.length x) (num : ℕ)
    (hnum : num + kv.count x = p) (kv' : List K) (hkv' : kv' = knotInsertionKv kv x k num) (L : List V)
    (hL : L = (List.range (cp.length + num)).map (insPtsN (kvFun kv) k x p (cpFun cp) num)) :
    findSpanLinear p (kvFun kv') (cp.length + num) x = k + num ∧ k - p + 1 + num ≤ cp.length + num ∧
    Clamped p (k - p + 1 + num) (kvFun (kv'.take (k + num + 1) ++ [x])) ∧
    Clamped p (cp.length + num - (k - p + num)) (kvFun (List.replicate (p + 1) x ++ kv'.drop (k + num + 1))) ∧
    (∀ u, kvFun kv p ≤ u → u ≤ x →
      curvePoint p (kvFun (kv'.take (k + num + 1) ++ [x])) (cpFun (L.take (k - p + 1 + num))) (k - p + 1 + num) u =
        curvePoint p (kvFun kv) (cpFun cp) cp.length u) ∧
    (∀ u, x ≤ u → u ≤ kvFun kv cp.length →
      curvePoint p (kvFun (List.replicate (p + 1) x ++ kv'.drop (k + num + 1))) (cpFun (L.drop (k - p + num)))
        (cp.length + num - (k - p + num)) u = curvePoint p (kvFun kv) (cpFun cp) cp.length u) := by
  obtain ⟨a, b, d, e, hl, f, g, i⟩ := span_facts p kv cp x hs hlen hc h0 h1 k hk
  set s := kv.count x with hsd
  set n := cp.length with hn
  set W := insKnotsN (kvFun kv) k x num with hW
  have hkW : kvFun kv' = W := by rw [hkv', kvFun_insKnotsN kv x k num hl]
  obtain ⟨hWm, ha, hb⟩ := insKnotsN_mono (kvFun kv) hc.mono k x d e num
  have hcW := insKnotsN_clamped p n (kvFun kv) hc k x a b h0 d e num
  have hWp : W p = kvFun kv p := by rw [hW]; unfold insKnotsN; rw [if_pos a]
  have hWn : W (n + num) = kvFun kv n := by
    rw [hW]; unfold insKnotsN
    rw [if_neg (by omega), if_neg (by omega)]; congr 1; omega
  have hpn := hc.pn
  have hspan : findSpanLinear p (kvFun kv') (n + num) x = k + num := by
    rw [hkW]
    obtain ⟨-, -, c1, -⟩ := C19_linear p (n + num) W x (by omega)
    exact span_unique W hWm x _ _ (c1 (by rw [hWp]; exact h0.le) (by rw [hWn]; exact h1)) ⟨ha, hb⟩
  have hA : p ≤ k - s := by
    by_contra hcon
    have h2 : kvFun kv p = x := g p (by omega) a
    exact absurd h2 h0.ne
  have hae : k - p + num = k - s := by omega
  have hae' : k - p + 1 + num = k - s + 1 := by omega
  have hlen' : kv'.length = n + p + 1 + num := by
    rw [hkv']; simp [knotInsertionKv]; omega
  have hx : ∀ i, k - s < i → i ≤ k - s + p → W i = x := by
    intro i h3 h4
    rw [hW]; unfold insKnotsN
    split_ifs with q1 q2
    · exact g i (by omega) q1
    · rfl
    · omega
  have hWa : W (k - s) < x := by
    rw [hW]; unfold insKnotsN; rw [if_pos (by omega)]; exact i
  have hWb : x < W (k - s + p + 1) := by
    have : k - s + p + 1 = k + num + 1 := by omega
    rw [this]; exact hb
  have hlt : (kv'.take (k + num + 1)).length = k + num + 1 := by rw [List.length_take]; omega
  -- knot function of the first half
  have hk1 : ∀ j, j ≤ k - s + p → kvFun (kv'.take (k + num + 1) ++ [x]) j = W j := by
    intro j hj
    rw [kvFun_append_left _ _ _ (by omega), List.getElem_take, ← kvFun_lt kv' j (by omega), hkW]
  have hk1' : ∀ j, k - s < j → kvFun (kv'.take (k + num + 1) ++ [x]) j = x := by
    intro j hj
    rcases Nat.lt_or_ge (k - s + p) j with h | h
    · rw [kvFun_append_right _ _ (by simp) _ (by omega)]
      rw [kvFun_last _ _ (by simp) (by simp)]; rfl
    · rw [hk1 j h, hx j hj h]
  have hdne : kv'.drop (k + num + 1) ≠ [] := by
    intro h; have := congrArg List.length h; simp at this; omega
  have hk2 : ∀ j, j ≤ p → kvFun (List.replicate (p + 1) x ++ kv'.drop (k + num + 1)) j = x := by
    intro j hj
    rw [kvFun_append_left _ _ _ (by simp; omega), List.getElem_replicate]
  have hk2' : ∀ j, p < j → kvFun (List.replicate (p + 1) x ++ kv'.drop (k + num + 1)) j = W (j + (k - s)) := by
    intro j hj
    rw [kvFun_append_right _ _ hdne _ (by simp; omega), ← hkW]
    have e1 : kv' = kv'.take (k + num + 1) ++ kv'.drop (k + num + 1) := (List.take_append_drop _ _).symm
    conv_rhs => rw [e1]
    rw [kvFun_append_right _ _ hdne _ (by omega), hlt, List.length_replicate]
    congr 1; omega
  have hap : k - s + p < n + num := by omega
  have hLc : ∀ j < n + num, cpFun L j = insPtsN (kvFun kv) k x p (cpFun cp) num j := by
    intro j hj; rw [hL]; exact cpFun_range_map _ _ _ hj
  have hmany := fun u hu1 hu2 => curve_insert_many p n (kvFun kv) hc.mono hc.pn (cpFun cp) k x a b d e hc.last num u hu1 hu2
  have hbr : 0 < p := hp
  refine ⟨hspan, by omega, ?_, ?_, ?_, ?_⟩
  · rw [hae']
    exact (curve_cut_left p (n + num) (k - s) W _ (insPtsN (kvFun kv) k x p (cpFun cp) num) x hcW hp hA (by omega) hx
      hWa hWb hk1 hk1' x (by rw [hWp]; exact h0.le) (le_refl _)).1
  · rw [hae]
    exact (curve_cut_right p (n + num) (k - s) W _ (insPtsN (kvFun kv) k x p (cpFun cp) num) x hcW hp hap hx
      hWb hk2 hk2' x (le_refl _) (by rw [hWn]; exact h1.le)).1
  · intro u hu1 hu2
    rw [hae', ← hmany u hu1 (hu2.trans h1.le)]
    rw [← (curve_cut_left p (n + num) (k - s) W _ (insPtsN (kvFun kv) k x p (cpFun cp) num) x hcW hp hA (by omega) hx
      hWa hWb hk1 hk1' u (by rw [hWp]; exact hu1) hu2).2]
    apply curvePoint_congr _ _ _ _ _ (by omega)
    intro j hj
    rw [cpFun_take _ _ _ hj, hLc j (by omega)]
  · intro u hu1 hu2
    rw [hae, ← hmany u (h0.le.trans hu1) hu2]
    rw [← (curve_cut_right p (n + num) (k - s) W _ (insPtsN (kvFun kv) k x p (cpFun cp) num) x hcW hp hap hx
      hWb hk2 hk2' u hu1 (by rw [hWn]; exact hu2)).2]
    apply curvePoint_congr _ _ _ _ _ (by omega)
    intro j hj
    rw [cpFun_drop, hLc _ (by omega)]

end generic

/-- Evaluation of a curve made from a knot vector. -/
theorem new_eval (tol : K) (ht : 0 ≤ tol) (kv : List K) (hs : kv.Pairwise (· ≤ ·)) (hsep : Separated tol kv)
    (hne : kv ≠ []) (A B : K) (hA : kvFun kv 0 = A) (hB : kvFun kv (kv.length - 1) = B) (hAB : A < B)
    (p : ℕ) (cp : List V) (hp : p < cp.length) (u : K) :
    (BCurve.new p cp (getKnotsAndMultiplicities tol kv).2 (getKnotsAndMultiplicities tol kv).1 none).eval
      ((u - A) / (B - A)) = curvePoint p (kvFun kv) (cpFun cp) cp.length u ∧
    ∀ w : List K, w.any (fun a => a ≠ 0) = true →
      (BCurve.new p cp (getKnotsAndMultiplicities tol kv).2 (getKnotsAndMultiplicities tol kv).1 (some w)).eval
        ((u - A) / (B - A)) = curvePointRational p (kvFun kv) (cpFun (BCurve.ctrlptsw cp w)) cp.length u := by
  have hkv := fun w => new_knotvector (V := V) tol ht kv hs hsep hne p cp w
  have hf : kvFun (kv.map fun k => (k - kvFun kv 0) / (kvFun kv (kv.length - 1) - kvFun kv 0)) =
      fun j => (kvFun kv j - A) / (B - A) := by
    funext j
    rw [kvFun_map _ kv hne, hA, hB]
  constructor
  · unfold BCurve.eval
    rw [hkv none]
    dsimp only [BCurve.new]
    rw [hf]
    exact curve_affine_param p cp.length (kvFun kv) hp (cpFun cp) A (B - A) (sub_pos.2 hAB) u
  · intro w hw
    unfold BCurve.eval
    rw [hkv (some w)]
    have e1 : (BCurve.new p cp (getKnotsAndMultiplicities tol kv).2 (getKnotsAndMultiplicities tol kv).1
        (some w)).weights = some w := by
      show (if w.any (fun a => a ≠ 0) then some w else none) = _
      rw [if_pos hw]
    rw [e1]
    dsimp only [BCurve.new]
    rw [hf]
    apply curvePointRational_congr
    exact curve_affine_param p cp.length (kvFun kv) hp _ A (B - A) (sub_pos.2 hAB) u

theorem any_ne_zero (w : List K) (hw : ∀ a ∈ w, 0 < a) (h : 0 < w.length) : w.any (fun a => a ≠ 0) = true := by
  rw [List.any_eq_true]
  obtain ⟨a, ha⟩ := List.exists_mem_of_length_pos h
  exact ⟨a, ha, by simpa using (hw a ha).ne'⟩

theorem ctrlptsw_take (cp : List V) (w : List K) (m : ℕ) :
    BCurve.ctrlptsw (cp.take m) (w.take m) = (BCurve.ctrlptsw cp w).take m := by
  unfold BCurve.ctrlptsw; rw [List.take_zipWith]
theorem ctrlptsw_drop (cp : List V) (w : List K) (m : ℕ) :
    BCurve.ctrlptsw (cp.drop m) (w.drop m) = (BCurve.ctrlptsw cp w).drop m := by
  unfold BCurve.ctrlptsw; rw [List.drop_zipWith]

/-- **C23** splitting a valid curve (rational or not) at any interior parameter `x` gives two curves that trace
the original one before and after `x`: both are parametrised on `[0, 1]`, the first one runs over `[0, x]` and
the second one over `[x, 1]`, affinely; in particular they meet at the point of parameter `x`. -/
theorem C23_split (tol : K) (c : BCurve K V) (hv : c.Valid tol) (x : K) (hx : c.Inner tol x) :
    ∃ c1 c2, c.split tol x = some (c1, c2) ∧ c1.degree = c.degree ∧ c2.degree = c.degree ∧
      (∀ v, 0 ≤ v → v ≤ 1 → c1.eval v = c.eval (v * x)) ∧
      (∀ v, 0 ≤ v → v ≤ 1 → c2.eval v = c.eval (x + v * (1 - x))) ∧
      c1.eval 1 = c.eval x ∧ c2.eval 0 = c.eval x := by
  suffices h : ∃ c1 c2, c.split tol x = some (c1, c2) ∧ c1.degree = c.degree ∧ c2.degree = c.degree ∧
      (∀ v, 0 ≤ v → v ≤ 1 → c1.eval v = c.eval (v * x)) ∧
      (∀ v, 0 ≤ v → v ≤ 1 → c2.eval v = c.eval (x + v * (1 - x))) by
    obtain ⟨c1, c2, h1, h2, h3, h4, h5⟩ := h
    refine ⟨c1, c2, h1, h2, h3, h4, h5, ?_, ?_⟩
    · rw [h4 1 zero_le_one (le_refl _), one_mul]
    · rw [h5 0 (le_refl _) zero_le_one, zero_mul, add_zero]
  obtain ⟨hx0, hx1, hxs⟩ := hx
  have hx : c.Inner tol x := ⟨hx0, hx1, hxs⟩
  have hd0 : kvFun c.knotvector c.degree < x := by rw [hv.dom0]; exact hx.1
  have hd1 : x < kvFun c.knotvector c.ctrlpts.length := by rw [hv.dom1]; exact hx.2.1
  have hmle := inner_mult_le tol c hv x hx
  obtain ⟨a, b, d, e, hl, f, g, i⟩ := inner_facts tol c hv x hx _ rfl
  set k := findSpanLinear c.degree (kvFun c.knotvector) c.ctrlpts.length x with hk
  set p := c.degree with hp
  set n := c.ctrlpts.length with hn
  set s := c.knotvector.count x with hs
  obtain ⟨t, t1, t2, t3, t4, t5, t6⟩ := insert_full_spec tol c hv x hx k hk (p - s) (by omega) false
  have hpn := hv.clamped.pn
  unfold BCurve.split
  dsimp only
  rw [if_neg (by
    rw [hv.length, show n + p + 1 - (p + 1) = n by omega, hv.dom0, hv.dom1]
    rintro (h | h)
    · exact hx0.ne' h
    · exact hx1.ne h)]
  rw [inner_mult tol c hv x hx, ← hk, ← hp, ← hs, t1]
  dsimp only
  -- the facts about the knots, from the control points as plain vectors
  obtain ⟨g1, g2, g3, g4, -, -⟩ := split_generic p c.knotvector c.ctrlpts x hv.deg hv.sorted hv.length hv.clamped hd0 hd1
    k hk (p - s) (by omega) _ rfl _ rfl
  rw [t2, t3, t4, g1]
  set kv' := knotInsertionKv c.knotvector x k (p - s) with hkv'
  set num := p - s with hnum
  have hmem' : ∀ a ∈ kv', a ∈ c.knotvector ∨ a = x := by
    intro a ha
    rw [hkv'] at ha
    unfold knotInsertionKv at ha
    rcases List.mem_append.1 ha with h | h
    · rcases List.mem_append.1 h with h | h
      · left; exact List.mem_of_mem_take h
      · right; exact List.eq_of_mem_replicate h
    · left; exact List.mem_of_mem_drop h
  set kv1 := kv'.take (k + num + 1) ++ [x] with hkv1
  set kv2 := List.replicate (p + 1) x ++ kv'.drop (k + num + 1) with hkv2
  have sep1 : Separated tol kv1 := separated_insert tol _ hv.sep x hxs _ (by
    intro a ha
    rcases List.mem_append.1 ha with h | h
    · exact hmem' a (List.mem_of_mem_take h)
    · right; simpa using h)
  have sep2 : Separated tol kv2 := separated_insert tol _ hv.sep x hxs _ (by
    intro a ha
    rcases List.mem_append.1 ha with h | h
    · right; exact List.eq_of_mem_replicate h
    · exact hmem' a (List.mem_of_mem_drop h))
  have hlen' : kv'.length = n + p + 1 + num := by
    have := hv.length
    rw [hkv']; simp [knotInsertionKv]; omega
  have hlen1 : kv1.length = k + num + 2 := by
    rw [hkv1]; simp; omega
  have hlen2 : kv2.length = p + 1 + (n + p - k) := by
    rw [hkv2]; simp; omega
  have hkf : kvFun kv' = insKnotsN (kvFun c.knotvector) k x num := kvFun_insKnotsN _ x k num hl
  -- end knots
  have A1 : kvFun kv1 0 = 0 := by
    rw [hkv1, kvFun_append_left _ _ _ (by simp; omega), List.getElem_take, ← kvFun_lt kv' 0 (by omega), hkf]
    unfold insKnotsN
    rw [if_pos (Nat.zero_le _), hv.clamped.left, hv.dom0]
  have B1 : kvFun kv1 (kv1.length - 1) = x := by
    rw [kvFun_last kv1 _ (by omega) (by intro h; rw [h] at hlen1; simp at hlen1)]
    simp [hkv1]
  have A2 : kvFun kv2 0 = x := by
    rw [hkv2, kvFun_append_left _ _ _ (by simp), List.getElem_replicate]
  have hdne : kv'.drop (k + num + 1) ≠ [] := by
    intro h; have := congrArg List.length h; simp at this; omega
  have B2 : kvFun kv2 (kv2.length - 1) = 1 := by
    have h2 : kv2 ≠ [] := List.append_ne_nil_of_right_ne_nil _ hdne
    have h3 : kv' ≠ [] := by
      intro h; have := congrArg List.length h; simp only [List.length_nil] at this; omega
    have : kv2.getLast h2 = kv'.getLast h3 := by
      simp only [hkv2]
      rw [List.getLast_append_of_ne_nil _ hdne, List.getLast_drop]
    rw [kvFun_last kv2 _ (by omega) h2, this, ← kvFun_last kv' (n + num + p) (by omega) h3, hkf]
    unfold insKnotsN
    rw [if_neg (by omega), if_neg (by omega), show n + num + p - num = n + p by omega, hv.clamped.right, hv.dom1]
  have so1 := pairwise_of_kvFun_mono kv1 g3.mono
  have so2 := pairwise_of_kvFun_mono kv2 g4.mono
  have ne1 : kv1 ≠ [] := by intro h; rw [h] at hlen1; simp at hlen1
  have ne2 : kv2 ≠ [] := List.append_ne_nil_of_right_ne_nil _ hdne
  have m1 : k - p + 1 + num - 1 = k - p + num := by omega
  rw [m1]
  have lt1 : (t.ctrlpts.take (k - p + 1 + num)).length = k - p + 1 + num := by rw [List.length_take, t4]; omega
  have lt2 : (t.ctrlpts.drop (k - p + num)).length = n + num - (k - p + num) := by rw [List.length_drop, t4]
  have E1 := fun u => new_eval tol hv.tol0 kv1 so1 sep1 ne1 0 x A1 B1 hx0 p (t.ctrlpts.take (k - p + 1 + num))
    (by rw [lt1]; exact g3.pn) u
  have E2 := fun u => new_eval tol hv.tol0 kv2 so2 sep2 ne2 x 1 A2 B2 hx1 p (t.ctrlpts.drop (k - p + num))
    (by rw [lt2]; exact g4.pn) u
  have r1 : ∀ v, (v * x - 0) / (x - 0) = v := by intro v; rw [sub_zero, sub_zero, mul_div_assoc, div_self hx0.ne', mul_one]
  have r2 : ∀ v, (x + v * (1 - x) - x) / (1 - x) = v := by
    intro v
    have : (1 - x) ≠ 0 := by intro h; linarith
    rw [add_sub_cancel_left, mul_div_assoc, div_self this, mul_one]
  have bnd1 : ∀ v, 0 ≤ v → v ≤ 1 → 0 ≤ v * x ∧ v * x ≤ x := by
    intro v h0 h1
    exact ⟨mul_nonneg h0 hx0.le, by nlinarith⟩
  have bnd2 : ∀ v, 0 ≤ v → v ≤ 1 → x ≤ x + v * (1 - x) ∧ x + v * (1 - x) ≤ 1 := by
    intro v h0 h1
    constructor <;> nlinarith
  refine ⟨_, _, rfl, rfl, rfl, ?_, ?_⟩
  · intro v hv0 hv1
    obtain ⟨u0, u1⟩ := bnd1 v hv0 hv1
    obtain ⟨E, Ew⟩ := E1 (v * x)
    rw [r1] at E Ew
    cases hcw : c.weights with
    | none =>
      obtain ⟨h7, h8⟩ := t5 hcw
      rw [h7, Option.map_none, E, lt1]
      unfold BCurve.eval
      rw [hcw]
      dsimp only
      obtain ⟨-, -, -, -, G, -⟩ := split_generic p c.knotvector c.ctrlpts x hv.deg hv.sorted hv.length hv.clamped hd0 hd1
        k hk num (by omega) kv' hkv' t.ctrlpts h8
      exact G _ (by rw [hv.dom0]; exact u0) u1
    | some w =>
      obtain ⟨w', h7, h8, h9, h10⟩ := t6 w hcw
      rw [h7, Option.map_some, Ew _ (any_ne_zero _ (fun a ha => h9 a (List.mem_of_mem_take ha)) (by simp; omega)),
        ctrlptsw_take, lt1]
      unfold BCurve.eval
      rw [hcw]
      dsimp only
      apply curvePointRational_congr
      have hlw := ctrlptsw_length c.ctrlpts w (hv.wlen w hcw)
      obtain ⟨-, -, -, -, G, -⟩ := split_generic p c.knotvector (BCurve.ctrlptsw c.ctrlpts w) x hv.deg hv.sorted
        (by rw [hlw]; exact hv.length) (by rw [hlw]; exact hv.clamped) hd0 (by rw [hlw]; exact hd1)
        k (by rw [hlw]) num (by omega) kv' hkv' (BCurve.ctrlptsw t.ctrlpts w') (by rw [hlw]; exact h10)
      rw [G _ (by rw [hv.dom0]; exact u0) u1, hlw]
  · intro v hv0 hv1
    obtain ⟨u0, u1⟩ := bnd2 v hv0 hv1
    obtain ⟨E, Ew⟩ := E2 (x + v * (1 - x))
    rw [r2] at E Ew
    cases hcw : c.weights with
    | none =>
      obtain ⟨h7, h8⟩ := t5 hcw
      rw [h7, Option.map_none, E, lt2]
      unfold BCurve.eval
      rw [hcw]
      dsimp only
      obtain ⟨-, -, -, -, -, G⟩ := split_generic p c.knotvector c.ctrlpts x hv.deg hv.sorted hv.length hv.clamped hd0 hd1
        k hk num (by omega) kv' hkv' t.ctrlpts h8
      exact G _ u0 (by rw [hv.dom1]; exact u1)
    | some w =>
      obtain ⟨w', h7, h8, h9, h10⟩ := t6 w hcw
      rw [h7, Option.map_some, Ew _ (any_ne_zero _ (fun a ha => h9 a (List.mem_of_mem_drop ha)) (by simp; omega)),
        ctrlptsw_drop, lt2]
      unfold BCurve.eval
      rw [hcw]
      dsimp only
      apply curvePointRational_congr
      have hlw := ctrlptsw_length c.ctrlpts w (hv.wlen w hcw)
      obtain ⟨-, -, -, -, -, G⟩ := split_generic p c.knotvector (BCurve.ctrlptsw c.ctrlpts w) x hv.deg hv.sorted
        (by rw [hlw]; exact hv.length) (by rw [hlw]; exact hv.clamped) hd0 (by rw [hlw]; exact hd1)
        k (by rw [hlw]) num (by omega) kv' hkv' (BCurve.ctrlptsw t.ctrlpts w') (by rw [hlw]; exact h10)
      rw [hlw] at G
      rw [G _ u0 (by rw [hv.dom1]; exact u1)]

example : ∃ c1 c2, (exampleCurve (some [1, 2, 1, 3])).split (1 / 10 ^ 15) (1 / 2) = some (c1, c2) ∧
    ∀ v, 0 ≤ v → v ≤ 1 → c1.eval v = (exampleCurve (some [1, 2, 1, 3])).eval (v * (1 / 2)) := by
  obtain ⟨c1, c2, h1, -, -, h2, -⟩ := C23_split (1 / 10 ^ 15) (exampleCurve (some [1, 2, 1, 3]))
    (exampleCurve_valid _ (by simp) (by simp)) (1 / 2) (exampleCurve_inner _ _ (Or.inl rfl))
  exact ⟨c1, c2, h1, h2⟩

/-- **C23** splitting at an end of the domain is refused. -/
theorem C23_split_ends (tol : K) (c : BCurve K V) (hv : c.Valid tol) :
    c.split tol 0 = none ∧ c.split tol 1 = none := by
  unfold BCurve.split
  dsimp only
  rw [if_pos (Or.inl hv.dom0.symm), if_pos]
  · exact ⟨rfl, rfl⟩
  · right
    rw [hv.length, show c.ctrlpts.length + c.degree + 1 - (c.degree + 1) = c.ctrlpts.length by omega, hv.dom1]

/-! ### C24 -/

theorem repeatKnots_reverse (knots : List K) (mults : List ℕ) (h : mults.length = knots.length) :
    repeatKnots knots.reverse mults.reverse = (repeatKnots knots mults).reverse := by
  unfold repeatKnots
  rw [List.zip_eq_zipWith, List.zip_eq_zipWith, ← List.reverse_zipWith h.symm, List.flatMap_reverse]
  simp [Function.comp_def]

theorem reverse_knotvector (tol : K) (c : BCurve K V) (hv : c.Valid tol) :
    c.reverse.knotvector = (c.knotvector.map fun k => 1 - k).reverse := by
  unfold BCurve.knotvector BCurve.reverse BCurve.new standardizeKnotVector
  dsimp only
  have h0 : c.knots.reverse.headD 0 = 1 := by
    have := hv.lastK
    rw [List.headD_eq_head?_getD, List.head?_reverse, this]; rfl
  have h1 : c.knots.reverse.getLastD 0 = 0 := by
    have := hv.headK
    rw [List.getLastD_eq_getLast?, List.getLast?_reverse, this]; rfl
  rw [h0, h1, repeatKnots_map, repeatKnots_reverse _ _ hv.multlen, List.map_reverse]
  congr 1
  apply List.map_congr_left
  intro a _
  ring

theorem kvFun_reverse (kv : List K) (hne : kv ≠ []) (j : ℕ) :
    kvFun kv.reverse j = kvFun kv (kv.length - 1 - j) := by
  have hl : 0 < kv.length := List.length_pos_iff.2 hne
  rcases Nat.lt_or_ge j kv.length with h | h
  · rw [kvFun_lt _ _ (by simpa using h), kvFun_lt _ _ (by omega), List.getElem_reverse]
  · rw [kvFun_last _ _ (by simp; omega) (by simpa using hne), List.getLast_reverse, kvFun_lt _ _ (by omega),
      List.head_eq_getElem]
    congr 1; omega

theorem cpFun_reverse (l : List V) (i : ℕ) (h : i < l.length) : cpFun l.reverse i = cpFun l (l.length - 1 - i) := by
  unfold cpFun
  rw [List.getD_eq_getElem _ _ (by simpa using h), List.getD_eq_getElem _ _ (by omega), List.getElem_reverse]

theorem reverse_main (tol : K) (c : BCurve K V) (hv : c.Valid tol) (u : K) (h0 : 0 ≤ u) (h1 : u ≤ 1)
    {M : Type*} [AddCommGroup M] [Module K M] (P Q : List M) (hP : P.length = c.ctrlpts.length) (hQ : Q = P.reverse) :
    curvePoint c.degree (revKnots 1 (c.ctrlpts.length + c.degree) (kvFun c.knotvector)) (cpFun Q)
      c.ctrlpts.length u = curvePoint c.degree (kvFun c.knotvector) (cpFun P) c.ctrlpts.length (1 - u) := by
  have := curve_reverse c.degree c.ctrlpts.length (kvFun c.knotvector) hv.clamped hv.interior (cpFun P) 1 (1 - u)
    (by rw [hv.dom0]; linarith) (by rw [hv.dom1]; linarith)
  rw [sub_sub_cancel] at this
  rw [← this]
  apply curvePoint_congr _ _ _ _ _ hv.clamped.pn
  intro i hi
  rw [hQ, cpFun_reverse _ _ (by omega), hP]

/-- **C24** (partial: weights absent, or the same when read from the end) the reversed curve at `u` is the
original one at `1 - u`. -/
theorem C24_reverse_partial (tol : K) (c : BCurve K V) (hv : c.Valid tol)
    (hw : ∀ w, c.weights = some w → w.reverse = w) (u : K) (h0 : 0 ≤ u) (h1 : u ≤ 1) :
    c.reverse.eval u = c.eval (1 - u) := by
  have hne : c.knotvector ≠ [] := by
    intro h; have := hv.length; rw [h] at this; simp at this
  have hpn := hv.clamped.pn
  have hkv : kvFun c.reverse.knotvector =
      revKnots 1 (c.ctrlpts.length + c.degree) (kvFun c.knotvector) := by
    funext j
    rw [reverse_knotvector tol c hv, kvFun_reverse _ (by simpa using hne), kvFun_map _ _ hne, List.length_map, hv.length]
    rfl
  have main := fun (P Q : List V) h1' h2' => reverse_main tol c hv u h0 h1 P Q h1' h2'
  unfold BCurve.eval
  rw [hkv]
  cases hcw : c.weights with
  | none =>
    have e : c.reverse.weights = none := by unfold BCurve.reverse BCurve.new; rw [hcw]
    rw [e]
    dsimp only
    have := main c.ctrlpts c.reverse.ctrlpts rfl rfl
    rw [← this]
    simp [BCurve.reverse, BCurve.new]
  | some w =>
    have hlw := hv.wlen w hcw
    have e : c.reverse.weights = some w := by
      unfold BCurve.reverse BCurve.new
      rw [hcw]
      dsimp only
      rw [if_pos (any_ne_zero w (hv.wpos w hcw) (by omega))]
    rw [e]
    dsimp only
    have := reverse_main tol c hv u h0 h1 (BCurve.ctrlptsw c.ctrlpts w) (BCurve.ctrlptsw c.reverse.ctrlpts w) (ctrlptsw_length _ _ hlw) (by
      unfold BCurve.ctrlptsw
      rw [List.reverse_zipWith hlw.symm, hw w hcw]; rfl)
    have e2 : c.reverse.ctrlpts.length = c.ctrlpts.length := by simp [BCurve.reverse, BCurve.new]
    have e3 : c.reverse.degree = c.degree := rfl
    rw [e2, e3]
    exact curvePointRational_congr _ _ _ _ _ _ _ _ _ _ this

/-- The full property, for all curves. -/
def C24_full_statement (K V : Type) [Field K] [LinearOrder K] [AddCommGroup V] [Module K V] : Prop :=
  ∀ (c : BCurve K V), c.Valid (1 / 10 ^ 15) → ∀ u, 0 ≤ u → u ≤ 1 → c.reverse.eval u = c.eval (1 - u)

/-- **C24** the weights are not reversed with the control points, so the reversed rational curve is another
curve. -/
theorem C24_counterexample : ¬ C24_full_statement ℚ (ℚ × ℚ) := by
  intro h
  have := h (exampleCurve (some [1, 2, 1, 3])) (exampleCurve_valid _ (by simp) (by simp)) (1 / 3) (by norm_num)
    (by norm_num)
  revert this
  decide +kernel

/-- **C24** reversing twice gives the curve back. -/
theorem C24_twice (tol : K) (c : BCurve K V) (hv : c.Valid tol) : c.reverse.reverse = c := by
  have h0 : c.knots.reverse.headD 0 = 1 := by
    have := hv.lastK
    rw [List.headD_eq_head?_getD, List.head?_reverse, this]; rfl
  have h1 : c.knots.reverse.getLastD 0 = 0 := by
    have := hv.headK
    rw [List.getLastD_eq_getLast?, List.getLast?_reverse, this]; rfl
  have hst : standardizeKnotVector c.knots.reverse = (c.knots.map fun k => 1 - k).reverse := by
    unfold standardizeKnotVector
    rw [h0, h1, List.map_reverse]
    congr 1
    apply List.map_congr_left
    intro a _
    ring
  have hst2 : standardizeKnotVector (c.knots.map fun k => 1 - k) = c.knots := by
    unfold standardizeKnotVector
    have g0 : (c.knots.map fun k => 1 - k).headD 0 = 1 := by
      rw [List.headD_eq_head?_getD, List.head?_map, hv.headK]; simp
    have g1 : (c.knots.map fun k => 1 - k).getLastD 0 = 0 := by
      rw [List.getLastD_eq_getLast?, List.getLast?_map, hv.lastK]; simp
    rw [g0, g1, List.map_map]
    conv_rhs => rw [← List.map_id c.knots]
    apply List.map_congr_left
    intro a _
    simp
  have hw : ∀ w, c.weights = some w → w.any (fun a => a ≠ 0) = true := by
    intro w hw
    have h1 := hv.wlen w hw
    have h2 := hv.clamped.pn
    exact any_ne_zero w (hv.wpos w hw) (by omega)
  obtain ⟨dg, cp, mu, kn, we⟩ := c
  unfold BCurve.reverse BCurve.new
  dsimp only at *
  rw [hst, List.reverse_reverse, List.reverse_reverse, List.reverse_reverse, hst2]
  cases we with
  | none => rfl
  | some w => simp only [if_pos (hw w rfl)]

example : (exampleCurve none).reverse.eval (1 / 3) = (exampleCurve none).eval (2 / 3) := by
  have := C24_reverse_partial (1 / 10 ^ 15) (exampleCurve none) (exampleCurve_valid _ (by simp) (by simp))
    (by intro w h; simp [exampleCurve] at h) (1 / 3) (by norm_num) (by norm_num)
  rw [this]; norm_num
example : (exampleCurve none).eval (1 / 3) ≠ (exampleCurve none).eval (2 / 3) := by decide +kernel

end
end Volmdlr
