import Verif.Nurbs.SurfExtract

/-!
# C154: `link_curves` and `merge_with_curves`
-/

namespace Volmdlr
open Finset
section
variable {K : Type*} [Field K] [LinearOrder K] [IsStrictOrderedRing K]
variable {V : Type*} [AddCommGroup V] [Module K V]

/-- Two curves joined end to end: the knots of the second one are moved by the end `e` of the first one. -/
theorem join_curves (p nA nB : ℕ) (KA KB U : ℕ → K) (e : K) (P : ℕ → V) (hp : 0 < p) (hA : Clamped p nA KA)
    (hB : Clamped p nB KB) (hAe : ∀ j, nA ≤ j → KA j = e) (hB0 : KB p = 0)
    (hU1 : ∀ j, j < nA → U j = KA j) (hU2 : ∀ j, nA ≤ j → U j = e + KB (j - nA + 1)) :
    Clamped p (nA + nB - 1) U ∧
    (∀ u, KA p ≤ u → u ≤ e → curvePoint p U P (nA + nB - 1) u = curvePoint p KA P nA u) ∧
    ∀ u, 0 ≤ u → u ≤ KB nB →
      curvePoint p U P (nA + nB - 1) (e + u) = curvePoint p KB (fun i => P (i + (nA - 1))) nB u := by
  have hpA := hA.pn
  have hpB := hB.pn
  have hB00 : ∀ j, j ≤ p → KB j = 0 := by
    intro j hj
    apply le_antisymm
    · rw [← hB0]; exact hB.mono hj
    · rw [← hB0, ← hB.left]; exact hB.mono (Nat.zero_le _)
  have hc : Clamped p (nA + nB - 1) U := by
    refine ⟨by omega, ?_, ?_, ?_, ?_, ?_⟩
    · intro i j hij
      rcases Nat.lt_or_ge j nA with h | h
      · rw [hU1 j h, hU1 i (by omega)]; exact hA.mono hij
      · rw [hU2 j h]
        rcases Nat.lt_or_ge i nA with h' | h'
        · rw [hU1 i h']
          have h1 := hA.mono (show i ≤ nA by omega)
          rw [hAe nA (le_refl _)] at h1
          have h2 := hB.mono (show 0 ≤ j - nA + 1 by omega)
          rw [hB00 0 (by omega)] at h2
          linarith
        · rw [hU2 i h']
          have := hB.mono (show i - nA + 1 ≤ j - nA + 1 by omega)
          linarith
    · rw [hU1 0 (by omega), hU1 p hpA, hA.left]
    · rw [hU2 _ (by omega), hU2 _ (by omega), show nA + nB - 1 + p - nA + 1 = nB + p by omega,
        show nA + nB - 1 - nA + 1 = nB by omega, hB.right]
    · rw [hU1 p hpA]
      rcases Nat.lt_or_ge (p + 1) nA with h | h
      · rw [hU1 _ h]; exact hA.first
      · have hn : nA = p + 1 := by omega
        rw [hU2 _ h, hn, show p + 1 - (p + 1) + 1 = 1 by omega, hB00 1 (by omega), add_zero]
        have := hA.first
        rwa [← hn, hAe nA (le_refl _)] at this
    · rw [hU2 _ (by omega), hU2 _ (by omega), show nA + nB - 1 - 1 - nA + 1 = nB - 1 by omega,
        show nA + nB - 1 - nA + 1 = nB by omega]
      have := hB.last
      linarith
  have hx : ∀ i, nA - 1 < i → i ≤ nA - 1 + p → U i = e := by
    intro i h1 h2
    rw [hU2 i (by omega), hB00 _ (by omega), add_zero]
  have h2 : e < U (nA - 1 + p + 1) := by
    rw [hU2 _ (by omega), show nA - 1 + p + 1 - nA + 1 = p + 1 by omega]
    have := hB.first
    rw [hB0] at this
    linarith
  refine ⟨hc, ?_, ?_⟩
  · intro u hu1 hu2
    have h := (curve_cut_left p (nA + nB - 1) (nA - 1) U KA P e hc hp (by omega) (by omega) hx
      (by
        rw [hU1 _ (by omega)]
        have := hA.last
        rwa [hAe nA (le_refl _)] at this) h2
      (by
        intro j hj
        rcases Nat.lt_or_ge j nA with h | h
        · rw [hU1 j h]
        · rw [hx j (by omega) hj, hAe j h])
      (fun j hj => hAe j (by omega)) u (by rw [hU1 p hpA]; exact hu1) hu2).2
    rw [show nA - 1 + 1 = nA by omega] at h
    exact h.symm
  · intro u hu1 hu2
    have hUn : U (nA + nB - 1) = e + KB nB := by
      rw [hU2 _ (by omega), show nA + nB - 1 - nA + 1 = nB by omega]
    have h := (curve_cut_right p (nA + nB - 1) (nA - 1) U (fun j => e + KB j) P e hc hp (by omega) hx h2
      (by intro j hj; rw [hB00 j hj, add_zero])
      (by
        intro j hj
        rw [hU2 _ (by omega), show j + (nA - 1) - nA + 1 = j by omega])
      (e + u) (by linarith) (by rw [hUn]; linarith)).2
    rw [show nA + nB - 1 - (nA - 1) = nB by omega] at h
    rw [← h]
    have h3 := curve_affine_param p nB (fun j => e + KB j) hpB (fun i => P (i + (nA - 1))) e 1 one_pos (e + u)
    rw [← h3]
    simp

/-! ### the loop -/

open BCurve

/-- The homogeneous control points of a curve. -/
def homog (c : BCurve K V) : List (V × K) := ctrlptsw c.ctrlpts (linkWeights c)

omit [IsStrictOrderedRing K] in
theorem linkWeights_length {tol : K} {c : BCurve K V} (hv : c.Valid tol) : (linkWeights c).length = c.ctrlpts.length := by
  unfold linkWeights
  cases h : c.weights with
  | none => simp
  | some w => exact hv.wlen w h

theorem linkWeights_pos {tol : K} {c : BCurve K V} (hv : c.Valid tol) : ∀ a ∈ linkWeights c, 0 < a := by
  unfold linkWeights
  cases h : c.weights with
  | none => intro a ha; rw [List.eq_of_mem_replicate ha]; exact one_pos
  | some w => exact hv.wpos w h

/-- All weights equal to one: the rational formula gives the same point. -/
theorem ones_eval (p : ℕ) (U : ℕ → K) (cp : List V) (hc : Clamped p cp.length U) (w : List K) (hw : w.length = cp.length)
    (h1 : ∀ a ∈ w, a = 1) (u : K) (hu1 : U p ≤ u) (hu2 : u ≤ U cp.length) :
    curvePointRational p U (cpFun (ctrlptsw cp w)) cp.length u = curvePoint p U (cpFun cp) cp.length u := by
  rw [← C21_equal_weights p cp.length U hc (cpFun cp) 1 one_ne_zero u hu1 hu2]
  unfold curvePointRational
  rw [curvePoint_congr p U (cpFun (ctrlptsw cp w)) (weighted (cpFun cp) fun _ => 1) cp.length hc.pn]
  intro i hi
  rw [cpFun_ctrlptsw cp w hw, List.getD_eq_getElem _ _ (by omega), h1 _ (List.getElem_mem _)]
  rfl

theorem homog_eval {tol : K} {c : BCurve K V} (hv : c.Valid tol) (t : K) (h0 : 0 ≤ t) (h1 : t ≤ 1) :
    c.eval t = curvePointRational c.degree (kvFun c.knotvector) (cpFun (homog c)) c.ctrlpts.length t := by
  unfold BCurve.eval homog
  have hl := linkWeights_length hv
  unfold linkWeights at *
  cases h : c.weights with
  | none =>
    simp only [h] at *
    exact (ones_eval c.degree _ c.ctrlpts hv.clamped _ hl (fun a ha => List.eq_of_mem_replicate ha) t
      (by rw [hv.dom0]; exact h0) (by rw [hv.dom1]; exact h1)).symm
  | some w => rfl

/-- What holds after each round of the loop: `done` are the curves that have been linked. -/
structure LinkInv (tol : K) (p : ℕ) (done : List (BCurve K V)) (kv : List K) (cp : List V) (w : List K) (e : K) :
    Prop where
  kvlen : kv.length = cp.length
  wlen : w.length = cp.length
  wpos : ∀ a ∈ w, 0 < a
  e_eq : e = done.length
  ne : done ≠ []
  clamped : Clamped p cp.length (kvFun (kv ++ List.replicate (p + 1) e))
  start : kvFun (kv ++ List.replicate (p + 1) e) p = 0
  sep : Separated tol (kv ++ List.replicate (p + 1) e)
  lastP : ∀ c ∈ done.getLast?, cp.getLast? = c.ctrlpts.getLast?
  lastW : ∀ c ∈ done.getLast?, w.getLast? = (linkWeights c).getLast?
  points : ∀ i (hi : i < done.length) t, 0 ≤ t → t ≤ 1 →
    curvePoint p (kvFun (kv ++ List.replicate (p + 1) e)) (cpFun (ctrlptsw cp w)) cp.length (i + t) =
      curvePoint p (kvFun (done[i]).knotvector) (cpFun (homog done[i])) (done[i]).ctrlpts.length t

omit [IsStrictOrderedRing K] in
theorem valid_lastKnot {tol : K} {c : BCurve K V} (hv : c.Valid tol) : c.knotvector.getLastD 0 = 1 := by
  have hne : c.knotvector ≠ [] := by
    intro h; have := hv.length; rw [h] at this; simp at this
  have h1 : kvFun c.knotvector (c.ctrlpts.length + c.degree) = 1 := by rw [hv.clamped.right, hv.dom1]
  rw [kvFun_last _ _ (by rw [hv.length]) hne] at h1
  rw [List.getLastD_eq_getLast?, List.getLast?_eq_some_getLast hne]
  exact h1

omit [IsStrictOrderedRing K] in
theorem valid_tail {tol : K} {c : BCurve K V} (hv : c.Valid tol) (j : ℕ) (hj : c.ctrlpts.length ≤ j) :
    kvFun c.knotvector j = 1 := by
  rcases Nat.lt_or_ge j (c.ctrlpts.length + c.degree + 1) with h | h
  · apply le_antisymm
    · rw [← hv.dom1, ← hv.clamped.right]; exact hv.clamped.mono (by omega)
    · rw [← hv.dom1]; exact hv.clamped.mono hj
  · rw [kvFun_ge _ _ (by rw [hv.length]; exact h), valid_lastKnot hv]

omit [IsStrictOrderedRing K] in
theorem kvFun_full (kv : List K) (p : ℕ) (e : K) (j : ℕ) (hj : kv.length ≤ j) :
    kvFun (kv ++ List.replicate (p + 1) e) j = e := by
  rw [kvFun_append_right _ _ (by simp) _ hj]
  rcases Nat.lt_or_ge (j - kv.length) (p + 1) with h | h
  · rw [kvFun_lt _ _ (by simpa using h)]; simp
  · rw [kvFun_ge _ _ (by simpa using h)]
    simp [List.replicate_succ', List.getLastD_eq_getLast?]

/-- Specification: the weights of a curve, which are 1 when none are given. -/
def weightsOf (c : BCurve K V) : List K := c.weights.getD (c.ctrlpts.map fun _ => 1)

/-- Specification: the last point and weight of `a` are the first ones of `b`. -/
def Joined (a b : BCurve K V) : Prop :=
  a.ctrlpts.getLast? = b.ctrlpts.head? ∧ (weightsOf a).getLast? = (weightsOf b).head?

omit [LinearOrder K] [IsStrictOrderedRing K] [AddCommGroup V] [Module K V] in
theorem weightsOf_eq (c : BCurve K V) : weightsOf c = linkWeights c := by
  unfold weightsOf linkWeights
  cases c.weights <;> simp

theorem link_first (tol : K) (c : BCurve K V) (hv : c.Valid tol) :
    LinkInv tol c.degree [c] (c.knotvector.take (c.knotvector.length - (c.degree + 1))) c.ctrlpts (linkWeights c)
      (c.knotvector.getLastD 0) := by
  have hlen := hv.length
  have hfull : c.knotvector.take (c.knotvector.length - (c.degree + 1)) ++ List.replicate (c.degree + 1) 1 =
      c.knotvector := by
    apply List.ext_getElem
    · simp; omega
    · intro i h1 h2
      rw [List.getElem_append]
      split_ifs with h
      · rw [List.getElem_take]
      · simp only [List.getElem_replicate]
        rw [← kvFun_lt _ _ h2]
        exact (valid_tail hv i (by simp at h; omega)).symm
  rw [valid_lastKnot hv]
  refine ⟨by simp; omega, linkWeights_length hv, linkWeights_pos hv, by simp, by simp, ?_, ?_, ?_, ?_, ?_, ?_⟩
  · rw [hfull]; exact hv.clamped
  · rw [hfull]; exact hv.dom0
  · rw [hfull]; exact hv.sep
  · simp
  · simp
  · intro i hi t h0 h1
    obtain rfl : i = 0 := by simpa using hi
    rw [hfull]
    simp [homog]

theorem link_step (tol : K) (p : ℕ) (hp : 0 < p) (done : List (BCurve K V)) (kv : List K) (cp : List V) (w : List K)
    (e : K) (inv : LinkInv tol p done kv cp w e) (c : BCurve K V) (hv : c.Valid tol) (hd : c.degree = p)
    (hj : ∀ a ∈ done.getLast?, Joined a c) :
    LinkInv tol p (done ++ [c])
      (kv ++ ((c.knotvector.take (c.knotvector.length - (c.degree + 1))).drop 1).map (fun k => e + k))
      (cp ++ c.ctrlpts.drop 1) (w ++ (linkWeights c).drop 1) (e + c.knotvector.getLastD 0) := by
  subst hd
  have hlen := hv.length
  have hpn := hv.clamped.pn
  have hpA := inv.clamped.pn
  have hwl := linkWeights_length hv
  have hkvlen := inv.kvlen
  have hwlen := inv.wlen
  rw [valid_lastKnot hv]
  set kv' := kv ++ ((c.knotvector.take (c.knotvector.length - (c.degree + 1))).drop 1).map (fun k => e + k) with hkv'
  have hkl : kv'.length = cp.length + c.ctrlpts.length - 1 := by
    rw [hkv']; simp; omega
  have hcl : (cp ++ c.ctrlpts.drop 1).length = cp.length + c.ctrlpts.length - 1 := by simp; omega
  set U := kvFun (kv' ++ List.replicate (c.degree + 1) (e + 1)) with hU
  have hU1 : ∀ j, j < cp.length → U j = kvFun (kv ++ List.replicate (c.degree + 1) e) j := by
    intro j hj
    rw [hU, hkv', List.append_assoc, kvFun_append_left _ _ _ (by omega), kvFun_append_left _ _ _ (by omega)]
  have hU2 : ∀ j, cp.length ≤ j → U j = e + kvFun c.knotvector (j - cp.length + 1) := by
    intro j hj
    rcases Nat.lt_or_ge j kv'.length with h | h
    · rw [hU, kvFun_append_left _ _ _ h]
      simp only [hkv']
      rw [List.getElem_append_right (by omega), List.getElem_map, List.getElem_drop, List.getElem_take,
        kvFun_lt _ _ (by omega)]
      congr 2
      omega
    · rw [hU, kvFun_full _ _ _ _ h, valid_tail hv _ (by omega)]
  obtain ⟨a, ha⟩ : ∃ a, done.getLast? = some a := ⟨_, List.getLast?_eq_some_getLast inv.ne⟩
  have hjoin := hj a (by rw [ha]; rfl)
  have hlP := inv.lastP a (by rw [ha]; rfl)
  have hlW := inv.lastW a (by rw [ha]; rfl)
  rw [hjoin.1] at hlP
  rw [← weightsOf_eq a, hjoin.2, weightsOf_eq] at hlW
  have hQ : ctrlptsw (cp ++ c.ctrlpts.drop 1) (w ++ (linkWeights c).drop 1) = ctrlptsw cp w ++ (homog c).drop 1 := by
    unfold homog
    rw [← ctrlptsw_drop]
    unfold ctrlptsw
    rw [List.zipWith_append (by omega)]
  set Q := ctrlptsw (cp ++ c.ctrlpts.drop 1) (w ++ (linkWeights c).drop 1) with hQd
  have hQl : (ctrlptsw cp w).length = cp.length := ctrlptsw_length _ _ hwlen
  have hHl : (homog c).length = c.ctrlpts.length := ctrlptsw_length _ _ hwl
  have hQA : ∀ i < cp.length, cpFun Q i = cpFun (ctrlptsw cp w) i := by
    intro i hi
    rw [hQ]; unfold cpFun
    rw [List.getD_eq_getElem _ _ (by simp; omega), List.getD_eq_getElem _ _ (by omega),
      List.getElem_append_left (by omega)]
  have hQB : ∀ i < c.ctrlpts.length, cpFun Q (i + (cp.length - 1)) = cpFun (homog c) i := by
    intro i hi
    rcases Nat.eq_zero_or_pos i with rfl | hi0
    · rw [zero_add, hQA _ (by omega), cpFun_ctrlptsw cp w hwlen]
      unfold homog
      rw [cpFun_ctrlptsw _ _ hwl]
      have e1 : cpFun cp (cp.length - 1) = cpFun c.ctrlpts 0 := by
        unfold cpFun
        rw [List.getLast?_eq_getElem?, List.head?_eq_getElem?] at hlP
        rw [List.getD_eq_getElem?_getD, List.getD_eq_getElem?_getD, hlP]
      have e2 : w.getD (cp.length - 1) 0 = (linkWeights c).getD 0 0 := by
        rw [List.getLast?_eq_getElem?, List.head?_eq_getElem?] at hlW
        rw [List.getD_eq_getElem?_getD, List.getD_eq_getElem?_getD, ← hwlen, hlW]
      rw [e1, e2]
    · rw [hQ]; unfold cpFun
      rw [List.getD_eq_getElem _ _ (by simp; omega), List.getD_eq_getElem _ _ (by omega),
        List.getElem_append_right (by omega), List.getElem_drop]
      congr 1
      omega
  obtain ⟨j1, j2, j3⟩ := join_curves c.degree cp.length c.ctrlpts.length
    (kvFun (kv ++ List.replicate (c.degree + 1) e)) (kvFun c.knotvector) U e (cpFun Q) hp inv.clamped hv.clamped
    (fun j hj => kvFun_full _ _ _ _ (by omega)) hv.dom0 hU1 hU2
  have he0 : (0 : K) ≤ e := by rw [inv.e_eq]; exact Nat.cast_nonneg _
  refine ⟨by rw [hkl, hcl], by simp; omega, ?_, by rw [inv.e_eq]; simp, by simp, ?_, ?_, ?_, ?_, ?_, ?_⟩
  · intro x hx
    rcases List.mem_append.1 hx with h | h
    · exact inv.wpos x h
    · exact linkWeights_pos hv x (List.mem_of_mem_drop h)
  · rw [hcl]; exact j1
  · exact (hU1 c.degree (by omega)).trans inv.start
  · -- the knots stay apart
    have hmem : ∀ x ∈ kv' ++ List.replicate (c.degree + 1) (e + 1),
        (x ∈ kv ∧ x ≤ e) ∨ ∃ k ∈ c.knotvector, 0 ≤ k ∧ x = e + k := by
      have hk0 : ∀ k ∈ c.knotvector, 0 ≤ k := by
        intro k hk
        obtain ⟨i, hi, rfl⟩ := List.getElem_of_mem hk
        rw [← kvFun_lt _ _ hi, ← hv.dom0, ← hv.clamped.left]
        exact hv.clamped.mono (Nat.zero_le _)
      have hk1 : (1 : K) ∈ c.knotvector := by
        rw [← hv.dom1, kvFun_lt _ _ (by omega)]; exact List.getElem_mem _
      intro x hx
      rcases List.mem_append.1 hx with h | h
      · rw [hkv'] at h
        rcases List.mem_append.1 h with h | h
        · left
          refine ⟨h, ?_⟩
          obtain ⟨i, hi, rfl⟩ := List.getElem_of_mem h
          rw [← kvFun_append_left kv (List.replicate (c.degree + 1) e) i hi]
          exact (inv.clamped.mono hi.le).trans_eq (kvFun_full kv c.degree e kv.length (le_refl _))
        · right
          obtain ⟨k, hk, rfl⟩ := List.mem_map.1 h
          have := List.mem_of_mem_take (List.mem_of_mem_drop hk)
          exact ⟨k, this, hk0 k this, rfl⟩
      · right
        rw [List.eq_of_mem_replicate h]
        exact ⟨1, hk1, zero_le_one, rfl⟩
    have he : e ∈ kv ++ List.replicate (c.degree + 1) e := by simp
    have h00 : (0 : K) ∈ c.knotvector := by
      rw [← hv.dom0, kvFun_lt _ _ (by omega)]; exact List.getElem_mem _
    have mixed : ∀ x ∈ kv, x ≤ e → ∀ k ∈ c.knotvector, 0 ≤ k → x ≠ e + k → tol < |x - (e + k)| := by
      intro x hx hxe k hk hk0 hne
      rw [abs_sub_comm, abs_of_nonneg (by linarith)]
      rcases hxe.lt_or_eq with h | h
      · have := inv.sep x (by simp [hx]) e he h.ne
        rw [abs_sub_comm, abs_of_nonneg (by linarith)] at this
        linarith
      · have hk : k ≠ 0 := by rintro rfl; exact hne (by rw [h, add_zero])
        have := hv.sep k (by assumption) 0 h00 hk
        rw [sub_zero, abs_of_nonneg hk0] at this
        linarith
    intro x hx y hy hne
    rcases hmem x hx with ⟨hx1, hx2⟩ | ⟨k, hk, hk0, rfl⟩ <;> rcases hmem y hy with ⟨hy1, hy2⟩ | ⟨l, hl, hl0, rfl⟩
    · exact inv.sep x (by simp [hx1]) y (by simp [hy1]) hne
    · exact mixed x hx1 hx2 l hl hl0 hne
    · rw [abs_sub_comm]; exact mixed y hy1 hy2 k hk hk0 (Ne.symm hne)
    · rw [add_sub_add_left_eq_sub]
      exact hv.sep k hk l hl (by rintro rfl; exact hne rfl)
  · intro q hq
    simp only [List.getLast?_append, List.getLast?_singleton, Option.some_or, Option.mem_def, Option.some.injEq] at hq
    subst hq
    have hne : c.ctrlpts.drop 1 ≠ [] := by
      intro h; have := congrArg List.length h; simp at this; omega
    rw [List.getLast?_append, List.getLast?_drop, if_neg (by omega)]
    cases h : c.ctrlpts.getLast? with
    | none => rw [List.getLast?_eq_none_iff] at h; rw [h] at hpn; simp at hpn
    | some x => rfl
  · intro q hq
    simp only [List.getLast?_append, List.getLast?_singleton, Option.some_or, Option.mem_def, Option.some.injEq] at hq
    subst hq
    rw [List.getLast?_append, List.getLast?_drop, if_neg (by omega)]
    cases h : (linkWeights c).getLast? with
    | none => rw [List.getLast?_eq_none_iff] at h; rw [h] at hwl; simp at hwl; omega
    | some x => rfl
  · intro i hi t h0 h1
    rw [hcl]
    rcases Nat.lt_or_ge i done.length with h | h
    · rw [List.getElem_append_left h, ← inv.points i h t h0 h1]
      have hie : (i : K) + t ≤ e := by
        rw [inv.e_eq]
        have : ((i + 1 : ℕ) : K) ≤ done.length := Nat.cast_le.2 h
        push_cast at this
        linarith
      have hi0 : (0 : K) ≤ i := Nat.cast_nonneg _
      rw [j2 _ (by rw [inv.start]; linarith) hie]
      exact curvePoint_congr _ _ _ _ _ hpA hQA _
    · have hieq : i = done.length := by simp at hi; omega
      subst hieq
      rw [List.getElem_append_right (le_refl _)]
      simp only [Nat.sub_self, List.getElem_cons_zero]
      rw [← inv.e_eq, j3 t h0 (by rw [hv.dom1]; exact h1)]
      exact curvePoint_congr _ _ _ _ _ hpn hQB _

theorem link_loop (tol : K) (p : ℕ) (hp : 0 < p) (l : List (BCurve K V)) :
    ∀ (done : List (BCurve K V)) (kv : List K) (cp : List V) (w : List K) (e : K), LinkInv tol p done kv cp w e →
      (∀ c ∈ l, c.Valid tol ∧ c.degree = p) → (∀ a ∈ done.getLast?, (a :: l).IsChain Joined) →
      LinkInv tol p (done ++ l) (linkLoop l (kv, cp, w, e)).1 (linkLoop l (kv, cp, w, e)).2.1
        (linkLoop l (kv, cp, w, e)).2.2.1 (linkLoop l (kv, cp, w, e)).2.2.2 := by
  induction l with
  | nil => intro done kv cp w e h _ _; rw [List.append_nil]; exact h
  | cons c l ih =>
    intro done kv cp w e inv hl hj
    have hc := hl c (by simp)
    obtain ⟨a, ha⟩ : ∃ a, done.getLast? = some a := ⟨_, List.getLast?_eq_some_getLast inv.ne⟩
    have hch := hj a (by rw [ha]; rfl)
    rw [List.isChain_cons_cons] at hch
    have step := link_step tol p hp done kv cp w e inv c hc.1 hc.2 (fun b hb => by
      rw [ha] at hb; cases hb; exact hch.1)
    have := ih _ _ _ _ _ step (fun q hq => hl q (by simp [hq])) (by
      intro b hb
      simp only [List.getLast?_append, List.getLast?_singleton, Option.some_or, Option.mem_def, Option.some.injEq] at hb
      subst hb
      exact hch.2)
    rw [List.append_assoc] at this
    exact this

omit [IsStrictOrderedRing K] in
theorem touches_iff (close : V → V → Bool) (L : List (BCurve K V)) :
    touches close L = true ↔ L.IsChain (fun a b => close (a.ctrlpts.getLastD 0) (b.ctrlpts.headD 0) = true) := by
  induction L with
  | nil => simp [touches]
  | cons a l ih =>
    cases l with
    | nil => simp [touches]
    | cons b l => rw [touches, Bool.and_eq_true, ih, List.isChain_cons_cons]

/-- **C154** merging valid curves of the same degree, each of which starts at the end point of the one before with
the same weight: the merged curve runs through the curves one after the other, each in an equal part of the
parameter interval.  (Missing: different degrees or different weights at a joint, see the counterexamples.) -/
theorem C154_merge_partial (tol : K) (close : V → V → Bool) (hclose : ∀ x, close x x = true) (c : BCurve K V)
    (l : List (BCurve K V)) (hv : ∀ q ∈ c :: l, q.Valid tol ∧ q.degree = c.degree) (hj : (c :: l).IsChain Joined) :
    ∃ r, mergeWith tol close c l = some r ∧ r.degree = c.degree ∧
      ∀ i (hi : i < (c :: l).length) t, 0 ≤ t → t ≤ 1 →
        r.eval ((i + t) / (c :: l).length) = ((c :: l)[i]).eval t := by
  have hc := (hv c (by simp)).1
  have ht : touches close (c :: l) = true := by
    rw [touches_iff]
    apply hj.imp
    intro a b hab
    rw [List.getLastD_eq_getLast?, hab.1, List.headD_eq_head?_getD]
    exact hclose _
  have inv := link_loop tol c.degree hc.deg l [c] _ _ _ _ (link_first tol c hc)
    (fun q hq => hv q (by simp [hq])) (by intro a ha; simp at ha; subst ha; exact hj)
  rw [List.singleton_append] at inv
  unfold mergeWith
  rw [if_pos ht]
  dsimp only
  have hlast : ((c :: l).getLastD c).degree = c.degree := by
    have : (c :: l).getLastD c ∈ c :: l := by
      rw [List.getLastD_eq_getLast?, List.getLast?_eq_some_getLast (by simp)]
      exact List.getLast_mem _
    exact (hv _ this).2
  rw [hlast]
  generalize linkLoop l (c.knotvector.take (c.knotvector.length - (c.degree + 1)), c.ctrlpts, linkWeights c,
    c.knotvector.getLastD 0) = st at inv ⊢
  obtain ⟨kv, cp, w, e⟩ := st
  dsimp only at inv ⊢
  set full := kv ++ List.replicate (c.degree + 1) e with hfull
  have hpn := inv.clamped.pn
  have hs := pairwise_of_kvFun_mono _ inv.clamped.mono
  have hne : full ≠ [] := by rw [hfull]; simp
  have hA : kvFun full 0 = 0 := by rw [inv.clamped.left, inv.start]
  have hB : kvFun full (full.length - 1) = e := by
    rw [hfull]; exact kvFun_full _ _ _ _ (by simp)
  have hlenpos : (0 : K) < ((c :: l).length : K) := by simp only [List.length_cons]; exact_mod_cast Nat.succ_pos _
  have he : (0 : K) < e := by rw [inv.e_eq]; exact hlenpos
  refine ⟨_, rfl, rfl, ?_⟩
  intro i hi t h0 h1
  have hq := hv _ (List.getElem_mem hi)
  rw [homog_eval hq.1 t h0 h1]
  unfold curvePointRational
  rw [hq.2, ← inv.points i hi t h0 h1]
  have hd := new_eval tol hc.tol0 full hs inv.sep hne 0 e hA hB he c.degree cp hpn (i + t)
  rw [sub_zero, sub_zero, inv.e_eq] at hd
  by_cases hall : w.all (fun a => a = 1) = true
  · rw [if_pos hall, new_curve_empty, hd.1]
    have hi0 : (0 : K) ≤ i := Nat.cast_nonneg _
    have hie : (i : K) + t ≤ (c :: l).length := by
      have : ((i + 1 : ℕ) : K) ≤ ((c :: l).length : ℕ) := Nat.cast_le.2 hi
      push_cast at this ⊢
      linarith
    have := ones_eval c.degree (kvFun full) cp inv.clamped w inv.wlen (by simpa using hall) (i + t)
      (by rw [inv.start]; linarith)
      (by rw [hfull, kvFun_full _ _ _ _ (by rw [inv.kvlen]), inv.e_eq]; exact hie)
    rw [← this]
    rfl
  · rw [if_neg hall, hd.2 w]
    · rfl
    · rw [List.any_eq_true]
      have : 0 < w.length := by rw [inv.wlen]; omega
      exact ⟨w[0], List.getElem_mem _, by simpa using (inv.wpos _ (List.getElem_mem this)).ne'⟩

omit [IsStrictOrderedRing K] in
/-- **C154** the merge is refused exactly when a curve does not start close to the end of the one before. -/
theorem C154_refused (tol : K) (close : V → V → Bool) (c : BCurve K V) (l : List (BCurve K V)) :
    mergeWith tol close c l = none ↔
      ¬ (c :: l).IsChain (fun a b => close (a.ctrlpts.getLastD 0) (b.ctrlpts.headD 0) = true) := by
  rw [← touches_iff]
  unfold mergeWith
  by_cases h : touches close (c :: l) = true
  · rw [if_pos h]; simp [h]
  · rw [if_neg h]; simp [h]

/-- A curve of degree 2 which starts at the end of `exampleCurve`. -/
def exampleNext (w : Option (List ℚ)) : BCurve ℚ (ℚ × ℚ) := ⟨2, [(4, 5), (2, 3), (5, 1)], [3, 3], [0, 1], w⟩

/-- A segment of degree 1 from the same point. -/
def exampleLine : BCurve ℚ (ℚ × ℚ) := ⟨1, [(4, 5), (5, 1)], [2, 2], [0, 1], none⟩

theorem exampleNext_valid (w : Option (List ℚ)) (h1 : ∀ l, w = some l → l.length = 3)
    (h2 : ∀ l, w = some l → ∀ a ∈ l, 0 < a) : (exampleNext w).Valid (1 / 10 ^ 15) := by
  have hk : (exampleNext w).knotvector = [0, 0, 0, 1, 1, 1] := rfl
  have hs : ([0, 0, 0, 1, 1, 1] : List ℚ).Pairwise (· ≤ ·) := by decide +kernel
  refine ⟨by norm_num, show 0 < 2 by norm_num, rfl, rfl, rfl, by rw [hk]; exact hs, ?_, rfl, ?_, ?_, ?_, ?_, h1, h2⟩
  · rw [hk]; unfold Separated; decide +kernel
  · rw [hk]; show Clamped 2 3 _
    refine ⟨by decide +kernel, kvFun_mono _ hs, ?_, ?_, ?_, ?_⟩ <;> decide +kernel
  · rw [hk]; show InteriorMult 2 3 _
    intro i h3 h4
    rcases (by omega : i = 1 ∨ i = 2) with rfl | rfl <;> decide +kernel
  · rw [hk]; show kvFun _ 2 = 0
    decide +kernel
  · rw [hk]; show kvFun _ 3 = 1
    decide +kernel

theorem exampleLine_valid : exampleLine.Valid (1 / 10 ^ 15) := by
  have hk : exampleLine.knotvector = [0, 0, 1, 1] := rfl
  have hs : ([0, 0, 1, 1] : List ℚ).Pairwise (· ≤ ·) := by decide +kernel
  refine ⟨by norm_num, show 0 < 1 by norm_num, rfl, rfl, rfl, by rw [hk]; exact hs, ?_, rfl, ?_, ?_, ?_, ?_,
    by simp [exampleLine], by simp [exampleLine]⟩
  · rw [hk]; unfold Separated; decide +kernel
  · rw [hk]; show Clamped 1 2 _
    refine ⟨by decide +kernel, kvFun_mono _ hs, ?_, ?_, ?_, ?_⟩ <;> decide +kernel
  · rw [hk]; show InteriorMult 1 2 _
    intro i h3 h4
    rcases (by omega : i = 1) with rfl; decide +kernel
  · rw [hk]; show kvFun _ 1 = 0
    decide +kernel
  · rw [hk]; show kvFun _ 2 = 1
    decide +kernel

/-- Exact equality of points, as `close`. -/
def eqClose (a b : ℚ × ℚ) : Bool := a = b

/-- The statement applies to a rational curve with an inner knot followed by another rational curve. -/
example : ∃ r, mergeWith (1 / 10 ^ 15) eqClose (exampleCurve (some [1, 2, 1, 3])) [exampleNext (some [3, 1, 2])] = some r ∧
    r.eval (3 / 4) = (exampleNext (some [3, 1, 2])).eval (1 / 2) := by
  obtain ⟨r, h1, -, h2⟩ := C154_merge_partial (1 / 10 ^ 15) eqClose (by intro x; simp [eqClose])
    (exampleCurve (some [1, 2, 1, 3])) [exampleNext (some [3, 1, 2])]
    (by
      intro q hq
      simp only [List.mem_cons, List.not_mem_nil, or_false] at hq
      rcases hq with rfl | rfl
      · exact ⟨exampleCurve_valid _ (by simp) (by simp), rfl⟩
      · exact ⟨exampleNext_valid _ (by simp) (by simp), rfl⟩)
    (by rw [List.isChain_cons_cons]; exact ⟨by unfold Joined; decide +kernel, by simp⟩)
  refine ⟨r, h1, ?_⟩
  have := h2 1 (by simp) (1 / 2) (by norm_num) (by norm_num)
  norm_num at this
  exact this

/-- The full property, for curves of any degree with any weights. -/
def C154_full_statement : Prop :=
  ∀ (c : BCurve ℚ (ℚ × ℚ)) (l : List (BCurve ℚ (ℚ × ℚ))), (∀ q ∈ c :: l, q.Valid (1 / 10 ^ 15)) →
    (c :: l).IsChain (fun a b => a.ctrlpts.getLast? = b.ctrlpts.head?) →
    ∃ r, mergeWith (1 / 10 ^ 15) eqClose c l = some r ∧
      ∀ i (hi : i < (c :: l).length) t, 0 ≤ t → t ≤ 1 → r.eval ((i + t) / (c :: l).length) = ((c :: l)[i]).eval t

/-- The same for curves of the same degree. -/
def C154_same_degree_statement : Prop :=
  ∀ (c : BCurve ℚ (ℚ × ℚ)) (l : List (BCurve ℚ (ℚ × ℚ))), (∀ q ∈ c :: l, q.Valid (1 / 10 ^ 15) ∧ q.degree = c.degree) →
    (c :: l).IsChain (fun a b => a.ctrlpts.getLast? = b.ctrlpts.head?) →
    ∃ r, mergeWith (1 / 10 ^ 15) eqClose c l = some r ∧
      ∀ i (hi : i < (c :: l).length) t, 0 ≤ t → t ≤ 1 → r.eval ((i + t) / (c :: l).length) = ((c :: l)[i]).eval t

/-- **C154** the full property is false: a curve of degree 2 followed by a segment. -/
theorem C154_degree_counterexample : ¬ C154_full_statement := by
  intro h
  obtain ⟨r, h1, h2⟩ := h (exampleCurve none) [exampleLine] (by
      intro q hq
      simp only [List.mem_cons, List.not_mem_nil, or_false] at hq
      rcases hq with rfl | rfl
      · exact exampleCurve_valid _ (by simp) (by simp)
      · exact exampleLine_valid)
    (by rw [List.isChain_cons_cons]; exact ⟨rfl, by simp⟩)
  have h3 := h2 1 (by simp) (1 / 2) (by norm_num) (by norm_num)
  have h4 : r = (mergeWith (1 / 10 ^ 15) eqClose (exampleCurve none) [exampleLine]).getD exampleLine := by rw [h1]; rfl
  rw [h4] at h3
  revert h3
  decide +kernel

/-- **C154** it is false even for curves of the same degree: the first weight of the second curve is lost. -/
theorem C154_weights_counterexample : ¬ C154_same_degree_statement := by
  intro h
  obtain ⟨r, h1, h2⟩ := h (exampleCurve none) [exampleNext (some [3, 1, 1])] (by
      intro q hq
      simp only [List.mem_cons, List.not_mem_nil, or_false] at hq
      rcases hq with rfl | rfl
      · exact ⟨exampleCurve_valid _ (by simp) (by simp), rfl⟩
      · exact ⟨exampleNext_valid _ (by simp) (by simp), rfl⟩)
    (by rw [List.isChain_cons_cons]; exact ⟨rfl, by simp⟩)
  have h3 := h2 1 (by simp) (1 / 2) (by norm_num) (by norm_num)
  have h4 : r = (mergeWith (1 / 10 ^ 15) eqClose (exampleCurve none) [exampleNext (some [3, 1, 1])]).getD exampleLine := by
    rw [h1]; rfl
  rw [h4] at h3
  revert h3
  decide +kernel

example : mergeWith (1 / 10 ^ 15) eqClose exampleLine [exampleCurve none] = none :=
  (C154_refused _ _ _ _).2 (by rw [List.isChain_cons_cons]; decide +kernel)

end
end Volmdlr
