import Verif.Nurbs.Split
import Verif.Nurbs.SurfModel

/-!
# Knot vectors on `[0, 1]`: insertion and splitting keep them well formed
-/

namespace Volmdlr
open Finset
section
variable {K : Type*} [Field K] [LinearOrder K] [IsStrictOrderedRing K]
variable {V : Type*} [AddCommGroup V] [Module K V]

/-- Specification: well-formed clamped knots on `[0, 1]` for `n` control points and degree `p`: sorted knot vector of
the right length, `p + 1` equal knots at both ends, interior multiplicities at most the degree, distinct knots more
than the tolerance apart. -/
structure KnotsOK (tol : K) (p n : ℕ) (knots : List K) (mults : List ℕ) : Prop where
  tol0 : 0 ≤ tol
  deg : 0 < p
  headK : knots.head? = some 0
  lastK : knots.getLast? = some 1
  multlen : mults.length = knots.length
  sorted : (repeatKnots knots mults).Pairwise (· ≤ ·)
  sep : Separated tol (repeatKnots knots mults)
  length : (repeatKnots knots mults).length = n + p + 1
  clamped : Clamped p n (kvFun (repeatKnots knots mults))
  interior : InteriorMult p n (kvFun (repeatKnots knots mults))
  dom0 : kvFun (repeatKnots knots mults) p = 0
  dom1 : kvFun (repeatKnots knots mults) n = 1

omit [IsStrictOrderedRing K] in
/-- A valid curve has well-formed knots. -/
theorem BCurve.Valid.knotsOK {tol : K} {c : BCurve K V} (h : c.Valid tol) :
    KnotsOK tol c.degree c.ctrlpts.length c.knots c.mults :=
  ⟨h.tol0, h.deg, h.headK, h.lastK, h.multlen, h.sorted, h.sep, h.length, h.clamped, h.interior, h.dom0, h.dom1⟩

omit [IsStrictOrderedRing K] in
theorem KnotsOK.valid {tol : K} {p n : ℕ} {knots : List K} {mults : List ℕ} (h : KnotsOK tol p n knots mults)
    (cp : List V) (hn : cp.length = n) (w : Option (List K)) (hw : ∀ l, w = some l → l.length = n)
    (hp : ∀ l, w = some l → ∀ a ∈ l, 0 < a) : (⟨p, cp, mults, knots, w⟩ : BCurve K V).Valid tol := by
  subst hn
  exact ⟨h.tol0, h.deg, h.headK, h.lastK, h.multlen, h.sorted, h.sep, h.length, h.clamped, h.interior, h.dom0, h.dom1,
    hw, hp⟩

/-- Standardising standard knots changes nothing. -/
theorem standardize_of_unit (l : List K) (h0 : l.head? = some 0) (h1 : l.getLast? = some 1) :
    standardizeKnotVector l = l := by
  unfold standardizeKnotVector
  rw [List.headD_eq_head?_getD, List.getLastD_eq_getLast?, h0, h1]
  simp

/-- The knots made from a knot vector over `[A, B]`, `B - A ≤ 1`, are well formed, and their knot vector is the given
one moved to `[0, 1]`. -/
theorem new_ok (tol : K) (ht : 0 ≤ tol) (kv : List K) (hsep : Separated tol kv) (p n : ℕ) (hp : 0 < p)
    (hlen : kv.length = n + p + 1) (hc : Clamped p n (kvFun kv)) (hi : InteriorMult p n (kvFun kv)) (A B : K)
    (hA : kvFun kv p = A) (hB : kvFun kv n = B) (hAB : B - A ≤ 1) :
    KnotsOK tol p n (standardizeKnotVector (getKnotsAndMultiplicities tol kv).1) (getKnotsAndMultiplicities tol kv).2 ∧
    repeatKnots (standardizeKnotVector (getKnotsAndMultiplicities tol kv).1) (getKnotsAndMultiplicities tol kv).2 =
      kv.map fun k => (k - A) / (B - A) := by
  have hs := pairwise_of_kvFun_mono kv hc.mono
  have hne : kv ≠ [] := by intro h; rw [h] at hlen; simp at hlen
  have hpn := hc.pn
  have hlt : A < B := by
    rw [← hA, ← hB]
    exact hc.first.trans_le (hc.mono (by omega))
  have hpos : 0 < B - A := sub_pos.2 hlt
  have e0 : kvFun kv 0 = A := by rw [hc.left, hA]
  have e1 : kvFun kv (kv.length - 1) = B := by
    rw [hlen, show n + p + 1 - 1 = n + p by omega, hc.right, hB]
  have hkv : repeatKnots (standardizeKnotVector (getKnotsAndMultiplicities tol kv).1)
      (getKnotsAndMultiplicities tol kv).2 = kv.map fun k => (k - A) / (B - A) := by
    have := new_knotvector (V := K) tol ht kv hs hsep hne p [] none
    rw [e0, e1] at this
    exact this
  have hf : kvFun (kv.map fun k => (k - A) / (B - A)) = fun j => (kvFun kv j - A) / (B - A) := by
    funext j; rw [kvFun_map _ kv hne]
  have mono : ∀ a b : K, a ≤ b → (a - A) / (B - A) ≤ (b - A) / (B - A) := by
    intro a b h
    exact div_le_div_of_nonneg_right (by linarith) hpos.le
  have smono : ∀ a b : K, a < b → (a - A) / (B - A) < (b - A) / (B - A) := by
    intro a b h
    exact div_lt_div_of_pos_right (by linarith) hpos
  have hclamp : Clamped p n (kvFun (kv.map fun k => (k - A) / (B - A))) := by
    rw [hf]
    exact ⟨hpn, fun i j h => mono _ _ (hc.mono h), by rw [hc.left], by rw [hc.right], smono _ _ hc.first,
      smono _ _ hc.last⟩
  have hm := hc.mono
  have mem : ∀ b ∈ kv, A ≤ b ∧ b ≤ B := by
    intro b hb
    obtain ⟨i, hi, rfl⟩ := List.getElem_of_mem hb
    rw [← kvFun_lt kv i hi, ← e0, ← e1]
    exact ⟨hm (Nat.zero_le _), hm (by omega)⟩
  have hsort : kv.dedup.Pairwise (· ≤ ·) := List.Pairwise.sublist (List.dedup_sublist kv) hs
  have hmemA : A ∈ kv.dedup := by rw [List.mem_dedup, ← e0, kvFun_lt kv 0 (by omega)]; exact List.getElem_mem _
  have hmemB : B ∈ kv.dedup := by rw [List.mem_dedup, ← e1, kvFun_lt kv _ (by omega)]; exact List.getElem_mem _
  have h0 : kv.dedup.headD 0 = A := sorted_headD _ hsort _ hmemA fun b hb => (mem b (List.mem_dedup.1 hb)).1
  have h1 : kv.dedup.getLastD 0 = B := sorted_getLastD _ hsort _ hmemB fun b hb => (mem b (List.mem_dedup.1 hb)).2
  have hdne : kv.dedup ≠ [] := List.ne_nil_of_mem hmemA
  refine ⟨⟨ht, hp, ?_, ?_, ?_, ?_, ?_, ?_, ?_, ?_, ?_, ?_⟩, hkv⟩
  · unfold standardizeKnotVector getKnotsAndMultiplicities
    dsimp only
    rw [h0, h1]
    obtain ⟨a, l, hl⟩ := List.exists_cons_of_ne_nil hdne
    rw [hl] at h0 ⊢
    simp only [List.headD_cons] at h0
    simp [h0]
  · unfold standardizeKnotVector getKnotsAndMultiplicities
    dsimp only
    rw [h0, h1, List.getLast?_map, List.getLast?_eq_some_getLast hdne]
    have : kv.dedup.getLast hdne = B := by
      rw [← h1, List.getLastD_eq_getLast?, List.getLast?_eq_some_getLast hdne]; rfl
    rw [this]
    simp [div_self hpos.ne']
  · unfold standardizeKnotVector getKnotsAndMultiplicities
    simp
  · rw [hkv]
    exact pairwise_of_kvFun_mono _ hclamp.mono
  · rw [hkv]
    intro a ha b hb hab
    obtain ⟨a', ha', rfl⟩ := List.mem_map.1 ha
    obtain ⟨b', hb', rfl⟩ := List.mem_map.1 hb
    have hne' : a' ≠ b' := fun h => hab (by rw [h])
    have h := hsep a' ha' b' hb' hne'
    have : (a' - A) / (B - A) - (b' - A) / (B - A) = (a' - b') / (B - A) := by ring
    rw [this, abs_div, abs_of_pos hpos]
    refine h.trans_le ?_
    rw [le_div_iff₀ hpos]
    exact mul_le_of_le_one_right (abs_nonneg _) hAB
  · rw [hkv, List.length_map, hlen]
  · rw [hkv]; exact hclamp
  · rw [hkv, hf]
    intro i h2 h3
    exact smono _ _ (hi i h2 h3)
  · rw [hkv, hf]; dsimp only; rw [hA]; simp
  · rw [hkv, hf]; dsimp only; rw [hB, div_self hpos.ne']

/-- Specification: `x` is inside the domain and not closer than the tolerance to a knot unless equal to it. -/
def InnerKnot (tol : K) (kv : List K) (x : K) : Prop := 0 < x ∧ x < 1 ∧ ∀ a ∈ kv, a ≠ x → tol < |x - a|

section
variable {tol : K} {p n : ℕ} {knots : List K} {mults : List ℕ} (ok : KnotsOK tol p n knots mults) {x : K}
  (hx : InnerKnot tol (repeatKnots knots mults) x)
include ok hx

theorem ok_mult : findMultiplicity tol x (repeatKnots knots mults) = (repeatKnots knots mults).count x :=
  C28_multiplicity_count tol ok.tol0 x _ hx.2.2

theorem ok_facts (k : ℕ) (hk : k = findSpanLinear p (kvFun (repeatKnots knots mults)) n x) :
    p ≤ k ∧ k < n ∧ kvFun (repeatKnots knots mults) k ≤ x ∧ x < kvFun (repeatKnots knots mults) (k + 1) ∧
    k + 1 < (repeatKnots knots mults).length ∧ (repeatKnots knots mults).count x ≤ k ∧
    (∀ i, k < i + (repeatKnots knots mults).count x → i ≤ k → kvFun (repeatKnots knots mults) i = x) ∧
    kvFun (repeatKnots knots mults) (k - (repeatKnots knots mults).count x) < x ∧
    (repeatKnots knots mults).count x ≤ p := by
  have hv : (⟨p, List.replicate n (0 : K), mults, knots, none⟩ : BCurve K K).Valid tol :=
    ok.valid _ (by simp) none (by simp) (by simp)
  have h := inner_facts tol _ hv x hx k (by simpa [BCurve.knotvector] using hk)
  have h2 := inner_mult_le tol _ hv x hx
  obtain ⟨a, b, d, e, hl, f, g, i⟩ := h
  refine ⟨a, by simpa using b, d, e, hl, f, g, i, h2⟩

/-- Inserting up to full multiplicity keeps the knots well formed. -/
theorem insert_ok (k : ℕ) (hk : k = findSpanLinear p (kvFun (repeatKnots knots mults)) n x) (num : ℕ)
    (hnum : num + (repeatKnots knots mults).count x ≤ p) :
    KnotsOK tol p (n + num)
      (standardizeKnotVector (getKnotsAndMultiplicities tol (knotInsertionKv (repeatKnots knots mults) x k num)).1)
      (getKnotsAndMultiplicities tol (knotInsertionKv (repeatKnots knots mults) x k num)).2 ∧
    repeatKnots
      (standardizeKnotVector (getKnotsAndMultiplicities tol (knotInsertionKv (repeatKnots knots mults) x k num)).1)
      (getKnotsAndMultiplicities tol (knotInsertionKv (repeatKnots knots mults) x k num)).2 =
      knotInsertionKv (repeatKnots knots mults) x k num := by
  obtain ⟨a, b, d, e, hl, f, g, i, j⟩ := ok_facts ok hx k hk
  set kv := repeatKnots knots mults with hkvd
  have hlen : kv.length = n + p + 1 := ok.length
  have hkf : kvFun (knotInsertionKv kv x k num) = insKnotsN (kvFun kv) k x num := kvFun_insKnotsN _ x k num hl
  have hcW := insKnotsN_clamped p n (kvFun kv) ok.clamped k x a b (by rw [ok.dom0]; exact hx.1) d e num
  have hmem : ∀ a ∈ knotInsertionKv kv x k num, a ∈ kv ∨ a = x := by
    intro a ha
    unfold knotInsertionKv at ha
    rcases List.mem_append.1 ha with h | h
    · rcases List.mem_append.1 h with h | h
      · left; exact List.mem_of_mem_take h
      · right; exact List.eq_of_mem_replicate h
    · left; exact List.mem_of_mem_drop h
  have e0 : insKnotsN (kvFun kv) k x num p = 0 := by
    unfold insKnotsN; rw [if_pos a, ok.dom0]
  have e1 : insKnotsN (kvFun kv) k x num (n + num) = 1 := by
    unfold insKnotsN
    rw [if_neg (by omega), if_neg (by omega), show n + num - num = n by omega, ok.dom1]
  have h := new_ok tol ok.tol0 (knotInsertionKv kv x k num)
    (separated_insert tol _ ok.sep x hx.2.2 _ hmem) p (n + num) ok.deg
    (by simp [knotInsertionKv]; omega) (by rw [hkf]; exact hcW)
    (by
      rw [hkf]
      intro q h1 h2
      have hm := ok.clamped.mono
      unfold insKnotsN
      split_ifs with c1 c2 c3 c4 c5
      · exact ok.interior q h1 (by omega)
      · by_contra hcon
        have : kvFun kv q = x := le_antisymm ((hm c1).trans d) (not_lt.1 hcon)
        rcases Nat.lt_or_ge k (q + kv.count x) with h | h
        · omega
        · have h3 := hm (show q ≤ k - kv.count x by omega)
          rw [this] at h3
          exact absurd i (not_lt.2 h3)
      · exact ((hm c1).trans d).trans_lt (e.trans_le (hm (by omega)))
      · omega
      · omega
      · exact e.trans_le (hm (by omega))
      · omega
      · omega
      · rw [show q + p - num = q - num + p by omega]
        exact ok.interior _ (by omega) (by omega))
    0 1 (by rw [hkf, e0]) (by rw [hkf, e1]) (by norm_num)
  refine ⟨h.1, ?_⟩
  rw [h.2]
  simp

/-- Splitting keeps the knots well formed: the span of the new knot, and the knots of both halves. -/
theorem split_ok (k : ℕ) (hk : k = findSpanLinear p (kvFun (repeatKnots knots mults)) n x) (num : ℕ)
    (hnum : num + (repeatKnots knots mults).count x = p) (kv' : List K)
    (hkv' : kv' = knotInsertionKv (repeatKnots knots mults) x k num) :
    findSpanLinear p (kvFun kv') (n + num) x = k + num ∧ k - p + 1 + num ≤ n + num ∧
    (KnotsOK tol p (k - p + 1 + num)
      (standardizeKnotVector (getKnotsAndMultiplicities tol (kv'.take (k + num + 1) ++ [x])).1)
      (getKnotsAndMultiplicities tol (kv'.take (k + num + 1) ++ [x])).2 ∧
    repeatKnots (standardizeKnotVector (getKnotsAndMultiplicities tol (kv'.take (k + num + 1) ++ [x])).1)
      (getKnotsAndMultiplicities tol (kv'.take (k + num + 1) ++ [x])).2 =
      (kv'.take (k + num + 1) ++ [x]).map fun a => a / x) ∧
    (KnotsOK tol p (n + num - (k - p + num))
      (standardizeKnotVector (getKnotsAndMultiplicities tol (List.replicate (p + 1) x ++ kv'.drop (k + num + 1))).1)
      (getKnotsAndMultiplicities tol (List.replicate (p + 1) x ++ kv'.drop (k + num + 1))).2 ∧
    repeatKnots
      (standardizeKnotVector (getKnotsAndMultiplicities tol (List.replicate (p + 1) x ++ kv'.drop (k + num + 1))).1)
      (getKnotsAndMultiplicities tol (List.replicate (p + 1) x ++ kv'.drop (k + num + 1))).2 =
      (List.replicate (p + 1) x ++ kv'.drop (k + num + 1)).map fun a => (a - x) / (1 - x)) := by
  obtain ⟨a, b, d, e, hl, f, g, i, j⟩ := ok_facts ok hx k hk
  set kv := repeatKnots knots mults with hkvd
  have hlen : kv.length = n + p + 1 := ok.length
  have hrl : (List.replicate n (0 : K)).length = n := by simp
  obtain ⟨g1, g2, g3, g4, -, -⟩ := split_generic p kv (List.replicate n (0 : K)) x ok.deg ok.sorted
    (by rw [hrl]; exact hlen) (by rw [hrl]; exact ok.clamped) (by rw [ok.dom0]; exact hx.1)
    (by rw [hrl, ok.dom1]; exact hx.2.1) k (by rw [hrl]; exact hk) num hnum kv' hkv' _ rfl
  rw [hrl] at g1 g2 g4
  have hkf : kvFun kv' = insKnotsN (kvFun kv) k x num := by rw [hkv', kvFun_insKnotsN _ x k num hl]
  have hlen' : kv'.length = n + p + 1 + num := by
    rw [hkv']; simp [knotInsertionKv]; omega
  have hlt : (kv'.take (k + num + 1)).length = k + num + 1 := by rw [List.length_take]; omega
  have hmem' : ∀ a ∈ kv', a ∈ kv ∨ a = x := by
    intro a ha
    rw [hkv'] at ha
    unfold knotInsertionKv at ha
    rcases List.mem_append.1 ha with h | h
    · rcases List.mem_append.1 h with h | h
      · left; exact List.mem_of_mem_take h
      · right; exact List.eq_of_mem_replicate h
    · left; exact List.mem_of_mem_drop h
  set s := kv.count x with hs
  have hA : p ≤ k - s := by
    by_contra hcon
    have h2 : kvFun kv p = x := g p (by omega) a
    rw [ok.dom0] at h2
    exact absurd h2 hx.1.ne
  have hm := ok.clamped.mono
  have hdne : kv'.drop (k + num + 1) ≠ [] := by
    intro h; have := congrArg List.length h; simp at this; omega
  set kv1 := kv'.take (k + num + 1) ++ [x] with hkv1
  set kv2 := List.replicate (p + 1) x ++ kv'.drop (k + num + 1) with hkv2
  have hlen1 : kv1.length = k - p + 1 + num + p + 1 := by rw [hkv1]; simp; omega
  have hlen2 : kv2.length = n + num - (k - p + num) + p + 1 := by rw [hkv2]; simp; omega
  have k1 : ∀ q, q ≤ k - s → kvFun kv1 q = kvFun kv q := by
    intro q hq
    rw [hkv1, kvFun_append_left _ _ _ (by omega), List.getElem_take, ← kvFun_lt kv' q (by omega), hkf]
    unfold insKnotsN
    rw [if_pos (by omega)]
  have k1' : ∀ q, k - s < q → kvFun kv1 q = x := by
    intro q hq
    rcases Nat.lt_or_ge (k + num) q with h | h
    · rw [hkv1, kvFun_append_right _ _ (by simp) _ (by omega), kvFun_last _ _ (by simp) (by simp)]; rfl
    · rw [hkv1, kvFun_append_left _ _ _ (by omega), List.getElem_take, ← kvFun_lt kv' q (by omega), hkf]
      unfold insKnotsN
      split_ifs with c1 c2
      · exact g q (by omega) c1
      · rfl
  have k2 : ∀ q, q ≤ p → kvFun kv2 q = x := by
    intro q hq
    rw [hkv2, kvFun_append_left _ _ _ (by simp; omega), List.getElem_replicate]
  have k2' : ∀ q, p < q → kvFun kv2 q = kvFun kv (q + (k - p)) := by
    intro q hq
    have e1 : kv' = kv'.take (k + num + 1) ++ kv'.drop (k + num + 1) := (List.take_append_drop _ _).symm
    have e2 : kvFun kv' (q - (p + 1) + (k + num + 1)) = kvFun (kv'.drop (k + num + 1)) (q - (p + 1)) := by
      conv_lhs => rw [e1]
      rw [kvFun_append_right _ _ hdne _ (by omega), hlt]
      congr 1; omega
    rw [hkv2, kvFun_append_right _ _ hdne _ (by simp; omega), List.length_replicate, ← e2, hkf]
    unfold insKnotsN
    rw [if_neg (by omega), if_neg (by omega)]
    congr 1; omega
  have I1 : InteriorMult p (k - p + 1 + num) (kvFun kv1) := by
    intro q h1 h2
    rcases Nat.lt_or_ge (k - s) (q + p) with h | h
    · rw [k1 q (by omega), k1' _ h]
      exact (hm (by omega)).trans_lt i
    · rw [k1 q (by omega), k1 _ h]
      exact ok.interior q h1 (by omega)
  have I2 : InteriorMult p (n + num - (k - p + num)) (kvFun kv2) := by
    intro q h1 h2
    rw [k2' (q + p) (by omega)]
    rcases Nat.lt_or_ge p q with h | h
    · rw [k2' q h, show q + p + (k - p) = q + (k - p) + p by omega]
      exact ok.interior _ (by omega) (by omega)
    · rw [k2 q h]
      exact e.trans_le (hm (by omega))
  have sep1 : Separated tol kv1 := separated_insert tol _ ok.sep x hx.2.2 _ (by
    intro a ha
    rcases List.mem_append.1 ha with h | h
    · exact hmem' a (List.mem_of_mem_take h)
    · right; simpa using h)
  have sep2 : Separated tol kv2 := separated_insert tol _ ok.sep x hx.2.2 _ (by
    intro a ha
    rcases List.mem_append.1 ha with h | h
    · right; exact List.eq_of_mem_replicate h
    · exact hmem' a (List.mem_of_mem_drop h))
  have hx0 := hx.1
  have hx1 := hx.2.1
  refine ⟨g1, g2, ?_, ?_⟩
  · have := new_ok tol ok.tol0 kv1 sep1 p (k - p + 1 + num) ok.deg hlen1 g3 I1 0 x (by rw [k1 p hA, ok.dom0])
      (k1' _ (by omega)) (by linarith)
    simp only [sub_zero] at this
    exact this
  · refine new_ok tol ok.tol0 kv2 sep2 p _ ok.deg hlen2 g4 I2 x 1 (k2 p (le_refl _)) ?_ (by linarith)
    rw [k2' _ (by omega), show n + num - (k - p + num) + (k - p) = n by omega, ok.dom1]

end

end
end Volmdlr
