import Verif.Nurbs.KnotsOK
import Mathlib.Data.List.Dedup

/-!
# C149: decomposition of a curve into Bézier patches
-/

namespace Volmdlr
open Finset
section
variable {K : Type*} [Field K] [LinearOrder K] [IsStrictOrderedRing K]
variable {V : Type*} [AddCommGroup V] [Module K V]

/-- Specification: the knot vector of a Bézier curve of degree `p`. -/
def bezierKnots (p : ℕ) : List K := List.replicate (p + 1) 0 ++ List.replicate (p + 1) 1

/-- Well-formed knots for `p + 1` control points are those of a Bézier curve. -/
theorem KnotsOK.bezier {tol : K} {p : ℕ} {knots : List K} {mults : List ℕ} (ok : KnotsOK tol p (p + 1) knots mults) :
    repeatKnots knots mults = bezierKnots p := by
  have hm := ok.clamped.mono
  have hlen := ok.length
  unfold bezierKnots
  apply List.ext_getElem
  · rw [hlen]; simp; omega
  · intro i h1 h2
    rw [← kvFun_lt _ _ h1]
    rcases Nat.lt_or_ge i (p + 1) with h | h
    · rw [List.getElem_append_left (by simpa using h), List.getElem_replicate]
      apply le_antisymm
      · rw [← ok.dom0]; exact hm (by omega)
      · rw [← ok.dom0, ← ok.clamped.left]; exact hm (Nat.zero_le _)
    · rw [List.getElem_append_right (by simpa using h), List.getElem_replicate]
      apply le_antisymm
      · rw [← ok.dom1, ← ok.clamped.right]; exact hm (by omega)
      · rw [← ok.dom1]; exact hm h

theorem dedup_replicate_append (a : K) (m : ℕ) (l : List K) :
    (List.replicate (m + 1) a ++ l).dedup = (a :: l).dedup := by
  induction m with
  | zero => rfl
  | succ m ih =>
    rw [List.replicate_succ, List.cons_append, List.dedup_cons_of_mem, ih]
    rw [List.replicate_succ]; simp

/-- The first inner knot of well-formed knots, if there are more than `p + 1` control points. -/
theorem KnotsOK.first {tol : K} {p n : ℕ} {knots : List K} {mults : List ℕ} (ok : KnotsOK tol p n knots mults)
    (hn : p + 1 < n) (x : K) (hxd : x = kvFun (repeatKnots knots mults) (p + 1)) :
    (BCurve.innerKnots p (repeatKnots knots mults)).any (fun a => a ≠ 0) = true ∧
    (BCurve.innerKnots p (repeatKnots knots mults)).headD 0 = x ∧
    InnerKnot tol (repeatKnots knots mults) x ∧
    0 < (repeatKnots knots mults).count x ∧
    findSpanLinear p (kvFun (repeatKnots knots mults)) n x = p + (repeatKnots knots mults).count x ∧
    repeatKnots knots mults = List.replicate (p + 1) 0 ++ List.replicate ((repeatKnots knots mults).count x) x ++
      (repeatKnots knots mults).drop (p + (repeatKnots knots mults).count x + 1) ∧
    (∀ a ∈ (repeatKnots knots mults).drop (p + (repeatKnots knots mults).count x + 1), x < a) := by
  have hlen := ok.length
  have hm := ok.clamped.mono
  have h0 := ok.dom0
  have h1 := ok.dom1
  have hf := ok.clamped.first
  have hla := ok.clamped.last
  have hle := ok.clamped.left
  set kv := repeatKnots knots mults with hkv
  have hmem : x ∈ kv := by rw [hxd, kvFun_lt _ _ (by omega)]; exact List.getElem_mem _
  have hx0 : 0 < x := by rw [hxd, ← h0]; exact hf
  have hx1 : x < 1 := by rw [hxd, ← h1]; exact (hm (by omega)).trans_lt hla
  have hin : InnerKnot tol kv x := ⟨hx0, hx1, fun a ha hne => ok.sep x hmem a ha (Ne.symm hne)⟩
  have hhead : BCurve.innerKnots p kv = x :: (BCurve.innerKnots p kv).tail := by
    unfold BCurve.innerKnots
    have hl : p + 1 < (kv.take (kv.length - (p + 1))).length := by rw [List.length_take]; omega
    rw [List.drop_eq_getElem_cons hl, List.getElem_take, List.tail_cons, hxd, kvFun_lt _ _ (by omega)]
  obtain ⟨a, b, d, e, hl, f, g, i, j⟩ := ok_facts ok hin _ rfl
  rw [← hkv] at a b d e hl f g i j
  set k := findSpanLinear p (kvFun kv) n x with hk
  have hcnt : 0 < kv.count x := List.count_pos_iff.2 hmem
  have hks : k = p + kv.count x := by
    have q1 : k - kv.count x < p + 1 := by
      by_contra hcon
      have := hm (not_lt.1 hcon)
      rw [← hxd] at this
      exact absurd i (not_lt.2 this)
    have q2 : p ≤ k - kv.count x := by
      by_contra hcon
      have h2 : kvFun kv p = x := g p (by omega) a
      rw [h0] at h2
      exact absurd h2 hx0.ne
    omega
  refine ⟨?_, ?_, hin, hcnt, hks, ?_, ?_⟩
  · rw [hhead, List.any_cons]
    simp [hx0.ne']
  · rw [hhead]; rfl
  · conv_lhs => rw [← List.take_append_drop (p + kv.count x + 1) kv]
    congr 1
    apply List.ext_getElem
    · rw [List.length_take]; simp; omega
    · intro q h2 h3
      rw [List.length_take] at h2
      rw [List.getElem_take, ← kvFun_lt _ _ (by omega)]
      rcases Nat.lt_or_ge q (p + 1) with h | h
      · rw [List.getElem_append_left (by simpa using h), List.getElem_replicate]
        apply le_antisymm
        · rw [← h0]; exact hm (by omega)
        · rw [← h0, ← hle]; exact hm (Nat.zero_le _)
      · rw [List.getElem_append_right (by simpa using h), List.getElem_replicate]
        exact g q (by omega) (by omega)
  · intro c hc
    obtain ⟨q, hq, rfl⟩ := List.getElem_of_mem hc
    rw [List.length_drop] at hq
    rw [List.getElem_drop, ← kvFun_lt _ _ (by omega)]
    exact e.trans_le (hm (by omega))

/-- The breakpoints: those of the knots are 0 and those of the second half of the split at the first inner knot. -/
theorem KnotsOK.first_dedup {tol : K} {p n : ℕ} {knots : List K} {mults : List ℕ} (ok : KnotsOK tol p n knots mults)
    (hn : p + 1 < n) (x : K) (hxd : x = kvFun (repeatKnots knots mults) (p + 1)) :
    (repeatKnots knots mults).dedup = 0 :: (List.replicate (p + 1) x ++
      (repeatKnots knots mults).drop (p + (repeatKnots knots mults).count x + 1)).dedup := by
  obtain ⟨-, -, ⟨hx0, hx1, -⟩, hcnt, -, h3, h4⟩ := ok.first hn x hxd
  set kv := repeatKnots knots mults with hkv
  generalize kv.drop (p + kv.count x + 1) = l at h3 h4
  obtain ⟨m, hm⟩ : ∃ m, kv.count x = m + 1 := ⟨kv.count x - 1, by omega⟩
  rw [hm] at h3
  rw [h3, List.append_assoc, dedup_replicate_append, dedup_replicate_append, List.dedup_cons_of_notMem,
    dedup_replicate_append]
  intro h
  rcases List.mem_append.1 h with h | h
  · exact hx0.ne (List.eq_of_mem_replicate h)
  · exact absurd (h4 _ h) (not_lt.2 hx0.le)

/-- Everything about the pieces of a split curve but their points. -/
theorem split_shape (tol : K) (c : BCurve K V) (hv : c.Valid tol) (x : K) (hx : c.Inner tol x) (c1 c2 : BCurve K V)
    (h : c.split tol x = some (c1, c2)) (k : ℕ)
    (hk : k = findSpanLinear c.degree (kvFun c.knotvector) c.ctrlpts.length x) :
    c1.Valid tol ∧ c2.Valid tol ∧ c1.degree = c.degree ∧ c2.degree = c.degree ∧
    c1.ctrlpts.length = k + 1 - c.knotvector.count x ∧
    c2.ctrlpts.length = c.ctrlpts.length - (k - c.degree) ∧
    c2.knotvector = (List.replicate (c.degree + 1) x ++ c.knotvector.drop (k + 1)).map fun a => (a - x) / (1 - x) := by
  have hok := hv.knotsOK
  have hmle := inner_mult_le tol c hv x hx
  obtain ⟨a, b, d, e, hl, f, g, i⟩ := inner_facts tol c hv x hx k hk
  set p := c.degree with hp
  set n := c.ctrlpts.length with hn
  set s := c.knotvector.count x with hs
  obtain ⟨t, t1, t2, t3, t4, t5, t6⟩ := insert_full_spec tol c hv x hx k hk (p - s) (by omega) false
  obtain ⟨g1, g2, ⟨g3, g3'⟩, ⟨g4, g4'⟩⟩ := split_ok hok hx k hk (p - s) (by change p - s + s = p; omega) _ rfl
  unfold BCurve.split at h
  dsimp only at h
  rw [if_neg (by
    rw [hv.length, show c.ctrlpts.length + c.degree + 1 - (c.degree + 1) = c.ctrlpts.length by omega, hv.dom0, hv.dom1]
    rintro (h | h)
    · exact hx.1.ne' h
    · exact hx.2.1.ne h)] at h
  rw [inner_mult tol c hv x hx, ← hk, ← hp, ← hs, t1] at h
  dsimp only at h
  change findSpanLinear p (kvFun (knotInsertionKv c.knotvector x k (p - s))) (n + (p - s)) x = k + (p - s) at g1
  rw [t2, t3, t4, g1] at h
  set num := p - s with hnum
  set kv' := knotInsertionKv c.knotvector x k num with hkv'
  obtain ⟨h1, h2⟩ := Prod.mk.inj (Option.some.inj h)
  have l1 : (t.ctrlpts.take (k - p + 1 + num)).length = k - p + 1 + num := by rw [List.length_take, t4]; omega
  have l2 : (t.ctrlpts.drop (k - p + 1 + num - 1)).length = n + num - (k - p + num) := by
    rw [List.length_drop, t4]; omega
  have hwt : t.weights = none ∨ ∃ w', t.weights = some w' ∧ w'.length = n + num ∧ ∀ a ∈ w', 0 < a := by
    cases hcw : c.weights with
    | none => left; exact (t5 hcw).1
    | some w =>
      obtain ⟨w', h7, h8, h9, -⟩ := t6 w hcw
      exact Or.inr ⟨w', h7, h8, h9⟩
  have vnew : ∀ (q : ℕ) (knots : List K) (mults : List ℕ) (cp : List V) (F : List K → List K),
      KnotsOK tol p q (standardizeKnotVector knots) mults → cp.length = q →
      (∀ w : List K, w.length = n + num → (F w).length = q) → (∀ w : List K, ∀ a ∈ F w, a ∈ w) →
      (BCurve.new p cp mults knots (t.weights.map F)).Valid tol := by
    intro q knots mults cp F hk' hcp hF hF2
    unfold BCurve.new
    apply hk'.valid _ hcp
    · intro l hl
      rcases hwt with hw | ⟨w', hw, hw1, hw2⟩
      · rw [hw] at hl; simp at hl
      · rw [hw] at hl
        simp only [Option.map_some] at hl
        split_ifs at hl with hany
        rw [← Option.some.inj hl]; exact hF w' hw1
    · intro l hl a ha
      rcases hwt with hw | ⟨w', hw, hw1, hw2⟩
      · rw [hw] at hl; simp at hl
      · rw [hw] at hl
        simp only [Option.map_some] at hl
        split_ifs at hl with hany
        rw [← Option.some.inj hl] at ha; exact hw2 a (hF2 w' a ha)
  refine ⟨?_, ?_, ?_, ?_, ?_, ?_, ?_⟩
  · rw [← h1]
    exact vnew _ _ _ _ _ g3 l1 (fun w hw => by rw [List.length_take]; omega) (fun w a ha => List.mem_of_mem_take ha)
  · rw [← h2]
    exact vnew _ _ _ _ _ g4 l2 (fun w hw => by rw [List.length_drop]; omega) (fun w a ha => List.mem_of_mem_drop ha)
  · rw [← h1]; rfl
  · rw [← h2]; rfl
  · rw [← h1]; show (t.ctrlpts.take (k - p + 1 + num)).length = _
    rw [l1]; omega
  · rw [← h2]; show (t.ctrlpts.drop (k - p + 1 + num - 1)).length = _
    rw [l2]; omega
  · rw [← h2]
    show repeatKnots _ _ = _
    have e1 : kv'.drop (k + num + 1) = c.knotvector.drop (k + 1) := by
      rw [hkv']; unfold knotInsertionKv
      have : (c.knotvector.take (k + 1) ++ List.replicate num x).length = k + num + 1 := by simp; omega
      rw [← this, List.drop_left]
    rw [← e1]
    exact g4'

/-- Specification: `q` is a Bézier curve of degree `p` (`p + 1` control points, no inner knots). -/
def IsBezier (p : ℕ) (c : BCurve K V) : Prop :=
  c.degree = p ∧ c.ctrlpts.length = p + 1 ∧ c.knotvector = bezierKnots p

theorem decomposeLoop_spec (tol : K) (fuel : ℕ) : ∀ (c : BCurve K V), c.Valid tol → c.ctrlpts.length ≤ fuel + c.degree →
    ∀ start umax : K, ∃ L, BCurve.decomposeLoop tol fuel c start umax = some L ∧
      L.map (fun q => q.2.1) = (c.knotvector.dedup.map fun a => a * (umax - start) + start).dropLast ∧
      L.map (fun q => q.2.2) = (c.knotvector.dedup.map fun a => a * (umax - start) + start).tail ∧
      ∀ q ∈ L, q.1.Valid tol ∧ IsBezier c.degree q.1 ∧ ∃ α β : K, 0 ≤ α ∧ α ≤ β ∧ β ≤ 1 ∧
        q.2.1 = α * (umax - start) + start ∧ q.2.2 = β * (umax - start) + start ∧
        ∀ v, 0 ≤ v → v ≤ 1 → q.1.eval v = c.eval (α + v * (β - α)) := by
  induction fuel with
  | zero =>
    intro c hv hf
    have := hv.clamped.pn
    omega
  | succ fuel ih =>
    intro c hv hf start umax
    have hok := hv.knotsOK
    have hpn := hv.clamped.pn
    unfold BCurve.decomposeLoop
    dsimp only
    rcases Nat.lt_or_ge (c.degree + 1) c.ctrlpts.length with hlt | hge
    · obtain ⟨f1, f2, f3, f4, f5, f6, f7⟩ := hok.first hlt _ rfl
      have fd := hok.first_dedup hlt _ rfl
      change (BCurve.innerKnots c.degree c.knotvector).any _ = true at f1
      rw [if_pos f1]
      change (BCurve.innerKnots c.degree c.knotvector).headD 0 = kvFun c.knotvector (c.degree + 1) at f2
      rw [f2]
      change c.Inner tol (kvFun c.knotvector (c.degree + 1)) at f3
      change 0 < c.knotvector.count (kvFun c.knotvector (c.degree + 1)) at f4
      change findSpanLinear c.degree (kvFun c.knotvector) c.ctrlpts.length (kvFun c.knotvector (c.degree + 1)) =
        c.degree + c.knotvector.count (kvFun c.knotvector (c.degree + 1)) at f5
      change c.knotvector.dedup = 0 :: (List.replicate (c.degree + 1) (kvFun c.knotvector (c.degree + 1)) ++
        c.knotvector.drop (c.degree + c.knotvector.count (kvFun c.knotvector (c.degree + 1)) + 1)).dedup at fd
      set x := kvFun c.knotvector (c.degree + 1) with hx
      obtain ⟨c1, c2, s1, s2, s3, s4, s5, -, -⟩ := C23_split tol c hv x f3
      obtain ⟨v1, v2, -, -, l1, l2, k2⟩ := split_shape tol c hv x f3 c1 c2 s1 _ f5.symm
      rw [s1]
      dsimp only
      have hx0 := f3.1
      have hx1 := f3.2.1
      have hne : (1 - x) ≠ 0 := by intro h; linarith
      obtain ⟨L, e1, e2, e3, e4⟩ := ih c2 v2 (by rw [l2, s3]; omega) (x * (umax - start) + start) umax
      have hmap : (c2.knotvector.dedup.map fun a => a * (umax - (x * (umax - start) + start)) +
          (x * (umax - start) + start)) =
          (List.replicate (c.degree + 1) x ++ c.knotvector.drop (c.degree + c.knotvector.count x + 1)).dedup.map
            fun a => a * (umax - start) + start := by
        rw [k2, List.dedup_map_of_injective]
        · rw [List.map_map]
          apply List.map_congr_left
          intro a _
          simp only [Function.comp_apply]
          field_simp
          ring
        · intro a b hab
          simp only at hab
          rw [div_left_inj' hne] at hab
          linarith
      rw [hmap] at e2 e3
      set D := (List.replicate (c.degree + 1) x ++ c.knotvector.drop (c.degree + c.knotvector.count x + 1)).dedup with hD
      have hDx : ∃ D', D = x :: D' := by
        have hnm : x ∉ c.knotvector.drop (c.degree + c.knotvector.count x + 1) := fun h => lt_irrefl _ (f7 _ h)
        exact ⟨_, by rw [hD, dedup_replicate_append, List.dedup_cons_of_notMem hnm]⟩
      obtain ⟨D', hD'⟩ := hDx
      refine ⟨(c1, start, x * (umax - start) + start) :: L, by rw [e1]; rfl, ?_, ?_, ?_⟩
      · rw [List.map_cons, e2, fd, hD']
        simp
      · rw [List.map_cons, e3, fd, hD']
        simp
      · intro q hq
        rcases List.mem_cons.1 hq with rfl | hq
        · refine ⟨v1, ⟨s2, ?_, ?_⟩, 0, x, le_refl _, hx0.le, hx1.le, by simp, rfl, ?_⟩
          · dsimp only; rw [l1]; omega
          · have h2 := v1.knotsOK
            rw [s2, l1, show c.degree + c.knotvector.count x + 1 - c.knotvector.count x = c.degree + 1 by omega] at h2
            exact h2.bezier
          · intro v h0 h1
            rw [s4 v h0 h1, zero_add, sub_zero]
        · obtain ⟨q1, q2, α, β, a1, a2, a3, a4, a5, a6⟩ := e4 q hq
          rw [s3] at q2
          have hpos : 0 < 1 - x := sub_pos.2 hx1
          refine ⟨q1, q2, x + α * (1 - x), x + β * (1 - x), ?_, ?_, ?_, ?_, ?_, ?_⟩
          · have := mul_nonneg a1 hpos.le; linarith
          · have := mul_le_mul_of_nonneg_right a2 hpos.le; linarith
          · have := mul_le_mul_of_nonneg_right a3 hpos.le; linarith
          · rw [a4]; ring
          · rw [a5]; ring
          · intro v h0 h1
            rw [a6 v h0 h1, s5]
            · congr 1; ring
            · have := mul_nonneg h0 (sub_nonneg.2 a2); linarith
            · have := mul_le_mul_of_nonneg_right h1 (sub_nonneg.2 a2); linarith
    · have hn : c.ctrlpts.length = c.degree + 1 := by omega
      have hb : c.knotvector = bezierKnots c.degree := by
        have h2 := hok
        rw [hn] at h2
        exact h2.bezier
      have hin : BCurve.innerKnots c.degree c.knotvector = [] := by
        unfold BCurve.innerKnots
        apply List.drop_eq_nil_of_le
        rw [List.length_take, hv.length]
        omega
      rw [hin]
      have hd : c.knotvector.dedup = [0, 1] := by
        rw [hb]; unfold bezierKnots
        rw [dedup_replicate_append, List.dedup_cons_of_notMem, show List.replicate (c.degree + 1) (1 : K) =
          List.replicate (c.degree + 1) 1 ++ [] by simp, dedup_replicate_append]
        · simp
        · intro h; exact zero_ne_one (List.eq_of_mem_replicate h)
      refine ⟨[(c, start, umax)], by simp, ?_, ?_, ?_⟩
      · rw [hd]; simp
      · rw [hd]; simp
      · intro q hq
        obtain rfl := List.mem_singleton.1 hq
        refine ⟨hv, ⟨rfl, hn, hb⟩, 0, 1, le_refl _, zero_le_one, le_refl _, by simp, by simp, ?_⟩
        intro v _ _
        simp

/-- **C149** the decomposition of every valid curve ends and gives Bézier patches of the same degree, one for each
interval between two consecutive distinct knots, in order: a patch with parameters `(a, b)` traces the curve
from `a` to `b`, affinely. -/
theorem C149_decompose_curve (tol : K) (c : BCurve K V) (hv : c.Valid tol) (fuel : ℕ) (hf : c.ctrlpts.length ≤ fuel) :
    ∃ L, c.decompose tol fuel = some L ∧
      L.map (fun q => q.2.1) = c.knotvector.dedup.dropLast ∧ L.map (fun q => q.2.2) = c.knotvector.dedup.tail ∧
      ∀ q ∈ L, IsBezier c.degree q.1 ∧ 0 ≤ q.2.1 ∧ q.2.1 ≤ q.2.2 ∧ q.2.2 ≤ 1 ∧
        ∀ v, 0 ≤ v → v ≤ 1 → q.1.eval v = c.eval (q.2.1 + v * (q.2.2 - q.2.1)) := by
  unfold BCurve.decompose
  rw [hv.length, show c.ctrlpts.length + c.degree + 1 - (c.degree + 1) = c.ctrlpts.length by omega, hv.dom0, hv.dom1]
  obtain ⟨L, h1, h2, h3, h4⟩ := decomposeLoop_spec tol fuel c hv (by omega) 0 1
  simp only [sub_zero, mul_one, add_zero, List.map_id'] at h2 h3
  refine ⟨L, h1, h2, h3, ?_⟩
  intro q hq
  obtain ⟨-, q2, α, β, a1, a2, a3, a4, a5, a6⟩ := h4 q hq
  simp only [sub_zero, mul_one, add_zero] at a4 a5
  rw [a4, a5]
  exact ⟨q2, a1, a2, a3, a6⟩

example : ∃ L, (exampleCurve (some [1, 2, 1, 3])).decompose (1 / 10 ^ 15) 4 = some L ∧
    L.map (fun q => q.2) = [(0, 1 / 2), (1 / 2, 1)] ∧ ∀ q ∈ L, q.1.ctrlpts.length = 3 := by
  obtain ⟨L, h1, h2, h3, h4⟩ := C149_decompose_curve (1 / 10 ^ 15) (exampleCurve (some [1, 2, 1, 3]))
    (exampleCurve_valid _ (by simp) (by simp)) 4 (by decide)
  rw [exampleCurve_kv] at h2 h3
  refine ⟨L, h1, ?_, fun q hq => (h4 q hq).1.2.1⟩
  have e2 : ([0, 0, 0, 1 / 2, 1, 1, 1] : List ℚ).dedup.dropLast = [0, 1 / 2] := by decide +kernel
  have e3 : ([0, 0, 0, 1 / 2, 1, 1, 1] : List ℚ).dedup.tail = [1 / 2, 1] := by decide +kernel
  rw [e2] at h2
  rw [e3] at h3
  have : L.map (fun q => q.2) = (L.map fun q => q.2.1).zip (L.map fun q => q.2.2) := by
    rw [List.zip_map']
  rw [this, h2, h3]
  rfl

end
end Volmdlr
