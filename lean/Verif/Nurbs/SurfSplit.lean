import Verif.Nurbs.SurfInsert

/-!
# C151: splitting a surface
-/

namespace Volmdlr
open Finset
section
variable {K : Type*} [Field K] [LinearOrder K] [IsStrictOrderedRing K]
variable {V : Type*} [AddCommGroup V] [Module K V]

/-! ### the pieces as nets -/

theorem flatten_take_length {W : Type*} [AddCommGroup W] (cp : List W) (nu nv m : ℕ) (hm : m ≤ nu) :
    (((netRows cp nu nv).take m).flatten).length = m * nv := by
  rw [netRows_take cp nu nv m hm, ← List.flatMap_def]
  exact length_flatMap_range _ _ _ (fun i _ => netRow_length _ _ _)

theorem flatten_drop_length {W : Type*} [AddCommGroup W] (cp : List W) (nu nv d : ℕ) :
    (((netRows cp nu nv).drop d).flatten).length = (nu - d) * nv := by
  rw [netRows_drop cp nu nv d, ← List.flatMap_def]
  exact length_flatMap_range _ _ _ (fun i _ => netRow_length _ _ _)

theorem flatMap_take_length {W : Type*} [AddCommGroup W] (cp : List W) (nu nv m : ℕ) (hm : m ≤ nv) :
    ((netRows cp nu nv).flatMap fun r : List W => r.take m).length = nu * m := by
  unfold netRows
  rw [List.flatMap_map]
  exact length_flatMap_range _ _ _ (fun u _ => by rw [List.length_take, netRow_length, Nat.min_eq_left hm])

theorem flatMap_drop_length {W : Type*} [AddCommGroup W] (cp : List W) (nu nv d : ℕ) :
    ((netRows cp nu nv).flatMap fun r : List W => r.drop d).length = nu * (nv - d) := by
  unfold netRows
  rw [List.flatMap_map]
  exact length_flatMap_range _ _ _ (fun u _ => by rw [List.length_drop, netRow_length])

theorem mem_netRows {W : Type*} [AddCommGroup W] (cp : List W) (nu nv : ℕ) (hlen : cp.length = nu * nv) :
    ∀ r ∈ netRows cp nu nv, ∀ q ∈ r, q ∈ cp := by
  intro r hr q hq
  obtain ⟨i, hi, rfl⟩ := List.mem_map.1 hr
  exact mem_netRow cp nu nv i hlen (List.mem_range.1 hi) q hq

/-- Making a surface object from a net `F` of another one, weighted or not. -/
theorem netRel_new (t : BSurf K V) (du dv nu nv : ℕ) (um vm : List ℕ) (uk vk : List K) (F : List V → List V)
    (G : List (V × K) → List (V × K))
    (hG : ∀ w, t.weights = some w → ∀ q ∈ G (BCurve.ctrlptsw t.ctrlpts w), 0 < q.2) (r : BSurf K V)
    (hr : r = (match t.weights with
      | none => BSurf.new du dv (F t.ctrlpts) nu nv um vm uk vk none
      | some w => BSurf.new du dv (BCurve.separate (G (BCurve.ctrlptsw t.ctrlpts w))).1 nu nv um vm uk vk
          (some (BCurve.separate (G (BCurve.ctrlptsw t.ctrlpts w))).2))) :
    NetRel t r F G ∧ r.degreeU = du ∧ r.degreeV = dv ∧ r.nbU = nu ∧ r.nbV = nv ∧ r.uMults = um ∧ r.vMults = vm ∧
      r.uKnots = standardizeKnotVector uk ∧ r.vKnots = standardizeKnotVector vk ∧
      (∀ N, (F t.ctrlpts).length = N → (∀ w, t.weights = some w → (G (BCurve.ctrlptsw t.ctrlpts w)).length = N) →
        r.ctrlpts.length = N) := by
  cases hw : t.weights with
  | none =>
    rw [hw] at hr
    subst hr
    refine ⟨⟨fun _ => ⟨rfl, rfl⟩, fun w h => ?_⟩, rfl, rfl, rfl, rfl, rfl, rfl, rfl, rfl, fun N h _ => h⟩
    rw [hw] at h; simp at h
  | some w =>
    rw [hw] at hr
    subst hr
    obtain ⟨q1, q2, q3⟩ := netRel_separate _ (hG w hw)
    refine ⟨⟨fun h => ?_, fun w' h => ?_⟩, rfl, rfl, rfl, rfl, rfl, rfl, rfl, rfl, fun N _ h => ?_⟩
    · rw [hw] at h; simp at h
    · rw [hw] at h
      obtain rfl := Option.some.inj h
      exact ⟨_, rfl, q1, q2, q3⟩
    · show (BCurve.separate _).1.length = N
      rw [separate_fst_length]; exact h w rfl

/-- The columns of both halves of a net that was cut after an insertion in u. -/
theorem cutU_eval {W : Type*} [AddCommGroup W] [Module K W] (tol : K) (p n : ℕ) (knots : List K) (mults : List ℕ)
    (ok : KnotsOK tol p n knots mults) (x : K) (hx : InnerKnot tol (repeatKnots knots mults) x) (k : ℕ)
    (hk : k = findSpanLinear p (kvFun (repeatKnots knots mults)) n x) (num : ℕ)
    (hnum : num + (repeatKnots knots mults).count x = p) (cp : List W) (pv nv : ℕ) (Uv : ℕ → K) (hv : pv < nv)
    (kv' : List K) (hkv' : kv' = knotInsertionKv (repeatKnots knots mults) x k num) (net : List W)
    (hnet : net = if num = 0 then cp else
      insertNetU p (repeatKnots knots mults) cp n nv x num ((repeatKnots knots mults).count x) k) (u v : K)
    (hu0 : 0 ≤ u) (hu1 : u ≤ 1) :
    surfacePoint p pv (kvFun ((kv'.take (k + num + 1) ++ [x]).map fun a => a / x)) Uv
      (cpFun ((netRows net (n + num) nv).take (k - p + 1 + num)).flatten) (k - p + 1 + num) nv u v =
      surfacePoint p pv (kvFun (repeatKnots knots mults)) Uv (cpFun cp) n nv (u * x) v ∧
    surfacePoint p pv (kvFun ((List.replicate (p + 1) x ++ kv'.drop (k + num + 1)).map fun a => (a - x) / (1 - x))) Uv
      (cpFun ((netRows net (n + num) nv).drop (k - p + num)).flatten) (n + num - (k - p + num)) nv u v =
      surfacePoint p pv (kvFun (repeatKnots knots mults)) Uv (cpFun cp) n nv (x + u * (1 - x)) v := by
  obtain ⟨g1, g2, ⟨g3, g3'⟩, ⟨g4, g4'⟩⟩ := split_ok ok hx k hk num hnum kv' hkv'
  have hx0 := hx.1
  have hx1 := hx.2.1
  have hpos : 0 < 1 - x := sub_pos.2 hx1
  have hcols := fun j hj => insU_cols tol p n knots mults ok x hx k hk num hnum cp nv j hj
  rw [← hnet] at hcols
  have h0 : kvFun (repeatKnots knots mults) p < x := by rw [ok.dom0]; exact hx0
  have h1 : x < kvFun (repeatKnots knots mults) n := by rw [ok.dom1]; exact hx1
  have b1 : 0 ≤ u * x := mul_nonneg hu0 hx0.le
  have b2 : u * x ≤ x := mul_le_of_le_one_left hx0.le hu1
  have b3 : x ≤ x + u * (1 - x) := le_add_of_nonneg_right (mul_nonneg hu0 hpos.le)
  have b4 : x + u * (1 - x) ≤ 1 := by
    have := mul_le_mul_of_nonneg_right hu1 hpos.le; linarith
  constructor
  · apply surf_col _ _ _ _ _ _ _ _ _ _ ok.clamped.pn g3.clamped.pn hv
    intro j hj
    rw [netCol_take net (n + num) nv _ j g2 hj]
    have hl := netCol_length cp n nv j
    obtain ⟨-, -, -, -, G, -⟩ := split_generic p (repeatKnots knots mults) (netCol cp n nv j) x ok.deg ok.sorted
      (by rw [hl]; exact ok.length) (by rw [hl]; exact ok.clamped) h0 (by rw [hl]; exact h1) k (by rw [hl]; exact hk) num
      hnum kv' hkv' (netCol net (n + num) nv j) (by rw [hl]; exact hcols j hj)
    have := G (u * x) (by rw [ok.dom0]; exact b1) b2
    rw [hl] at this
    rw [← this]
    have hne : (kv'.take (k + num + 1) ++ [x]) ≠ [] := by simp
    have hf : kvFun ((kv'.take (k + num + 1) ++ [x]).map fun a => a / x) =
        fun j => (kvFun (kv'.take (k + num + 1) ++ [x]) j - 0) / x := by
      funext j; rw [kvFun_map _ _ hne, sub_zero]
    rw [hf, ← curve_affine_param p (k - p + 1 + num) (kvFun (kv'.take (k + num + 1) ++ [x])) g3.clamped.pn _ 0 x hx0 (u * x)]
    congr 1
    rw [sub_zero, mul_div_assoc, div_self hx0.ne', mul_one]
  · apply surf_col _ _ _ _ _ _ _ _ _ _ ok.clamped.pn g4.clamped.pn hv
    intro j hj
    rw [netCol_drop net (n + num) nv _ j hj]
    have hl := netCol_length cp n nv j
    obtain ⟨-, -, -, -, -, G⟩ := split_generic p (repeatKnots knots mults) (netCol cp n nv j) x ok.deg ok.sorted
      (by rw [hl]; exact ok.length) (by rw [hl]; exact ok.clamped) h0 (by rw [hl]; exact h1) k (by rw [hl]; exact hk) num
      hnum kv' hkv' (netCol net (n + num) nv j) (by rw [hl]; exact hcols j hj)
    have := G (x + u * (1 - x)) b3 (by rw [hl, ok.dom1]; exact b4)
    rw [hl] at this
    rw [← this]
    have hne : (List.replicate (p + 1) x ++ kv'.drop (k + num + 1)) ≠ [] := by simp
    have hf : kvFun ((List.replicate (p + 1) x ++ kv'.drop (k + num + 1)).map fun a => (a - x) / (1 - x)) =
        fun j => (kvFun (List.replicate (p + 1) x ++ kv'.drop (k + num + 1)) j - x) / (1 - x) := by
      funext j; rw [kvFun_map _ _ hne]
    rw [hf, ← curve_affine_param p (n + num - (k - p + num)) _ g4.clamped.pn _ x (1 - x) hpos (x + u * (1 - x))]
    congr 1
    rw [add_sub_cancel_left, mul_div_assoc, div_self hpos.ne', mul_one]

/-- The rows of both halves of a net that was cut after an insertion in v. -/
theorem cutV_eval {W : Type*} [AddCommGroup W] [Module K W] (tol : K) (p n : ℕ) (knots : List K) (mults : List ℕ)
    (ok : KnotsOK tol p n knots mults) (x : K) (hx : InnerKnot tol (repeatKnots knots mults) x) (k : ℕ)
    (hk : k = findSpanLinear p (kvFun (repeatKnots knots mults)) n x) (num : ℕ)
    (hnum : num + (repeatKnots knots mults).count x = p) (cp : List W) (pu nu : ℕ) (Uu : ℕ → K) (hu : pu < nu)
    (kv' : List K) (hkv' : kv' = knotInsertionKv (repeatKnots knots mults) x k num) (net : List W)
    (hnet : net = if num = 0 then cp else
      insertNetV p (repeatKnots knots mults) cp nu n x num ((repeatKnots knots mults).count x) k) (u v : K)
    (hv0 : 0 ≤ v) (hv1 : v ≤ 1) :
    surfacePoint pu p Uu (kvFun ((kv'.take (k + num + 1) ++ [x]).map fun a => a / x))
      (cpFun ((netRows net nu (n + num)).flatMap fun r : List W => r.take (k - p + 1 + num))) nu (k - p + 1 + num) u v =
      surfacePoint pu p Uu (kvFun (repeatKnots knots mults)) (cpFun cp) nu n u (v * x) ∧
    surfacePoint pu p Uu (kvFun ((List.replicate (p + 1) x ++ kv'.drop (k + num + 1)).map fun a => (a - x) / (1 - x)))
      (cpFun ((netRows net nu (n + num)).flatMap fun r : List W => r.drop (k - p + num))) nu
      (n + num - (k - p + num)) u v =
      surfacePoint pu p Uu (kvFun (repeatKnots knots mults)) (cpFun cp) nu n u (x + v * (1 - x)) := by
  obtain ⟨g1, g2, ⟨g3, g3'⟩, ⟨g4, g4'⟩⟩ := split_ok ok hx k hk num hnum kv' hkv'
  have hx0 := hx.1
  have hx1 := hx.2.1
  have hpos : 0 < 1 - x := sub_pos.2 hx1
  have hrows := fun i hi => insV_rows tol p n knots mults ok x hx k hk num hnum cp nu i hi
  rw [← hnet] at hrows
  have h0 : kvFun (repeatKnots knots mults) p < x := by rw [ok.dom0]; exact hx0
  have h1 : x < kvFun (repeatKnots knots mults) n := by rw [ok.dom1]; exact hx1
  have b1 : 0 ≤ v * x := mul_nonneg hv0 hx0.le
  have b2 : v * x ≤ x := mul_le_of_le_one_left hx0.le hv1
  have b3 : x ≤ x + v * (1 - x) := le_add_of_nonneg_right (mul_nonneg hv0 hpos.le)
  have b4 : x + v * (1 - x) ≤ 1 := by
    have := mul_le_mul_of_nonneg_right hv1 hpos.le; linarith
  constructor
  · apply surf_row _ _ _ _ _ _ _ _ _ _ hu ok.clamped.pn g3.clamped.pn
    intro i hi
    rw [netRow_take net nu (n + num) _ i g2 hi]
    have hl := netRow_length cp n i
    obtain ⟨-, -, -, -, G, -⟩ := split_generic p (repeatKnots knots mults) (netRow cp n i) x ok.deg ok.sorted
      (by rw [hl]; exact ok.length) (by rw [hl]; exact ok.clamped) h0 (by rw [hl]; exact h1) k (by rw [hl]; exact hk) num
      hnum kv' hkv' (netRow net (n + num) i) (by rw [hl]; exact hrows i hi)
    have := G (v * x) (by rw [ok.dom0]; exact b1) b2
    rw [hl] at this
    rw [← this]
    have hne : (kv'.take (k + num + 1) ++ [x]) ≠ [] := by simp
    have hf : kvFun ((kv'.take (k + num + 1) ++ [x]).map fun a => a / x) =
        fun j => (kvFun (kv'.take (k + num + 1) ++ [x]) j - 0) / x := by
      funext j; rw [kvFun_map _ _ hne, sub_zero]
    rw [hf, ← curve_affine_param p (k - p + 1 + num) (kvFun (kv'.take (k + num + 1) ++ [x])) g3.clamped.pn _ 0 x hx0 (v * x)]
    congr 1
    rw [sub_zero, mul_div_assoc, div_self hx0.ne', mul_one]
  · apply surf_row _ _ _ _ _ _ _ _ _ _ hu ok.clamped.pn g4.clamped.pn
    intro i hi
    rw [netRow_drop net nu (n + num) _ i hi]
    have hl := netRow_length cp n i
    obtain ⟨-, -, -, -, -, G⟩ := split_generic p (repeatKnots knots mults) (netRow cp n i) x ok.deg ok.sorted
      (by rw [hl]; exact ok.length) (by rw [hl]; exact ok.clamped) h0 (by rw [hl]; exact h1) k (by rw [hl]; exact hk) num
      hnum kv' hkv' (netRow net (n + num) i) (by rw [hl]; exact hrows i hi)
    have := G (x + v * (1 - x)) b3 (by rw [hl, ok.dom1]; exact b4)
    rw [hl] at this
    rw [← this]
    have hne : (List.replicate (p + 1) x ++ kv'.drop (k + num + 1)) ≠ [] := by simp
    have hf : kvFun ((List.replicate (p + 1) x ++ kv'.drop (k + num + 1)).map fun a => (a - x) / (1 - x)) =
        fun j => (kvFun (List.replicate (p + 1) x ++ kv'.drop (k + num + 1)) j - x) / (1 - x) := by
      funext j; rw [kvFun_map _ _ hne]
    rw [hf, ← curve_affine_param p (n + num - (k - p + num)) _ g4.clamped.pn _ x (1 - x) hpos (x + v * (1 - x))]
    congr 1
    rw [add_sub_cancel_left, mul_div_assoc, div_self hpos.ne', mul_one]

omit [IsStrictOrderedRing K] in
theorem constructSplitU_eq (tol : K) (t : BSurf K V) (kv1 kv2 : List K) (m : ℕ) :
    (BSurf.constructSplitU tol t kv1 kv2 m).1 = (match t.weights with
      | none => BSurf.new t.degreeU t.degreeV ((fun cp => ((netRows cp t.nbU t.nbV).take m).flatten) t.ctrlpts) m t.nbV
          (getKnotsAndMultiplicities tol kv1).2 t.vMults (getKnotsAndMultiplicities tol kv1).1 t.vKnots none
      | some w => BSurf.new t.degreeU t.degreeV
          (BCurve.separate ((fun cp => ((netRows cp t.nbU t.nbV).take m).flatten) (BCurve.ctrlptsw t.ctrlpts w))).1 m t.nbV
          (getKnotsAndMultiplicities tol kv1).2 t.vMults (getKnotsAndMultiplicities tol kv1).1 t.vKnots
          (some (BCurve.separate
            ((fun cp => ((netRows cp t.nbU t.nbV).take m).flatten) (BCurve.ctrlptsw t.ctrlpts w))).2)) ∧
    (BSurf.constructSplitU tol t kv1 kv2 m).2 = (match t.weights with
      | none => BSurf.new t.degreeU t.degreeV ((fun cp => ((netRows cp t.nbU t.nbV).drop (m - 1)).flatten) t.ctrlpts)
          (t.nbU - (m - 1)) t.nbV
          (getKnotsAndMultiplicities tol kv2).2 t.vMults (getKnotsAndMultiplicities tol kv2).1 t.vKnots none
      | some w => BSurf.new t.degreeU t.degreeV
          (BCurve.separate ((fun cp => ((netRows cp t.nbU t.nbV).drop (m - 1)).flatten) (BCurve.ctrlptsw t.ctrlpts w))).1
          (t.nbU - (m - 1)) t.nbV
          (getKnotsAndMultiplicities tol kv2).2 t.vMults (getKnotsAndMultiplicities tol kv2).1 t.vKnots
          (some (BCurve.separate
            ((fun cp => ((netRows cp t.nbU t.nbV).drop (m - 1)).flatten) (BCurve.ctrlptsw t.ctrlpts w))).2)) := by
  unfold BSurf.constructSplitU
  cases t.weights <;> exact ⟨rfl, rfl⟩

omit [IsStrictOrderedRing K] in
theorem constructSplitV_eq (tol : K) (t : BSurf K V) (kv1 kv2 : List K) (m : ℕ) :
    (BSurf.constructSplitV tol t kv1 kv2 m).1 = (match t.weights with
      | none => BSurf.new t.degreeU t.degreeV
          ((fun cp => (netRows cp t.nbU t.nbV).flatMap fun r : List V => r.take m) t.ctrlpts) t.nbU m
          t.uMults (getKnotsAndMultiplicities tol kv1).2 t.uKnots (getKnotsAndMultiplicities tol kv1).1 none
      | some w => BSurf.new t.degreeU t.degreeV
          (BCurve.separate ((fun cp => (netRows cp t.nbU t.nbV).flatMap fun r : List (V × K) => r.take m)
            (BCurve.ctrlptsw t.ctrlpts w))).1 t.nbU m
          t.uMults (getKnotsAndMultiplicities tol kv1).2 t.uKnots (getKnotsAndMultiplicities tol kv1).1
          (some (BCurve.separate ((fun cp => (netRows cp t.nbU t.nbV).flatMap fun r : List (V × K) => r.take m)
            (BCurve.ctrlptsw t.ctrlpts w))).2)) ∧
    (BSurf.constructSplitV tol t kv1 kv2 m).2 = (match t.weights with
      | none => BSurf.new t.degreeU t.degreeV
          ((fun cp => (netRows cp t.nbU t.nbV).flatMap fun r : List V => r.drop (m - 1)) t.ctrlpts) t.nbU
          (t.nbV - (m - 1))
          t.uMults (getKnotsAndMultiplicities tol kv2).2 t.uKnots (getKnotsAndMultiplicities tol kv2).1 none
      | some w => BSurf.new t.degreeU t.degreeV
          (BCurve.separate ((fun cp => (netRows cp t.nbU t.nbV).flatMap fun r : List (V × K) => r.drop (m - 1))
            (BCurve.ctrlptsw t.ctrlpts w))).1 t.nbU (t.nbV - (m - 1))
          t.uMults (getKnotsAndMultiplicities tol kv2).2 t.uKnots (getKnotsAndMultiplicities tol kv2).1
          (some (BCurve.separate ((fun cp => (netRows cp t.nbU t.nbV).flatMap fun r : List (V × K) => r.drop (m - 1))
            (BCurve.ctrlptsw t.ctrlpts w))).2)) := by
  unfold BSurf.constructSplitV
  cases t.weights <;> exact ⟨rfl, rfl⟩

/-- Everything about the two pieces of a surface split in u. -/
theorem splitU_spec (tol : K) (s : BSurf K V) (hv : s.Valid tol) (x : K) (hx : InnerKnot tol s.kvU x) (k : ℕ)
    (hk : k = findSpanLinear s.degreeU (kvFun s.kvU) s.nbU x) :
    ∃ s1 s2, s.splitU tol x = some (s1, s2) ∧ s1.Valid tol ∧ s2.Valid tol ∧
      (s1.degreeU = s.degreeU ∧ s1.degreeV = s.degreeV ∧ s1.kvV = s.kvV ∧ s1.nbV = s.nbV) ∧
      (s2.degreeU = s.degreeU ∧ s2.degreeV = s.degreeV ∧ s2.kvV = s.kvV ∧ s2.nbV = s.nbV) ∧
      s1.nbU = k + 1 - s.kvU.count x ∧ s2.nbU = s.nbU - (k - s.degreeU) ∧
      s2.kvU = (List.replicate (s.degreeU + 1) x ++ s.kvU.drop (k + 1)).map (fun a => (a - x) / (1 - x)) ∧
      (∀ u v, 0 ≤ u → u ≤ 1 → s1.eval u v = s.eval (u * x) v) ∧
      (∀ u v, 0 ≤ u → u ≤ 1 → s2.eval u v = s.eval (x + u * (1 - x)) v) := by
  have hok := hv.uOK
  obtain ⟨a, b, d, e, hl, f, g, i, hmle⟩ := ok_facts hok hx k hk
  have hm : findMultiplicity tol x s.kvU = s.kvU.count x := ok_mult hok hx
  change s.kvU.count x ≤ s.degreeU at hmle
  change s.kvU.count x ≤ k at f
  have hlen : s.kvU.length = s.nbU + s.degreeU + 1 := hok.length
  have hd0 : kvFun s.kvU s.degreeU = 0 := hok.dom0
  have hd1 : kvFun s.kvU s.nbU = 1 := hok.dom1
  have hnum : s.degreeU - s.kvU.count x + s.kvU.count x = s.degreeU := by omega
  obtain ⟨t, t1, t2, t3, t4, t5, t6, t7, t8, t9, t10, t11⟩ := insertU_spec tol s hv x hx k hk _ hnum false
  generalize hn : s.degreeU - s.kvU.count x = num at *
  obtain ⟨g1, g2, ⟨g3, g3'⟩, ⟨g4, g4'⟩⟩ := split_ok hok hx k hk num hnum _ rfl
  have hpn := hok.clamped.pn
  unfold BSurf.splitU
  dsimp only
  rw [if_neg (by
    rw [hlen, show s.nbU + s.degreeU + 1 - (s.degreeU + 1) = s.nbU by omega, hd0, hd1]
    rintro (h | h)
    · exact hx.1.ne' h
    · exact hx.2.1.ne h), hm, hn, t1]
  dsimp only
  change findSpanLinear s.degreeU (kvFun (knotInsertionKv s.kvU x k num)) (s.nbU + num) x = k + num at g1
  rw [← hk]
  have hspan : findSpanLinear t.degreeU (kvFun t.kvU) t.nbU x = k + num := by rw [t3, t5, t7, g1]
  rw [hspan, t3, t7]
  set kv' := knotInsertionKv s.kvU x k num with hkv'
  set kv1 := kv'.take (k + num + 1) ++ [x] with hkv1
  set kv2 := List.replicate (s.degreeU + 1) x ++ kv'.drop (k + num + 1) with hkv2
  obtain ⟨q1, q2⟩ := constructSplitU_eq tol t kv1 kv2 (k - s.degreeU + 1 + num)
  have hposw : ∀ w, t.weights = some w → ∀ q ∈ BCurve.ctrlptsw t.ctrlpts w, 0 < q.2 :=
    fun w hw => ctrlptsw_mem_pos _ _ (t2.wpos w hw)
  have hlw : ∀ w, t.weights = some w → (BCurve.ctrlptsw t.ctrlpts w).length = t.nbU * t.nbV :=
    fun w hw => by rw [ctrlptsw_length _ _ (t2.wlen w hw)]; exact t2.len
  obtain ⟨r1, r2, r3, r4, r5, r6, r7, r8, r9, r10⟩ := netRel_new t _ _ _ _ _ _ _ _
    (fun cp => ((netRows cp t.nbU t.nbV).take (k - s.degreeU + 1 + num)).flatten)
    (fun cp => ((netRows cp t.nbU t.nbV).take (k - s.degreeU + 1 + num)).flatten)
    (fun w hw q hq => by
      obtain ⟨r, hr, hq⟩ := List.mem_flatten.1 hq
      exact hposw w hw q (mem_netRows _ _ _ (hlw w hw) r (List.mem_of_mem_take hr) q hq)) _ q1
  obtain ⟨p1, p2, p3, p4, p5, p6, p7, p8, p9, p10⟩ := netRel_new t _ _ _ _ _ _ _ _
    (fun cp => ((netRows cp t.nbU t.nbV).drop (k - s.degreeU + 1 + num - 1)).flatten)
    (fun cp => ((netRows cp t.nbU t.nbV).drop (k - s.degreeU + 1 + num - 1)).flatten)
    (fun w hw q hq => by
      obtain ⟨r, hr, hq⟩ := List.mem_flatten.1 hq
      exact hposw w hw q (mem_netRows _ _ _ (hlw w hw) r (List.mem_of_mem_drop hr) q hq)) _ q2
  set s1 := (BSurf.constructSplitU tol t kv1 kv2 (k - s.degreeU + 1 + num)).1 with hs1
  set s2 := (BSurf.constructSplitU tol t kv1 kv2 (k - s.degreeU + 1 + num)).2 with hs2
  have hvst : standardizeKnotVector t.vKnots = t.vKnots := standardize_of_unit _ t2.vOK.headK t2.vOK.lastK
  have hvo : KnotsOK tol s.degreeV s.nbV t.vKnots t.vMults := by rw [t9, t10]; exact hv.vOK
  have m1 : k - s.degreeU + 1 + num - 1 = k - s.degreeU + num := by omega
  have n2 : t.nbU - (k - s.degreeU + 1 + num - 1) = s.nbU + num - (k - s.degreeU + num) := by rw [t5, m1]
  have l1 := r10 ((k - s.degreeU + 1 + num) * t.nbV) (flatten_take_length _ _ _ _ (by rw [t5]; exact g2))
    (fun w _ => flatten_take_length _ _ _ _ (by rw [t5]; exact g2))
  have l2 := p10 ((t.nbU - (k - s.degreeU + 1 + num - 1)) * t.nbV) (flatten_drop_length _ _ _ _)
    (fun w _ => flatten_drop_length _ _ _ _)
  obtain ⟨w1, w2⟩ := r1.valid
  obtain ⟨w3, w4⟩ := p1.valid
  have kU1 : s1.kvU = kv1.map (fun a => a / x) := by unfold BSurf.kvU; rw [r8, r6]; exact g3'
  have kU2 : s2.kvU = kv2.map (fun a => (a - x) / (1 - x)) := by unfold BSurf.kvU; rw [p8, p6]; exact g4'
  have kV1 : s1.kvV = s.kvV := by unfold BSurf.kvV; rw [r9, r7, hvst, t9, t10]
  have kV2 : s2.kvV = s.kvV := by unfold BSurf.kvV; rw [p9, p7, hvst, t9, t10]
  have N1 := t11.trans r1
  have N2 := t11.trans p1
  have E1 : kv'.drop (k + num + 1) = s.kvU.drop (k + 1) := by
    rw [hkv']; unfold knotInsertionKv
    have : (s.kvU.take (k + 1) ++ List.replicate num x).length = k + num + 1 := by
      simp; change k + 1 < s.kvU.length at hl; omega
    rw [← this, List.drop_left]
  refine ⟨s1, s2, rfl, ⟨?_, ?_, ?_, w1, w2⟩, ⟨?_, ?_, ?_, w3, w4⟩, ⟨by rw [r2, t3], by rw [r3, t4], kV1, by rw [r5, t6]⟩,
    ⟨by rw [p2, t3], by rw [p3, t4], kV2, by rw [p5, t6]⟩, by rw [r4]; omega, by rw [p4, n2]; omega, ?_, ?_, ?_⟩
  · rw [r2, r4, r8, r6, t3]; exact g3
  · rw [r3, r5, r9, r7, t4, t6, hvst]; exact hvo
  · rw [l1, r4, r5]
  · rw [p2, p4, p8, p6, t3, n2]; exact g4
  · rw [p3, p5, p9, p7, t4, t6, hvst]; exact hvo
  · rw [l2, p4, p5]
  · rw [kU2, hkv2, E1]
  · intro u v hu0 hu1
    apply N1.eval
    · rw [r2, r3, r4, r5, t3, t4, t6, kU1, kV1]
      have := (cutU_eval tol s.degreeU s.nbU s.uKnots s.uMults hok x hx k hk num hnum s.ctrlpts s.degreeV s.nbV
        (kvFun s.kvV) hv.vOK.clamped.pn kv' hkv' _ rfl u v hu0 hu1).1
      rw [← t5, ← t6] at this
      rw [← t6]
      exact this
    · intro w
      rw [r2, r3, r4, r5, t3, t4, t6, kU1, kV1]
      have := (cutU_eval tol s.degreeU s.nbU s.uKnots s.uMults hok x hx k hk num hnum (BCurve.ctrlptsw s.ctrlpts w)
        s.degreeV s.nbV (kvFun s.kvV) hv.vOK.clamped.pn kv' hkv' _ rfl u v hu0 hu1).1
      rw [← t5, ← t6] at this
      rw [← t6]
      exact this
  · intro u v hu0 hu1
    apply N2.eval
    · rw [p2, p3, p4, p5, t3, t4, t6, kU2, kV2, n2, m1]
      have := (cutU_eval tol s.degreeU s.nbU s.uKnots s.uMults hok x hx k hk num hnum s.ctrlpts s.degreeV s.nbV
        (kvFun s.kvV) hv.vOK.clamped.pn kv' hkv' _ rfl u v hu0 hu1).2
      rw [Function.comp_apply, t5]
      exact this
    · intro w
      rw [p2, p3, p4, p5, t3, t4, t6, kU2, kV2, n2, m1]
      have := (cutU_eval tol s.degreeU s.nbU s.uKnots s.uMults hok x hx k hk num hnum (BCurve.ctrlptsw s.ctrlpts w)
        s.degreeV s.nbV (kvFun s.kvV) hv.vOK.clamped.pn kv' hkv' _ rfl u v hu0 hu1).2
      rw [Function.comp_apply, t5]
      exact this


/-- Everything about the two pieces of a surface split in v. -/
theorem splitV_spec (tol : K) (s : BSurf K V) (hv : s.Valid tol) (x : K) (hx : InnerKnot tol s.kvV x) (k : ℕ)
    (hk : k = findSpanLinear s.degreeV (kvFun s.kvV) s.nbV x) :
    ∃ s1 s2, s.splitV tol x = some (s1, s2) ∧ s1.Valid tol ∧ s2.Valid tol ∧
      (s1.degreeV = s.degreeV ∧ s1.degreeU = s.degreeU ∧ s1.kvU = s.kvU ∧ s1.nbU = s.nbU) ∧
      (s2.degreeV = s.degreeV ∧ s2.degreeU = s.degreeU ∧ s2.kvU = s.kvU ∧ s2.nbU = s.nbU) ∧
      s1.nbV = k + 1 - s.kvV.count x ∧ s2.nbV = s.nbV - (k - s.degreeV) ∧
      s2.kvV = (List.replicate (s.degreeV + 1) x ++ s.kvV.drop (k + 1)).map (fun a => (a - x) / (1 - x)) ∧
      (∀ u v, 0 ≤ v → v ≤ 1 → s1.eval u v = s.eval u (v * x)) ∧
      (∀ u v, 0 ≤ v → v ≤ 1 → s2.eval u v = s.eval u (x + v * (1 - x))) := by
  have hok := hv.vOK
  obtain ⟨a, b, d, e, hl, f, g, i, hmle⟩ := ok_facts hok hx k hk
  have hm : findMultiplicity tol x s.kvV = s.kvV.count x := ok_mult hok hx
  change s.kvV.count x ≤ s.degreeV at hmle
  change s.kvV.count x ≤ k at f
  have hlen : s.kvV.length = s.nbV + s.degreeV + 1 := hok.length
  have hd0 : kvFun s.kvV s.degreeV = 0 := hok.dom0
  have hd1 : kvFun s.kvV s.nbV = 1 := hok.dom1
  have hnum : s.degreeV - s.kvV.count x + s.kvV.count x = s.degreeV := by omega
  obtain ⟨t, t1, t2, t4, t3, t6, t5, t8, t7, t9, t10, t11⟩ := insertV_spec tol s hv x hx k hk _ hnum false
  generalize hn : s.degreeV - s.kvV.count x = num at *
  obtain ⟨g1, g2, ⟨g3, g3'⟩, ⟨g4, g4'⟩⟩ := split_ok hok hx k hk num hnum _ rfl
  have hpn := hok.clamped.pn
  unfold BSurf.splitV
  dsimp only
  rw [if_neg (by
    rw [hlen, show s.nbV + s.degreeV + 1 - (s.degreeV + 1) = s.nbV by omega, hd0, hd1]
    rintro (h | h)
    · exact hx.1.ne' h
    · exact hx.2.1.ne h), hm, hn, t1]
  dsimp only
  change findSpanLinear s.degreeV (kvFun (knotInsertionKv s.kvV x k num)) (s.nbV + num) x = k + num at g1
  rw [← hk]
  have hspan : findSpanLinear t.degreeV (kvFun t.kvV) t.nbV x = k + num := by rw [t3, t5, t7, g1]
  rw [hspan, t3, t7]
  set kv' := knotInsertionKv s.kvV x k num with hkv'
  set kv1 := kv'.take (k + num + 1) ++ [x] with hkv1
  set kv2 := List.replicate (s.degreeV + 1) x ++ kv'.drop (k + num + 1) with hkv2
  obtain ⟨q1, q2⟩ := constructSplitV_eq tol t kv1 kv2 (k - s.degreeV + 1 + num)
  have hposw : ∀ w, t.weights = some w → ∀ q ∈ BCurve.ctrlptsw t.ctrlpts w, 0 < q.2 :=
    fun w hw => ctrlptsw_mem_pos _ _ (t2.wpos w hw)
  have hlw : ∀ w, t.weights = some w → (BCurve.ctrlptsw t.ctrlpts w).length = t.nbU * t.nbV :=
    fun w hw => by rw [ctrlptsw_length _ _ (t2.wlen w hw)]; exact t2.len
  obtain ⟨r1, r3, r2, r5, r4, r7, r6, r9, r8, r10⟩ := netRel_new t _ _ _ _ _ _ _ _
    (fun cp => (netRows cp t.nbU t.nbV).flatMap fun r : List V => r.take (k - s.degreeV + 1 + num))
    (fun cp => (netRows cp t.nbU t.nbV).flatMap fun r : List (V × K) => r.take (k - s.degreeV + 1 + num))
    (fun w hw q hq => by
      obtain ⟨r, hr, hq⟩ := List.mem_flatMap.1 hq
      exact hposw w hw q (mem_netRows _ _ _ (hlw w hw) r hr q (List.mem_of_mem_take hq))) _ q1
  obtain ⟨p1, p3, p2, p5, p4, p7, p6, p9, p8, p10⟩ := netRel_new t _ _ _ _ _ _ _ _
    (fun cp => (netRows cp t.nbU t.nbV).flatMap fun r : List V => r.drop (k - s.degreeV + 1 + num - 1))
    (fun cp => (netRows cp t.nbU t.nbV).flatMap fun r : List (V × K) => r.drop (k - s.degreeV + 1 + num - 1))
    (fun w hw q hq => by
      obtain ⟨r, hr, hq⟩ := List.mem_flatMap.1 hq
      exact hposw w hw q (mem_netRows _ _ _ (hlw w hw) r hr q (List.mem_of_mem_drop hq))) _ q2
  set s1 := (BSurf.constructSplitV tol t kv1 kv2 (k - s.degreeV + 1 + num)).1 with hs1
  set s2 := (BSurf.constructSplitV tol t kv1 kv2 (k - s.degreeV + 1 + num)).2 with hs2
  have hvst : standardizeKnotVector t.uKnots = t.uKnots := standardize_of_unit _ t2.uOK.headK t2.uOK.lastK
  have hvo : KnotsOK tol s.degreeU s.nbU t.uKnots t.uMults := by rw [t9, t10]; exact hv.uOK
  have m1 : k - s.degreeV + 1 + num - 1 = k - s.degreeV + num := by omega
  have n2 : t.nbV - (k - s.degreeV + 1 + num - 1) = s.nbV + num - (k - s.degreeV + num) := by rw [t5, m1]
  have l1 := r10 (t.nbU * (k - s.degreeV + 1 + num)) (flatMap_take_length _ _ _ _ (by rw [t5]; exact g2))
    (fun w _ => flatMap_take_length _ _ _ _ (by rw [t5]; exact g2))
  have l2 := p10 (t.nbU * (t.nbV - (k - s.degreeV + 1 + num - 1))) (flatMap_drop_length _ _ _ _)
    (fun w _ => flatMap_drop_length _ _ _ _)
  obtain ⟨w1, w2⟩ := r1.valid
  obtain ⟨w3, w4⟩ := p1.valid
  have kU1 : s1.kvV = kv1.map (fun a => a / x) := by unfold BSurf.kvV; rw [r8, r6]; exact g3'
  have kU2 : s2.kvV = kv2.map (fun a => (a - x) / (1 - x)) := by unfold BSurf.kvV; rw [p8, p6]; exact g4'
  have kV1 : s1.kvU = s.kvU := by unfold BSurf.kvU; rw [r9, r7, hvst, t9, t10]
  have kV2 : s2.kvU = s.kvU := by unfold BSurf.kvU; rw [p9, p7, hvst, t9, t10]
  have N1 := t11.trans r1
  have N2 := t11.trans p1
  have E1 : kv'.drop (k + num + 1) = s.kvV.drop (k + 1) := by
    rw [hkv']; unfold knotInsertionKv
    have : (s.kvV.take (k + 1) ++ List.replicate num x).length = k + num + 1 := by
      simp; change k + 1 < s.kvV.length at hl; omega
    rw [← this, List.drop_left]
  refine ⟨s1, s2, rfl, ⟨?_, ?_, ?_, w1, w2⟩, ⟨?_, ?_, ?_, w3, w4⟩, ⟨by rw [r2, t3], by rw [r3, t4], kV1, by rw [r5, t6]⟩,
    ⟨by rw [p2, t3], by rw [p3, t4], kV2, by rw [p5, t6]⟩, by rw [r4]; omega, by rw [p4, n2]; omega, ?_, ?_, ?_⟩
  · rw [r3, r5, r9, r7, t4, t6, hvst]; exact hvo
  · rw [r2, r4, r8, r6, t3]; exact g3
  · rw [l1, r4, r5]
  · rw [p3, p5, p9, p7, t4, t6, hvst]; exact hvo
  · rw [p2, p4, p8, p6, t3, n2]; exact g4
  · rw [l2, p4, p5]
  · rw [kU2, hkv2, E1]
  · intro u v hu0 hu1
    apply N1.eval
    · rw [r2, r3, r4, r5, t3, t4, t6, kU1, kV1]
      have := (cutV_eval tol s.degreeV s.nbV s.vKnots s.vMults hok x hx k hk num hnum s.ctrlpts s.degreeU s.nbU
        (kvFun s.kvU) hv.uOK.clamped.pn kv' hkv' _ rfl u v hu0 hu1).1
      rw [← t5, ← t6] at this
      rw [← t6]
      exact this
    · intro w
      rw [r2, r3, r4, r5, t3, t4, t6, kU1, kV1]
      have := (cutV_eval tol s.degreeV s.nbV s.vKnots s.vMults hok x hx k hk num hnum (BCurve.ctrlptsw s.ctrlpts w)
        s.degreeU s.nbU (kvFun s.kvU) hv.uOK.clamped.pn kv' hkv' _ rfl u v hu0 hu1).1
      rw [← t5, ← t6] at this
      rw [← t6]
      exact this
  · intro u v hu0 hu1
    apply N2.eval
    · rw [p2, p3, p4, p5, t3, t4, t6, kU2, kV2, n2, m1]
      have := (cutV_eval tol s.degreeV s.nbV s.vKnots s.vMults hok x hx k hk num hnum s.ctrlpts s.degreeU s.nbU
        (kvFun s.kvU) hv.uOK.clamped.pn kv' hkv' _ rfl u v hu0 hu1).2
      rw [Function.comp_apply, t5]
      exact this
    · intro w
      rw [p2, p3, p4, p5, t3, t4, t6, kU2, kV2, n2, m1]
      have := (cutV_eval tol s.degreeV s.nbV s.vKnots s.vMults hok x hx k hk num hnum (BCurve.ctrlptsw s.ctrlpts w)
        s.degreeU s.nbU (kvFun s.kvU) hv.uOK.clamped.pn kv' hkv' _ rfl u v hu0 hu1).2
      rw [Function.comp_apply, t5]
      exact this

/-- **C151** splitting a valid surface in u at an inner parameter (not within the tolerance of a knot, unless equal to it)
succeeds; both pieces are valid surfaces of the same degrees; the first is the part `u ≤ x` of the surface, the
second the part `u ≥ x`, each reparametrised affinely to `[0, 1]`, and they meet along the curve `u = x`. -/
theorem C151_split_u (tol : K) (s : BSurf K V) (hv : s.Valid tol) (x : K) (hx : InnerKnot tol s.kvU x) :
    ∃ s1 s2, s.splitU tol x = some (s1, s2) ∧ s1.Valid tol ∧ s2.Valid tol ∧
      (s1.degreeU = s.degreeU ∧ s1.degreeV = s.degreeV ∧ s2.degreeU = s.degreeU ∧ s2.degreeV = s.degreeV) ∧
      (∀ u v, 0 ≤ u → u ≤ 1 → s1.eval u v = s.eval (u * x) v) ∧
      (∀ u v, 0 ≤ u → u ≤ 1 → s2.eval u v = s.eval (x + u * (1 - x)) v) ∧
      ∀ v, s1.eval 1 v = s.eval x v ∧ s2.eval 0 v = s.eval x v := by
  obtain ⟨s1, s2, h1, h2, h3, h4, h5, -, -, -, h6, h7⟩ := splitU_spec tol s hv x hx _ rfl
  refine ⟨s1, s2, h1, h2, h3, ⟨h4.1, h4.2.1, h5.1, h5.2.1⟩, h6, h7, fun v => ⟨?_, ?_⟩⟩
  · rw [h6 1 v zero_le_one (le_refl _), one_mul]
  · rw [h7 0 v (le_refl _) zero_le_one, zero_mul, add_zero]

/-- **C151** the same for a split in v. -/
theorem C151_split_v (tol : K) (s : BSurf K V) (hv : s.Valid tol) (x : K) (hx : InnerKnot tol s.kvV x) :
    ∃ s1 s2, s.splitV tol x = some (s1, s2) ∧ s1.Valid tol ∧ s2.Valid tol ∧
      (s1.degreeU = s.degreeU ∧ s1.degreeV = s.degreeV ∧ s2.degreeU = s.degreeU ∧ s2.degreeV = s.degreeV) ∧
      (∀ u v, 0 ≤ v → v ≤ 1 → s1.eval u v = s.eval u (v * x)) ∧
      (∀ u v, 0 ≤ v → v ≤ 1 → s2.eval u v = s.eval u (x + v * (1 - x))) ∧
      ∀ u, s1.eval u 1 = s.eval u x ∧ s2.eval u 0 = s.eval u x := by
  obtain ⟨s1, s2, h1, h2, h3, h4, h5, -, -, -, h6, h7⟩ := splitV_spec tol s hv x hx _ rfl
  refine ⟨s1, s2, h1, h2, h3, ⟨h4.2.1, h4.1, h5.2.1, h5.1⟩, h6, h7, fun u => ⟨?_, ?_⟩⟩
  · rw [h6 u 1 zero_le_one (le_refl _), one_mul]
  · rw [h7 u 0 (le_refl _) zero_le_one, zero_mul, add_zero]

/-- **C151** a split at an end of the domain is refused. -/
theorem C151_refused (tol : K) (s : BSurf K V) (hv : s.Valid tol) (x : K) (hx : x = 0 ∨ x = 1) :
    s.splitU tol x = none ∧ s.splitV tol x = none := by
  have lu : s.kvU.length = s.nbU + s.degreeU + 1 := hv.uOK.length
  have lv : s.kvV.length = s.nbV + s.degreeV + 1 := hv.vOK.length
  have u0 : kvFun s.kvU s.degreeU = 0 := hv.uOK.dom0
  have u1 : kvFun s.kvU s.nbU = 1 := hv.uOK.dom1
  have v0 : kvFun s.kvV s.degreeV = 0 := hv.vOK.dom0
  have v1 : kvFun s.kvV s.nbV = 1 := hv.vOK.dom1
  unfold BSurf.splitU BSurf.splitV
  dsimp only
  rw [lu, lv, show s.nbU + s.degreeU + 1 - (s.degreeU + 1) = s.nbU by omega,
    show s.nbV + s.degreeV + 1 - (s.degreeV + 1) = s.nbV by omega, u0, u1, v0, v1, if_pos hx, if_pos hx]
  exact ⟨rfl, rfl⟩

/-- The statements apply to a rational surface with an inner knot in v. -/
example : (∃ s1 s2, (exampleSurf (some exampleWeights)).splitU (1 / 10 ^ 15) (1 / 4) = some (s1, s2) ∧
      ∀ v, s1.eval 1 v = s2.eval 0 v) ∧
    (∃ s1 s2, (exampleSurf (some exampleWeights)).splitV (1 / 10 ^ 15) (1 / 2) = some (s1, s2) ∧
      ∀ u, s1.eval u 1 = s2.eval u 0) ∧
    (exampleSurf (some exampleWeights)).splitU (1 / 10 ^ 15) 1 = none := by
  obtain ⟨s1, s2, h1, -, -, -, -, -, h2⟩ := C151_split_u _ _ exampleSurf_validw _ (exampleSurf_innerU _)
  obtain ⟨r1, r2, g1, -, -, -, -, -, g2⟩ := C151_split_v _ _ exampleSurf_validw _ (exampleSurf_innerV _)
  exact ⟨⟨s1, s2, h1, fun v => by rw [(h2 v).1, (h2 v).2]⟩, ⟨r1, r2, g1, fun v => by rw [(g2 v).1, (g2 v).2]⟩,
    (C151_refused _ _ exampleSurf_validw 1 (Or.inr rfl)).1⟩

end
end Volmdlr
