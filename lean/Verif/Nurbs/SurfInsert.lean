import Verif.Nurbs.NetProps

/-!
# C150: knot insertion in a surface; C151: splitting a surface
-/

namespace Volmdlr
open Finset
section
variable {K : Type*} [Field K] [LinearOrder K] [IsStrictOrderedRing K]
variable {V : Type*} [AddCommGroup V] [Module K V]

/-- Specification: a well-formed surface on `[0, 1]²`: well-formed clamped knots in both directions, `nb_u * nb_v`
control points, and as many positive weights if there are weights. -/
structure BSurf.Valid (tol : K) (s : BSurf K V) : Prop where
  uOK : KnotsOK tol s.degreeU s.nbU s.uKnots s.uMults
  vOK : KnotsOK tol s.degreeV s.nbV s.vKnots s.vMults
  len : s.ctrlpts.length = s.nbU * s.nbV
  wlen : ∀ w, s.weights = some w → w.length = s.ctrlpts.length
  wpos : ∀ w, s.weights = some w → ∀ a ∈ w, 0 < a

/-- The net of `t` is that of `s` through `F` (through `G` for weighted points). -/
def NetRel (s t : BSurf K V) (F : List V → List V) (G : List (V × K) → List (V × K)) : Prop :=
  (s.weights = none → t.weights = none ∧ t.ctrlpts = F s.ctrlpts) ∧
  ∀ w, s.weights = some w → ∃ w', t.weights = some w' ∧ w'.length = t.ctrlpts.length ∧ (∀ a ∈ w', 0 < a) ∧
    BCurve.ctrlptsw t.ctrlpts w' = G (BCurve.ctrlptsw s.ctrlpts w)

theorem surfacePointRational_congr (pu pu' pv pv' : ℕ) (Uu Uu' Uv Uv' : ℕ → K) (P P' : ℕ → V × K) (su su' sv sv' : ℕ)
    (u u' v v' : K) (h : surfacePoint pu pv Uu Uv P su sv u v = surfacePoint pu' pv' Uu' Uv' P' su' sv' u' v') :
    surfacePointRational pu pv Uu Uv P su sv u v = surfacePointRational pu' pv' Uu' Uv' P' su' sv' u' v' := by
  unfold surfacePointRational; rw [h]

theorem NetRel.eval {s t : BSurf K V} {F : List V → List V} {G : List (V × K) → List (V × K)} (h : NetRel s t F G)
    (u v u' v' : K)
    (hF : surfacePoint t.degreeU t.degreeV (kvFun t.kvU) (kvFun t.kvV) (cpFun (F s.ctrlpts)) t.nbU t.nbV u' v' =
      surfacePoint s.degreeU s.degreeV (kvFun s.kvU) (kvFun s.kvV) (cpFun s.ctrlpts) s.nbU s.nbV u v)
    (hG : ∀ w, surfacePoint t.degreeU t.degreeV (kvFun t.kvU) (kvFun t.kvV)
        (cpFun (G (BCurve.ctrlptsw s.ctrlpts w))) t.nbU t.nbV u' v' =
      surfacePoint s.degreeU s.degreeV (kvFun s.kvU) (kvFun s.kvV) (cpFun (BCurve.ctrlptsw s.ctrlpts w)) s.nbU s.nbV u v) :
    t.eval u' v' = s.eval u v := by
  unfold BSurf.eval
  cases hw : s.weights with
  | none =>
    obtain ⟨h1, h2⟩ := h.1 hw
    rw [h1, h2]
    exact hF
  | some w =>
    obtain ⟨w', h1, -, -, h2⟩ := h.2 w hw
    rw [h1]
    dsimp only
    rw [h2]
    exact surfacePointRational_congr _ _ _ _ _ _ _ _ _ _ _ _ _ _ _ _ _ _ (hG w)

theorem NetRel.valid {s t : BSurf K V} {F : List V → List V} {G : List (V × K) → List (V × K)} (h : NetRel s t F G) :
    (∀ w, t.weights = some w → w.length = t.ctrlpts.length) ∧ ∀ w, t.weights = some w → ∀ a ∈ w, 0 < a := by
  cases hw : s.weights with
  | none =>
    obtain ⟨h1, -⟩ := h.1 hw
    rw [h1]; simp
  | some w =>
    obtain ⟨w', h1, h2, h3, -⟩ := h.2 w hw
    rw [h1]
    constructor
    · intro l hl; rw [← Option.some.inj hl]; exact h2
    · intro l hl; rw [← Option.some.inj hl]; exact h3

theorem NetRel.trans {s t r : BSurf K V} {F F' : List V → List V} {G G' : List (V × K) → List (V × K)}
    (h : NetRel s t F G) (h' : NetRel t r F' G') : NetRel s r (F' ∘ F) (G' ∘ G) := by
  constructor
  · intro hw
    obtain ⟨h1, h2⟩ := h.1 hw
    obtain ⟨h3, h4⟩ := h'.1 h1
    exact ⟨h3, by rw [h4, h2]; rfl⟩
  · intro w hw
    obtain ⟨w', h1, -, -, h2⟩ := h.2 w hw
    obtain ⟨w'', h3, h4, h5, h6⟩ := h'.2 w' h1
    exact ⟨w'', h3, h4, h5, by rw [h6, h2]; rfl⟩

/-- The net of a surface object made from separated weighted points. -/
theorem netRel_separate (Q : List (V × K)) (hQ : ∀ q ∈ Q, 0 < q.2) :
    (BCurve.separate Q).2.length = (BCurve.separate Q).1.length ∧ (∀ a ∈ (BCurve.separate Q).2, 0 < a) ∧
    BCurve.ctrlptsw (BCurve.separate Q).1 (BCurve.separate Q).2 = Q := by
  refine ⟨by simp [BCurve.separate], ?_, ctrlptsw_separate Q fun q hq => (hQ q hq).ne'⟩
  intro a ha
  obtain ⟨q, hq, rfl⟩ := List.mem_map.1 ha
  exact hQ q hq

theorem ctrlptsw_mem_pos (cp : List V) (w : List K) (hw : ∀ a ∈ w, 0 < a) : ∀ q ∈ BCurve.ctrlptsw cp w, 0 < q.2 := by
  intro q hq
  unfold BCurve.ctrlptsw at hq
  obtain ⟨i, hi, rfl⟩ := List.getElem_of_mem hq
  rw [List.getElem_zipWith]
  exact hw _ (List.getElem_mem _)

theorem separate_fst_length (Q : List (V × K)) : (BCurve.separate Q).1.length = Q.length := by
  simp [BCurve.separate]

/-! ### insertion -/

section
variable (tol : K) (s : BSurf K V) (hv : s.Valid tol) (x : K)
include hv

/-- What `insert_knot_surface` gives in the u direction, up to full multiplicity. -/
theorem insertU_spec (hx : InnerKnot tol s.kvU x) (k : ℕ) (hk : k = findSpanLinear s.degreeU (kvFun s.kvU) s.nbU x)
    (num : ℕ) (hnum : num + s.kvU.count x = s.degreeU) (chk : Bool) :
    ∃ t, s.insertU tol x num chk = some t ∧ t.Valid tol ∧ t.degreeU = s.degreeU ∧ t.degreeV = s.degreeV ∧
      t.nbU = s.nbU + num ∧ t.nbV = s.nbV ∧ t.kvU = knotInsertionKv s.kvU x k num ∧ t.kvV = s.kvV ∧
      t.vKnots = s.vKnots ∧ t.vMults = s.vMults ∧
      NetRel s t (fun cp => if num = 0 then cp else insertNetU s.degreeU s.kvU cp s.nbU s.nbV x num (s.kvU.count x) k)
        (fun cp => if num = 0 then cp else insertNetU s.degreeU s.kvU cp s.nbU s.nbV x num (s.kvU.count x) k) := by
  have hu := hv.uOK
  obtain ⟨a, b, d, e, hl, f, g, i, j⟩ := ok_facts hu hx k hk
  have hvst : standardizeKnotVector s.vKnots = s.vKnots := standardize_of_unit _ hv.vOK.headK hv.vOK.lastK
  by_cases hz : num = 0
  · refine ⟨s, ?_, hv, rfl, rfl, by omega, rfl, ?_, rfl, rfl, rfl, ?_, ?_⟩
    · unfold BSurf.insertU; rw [if_pos hz]
    · rw [hz]; unfold knotInsertionKv; simp
    · intro h; dsimp only; rw [if_pos hz]; exact ⟨h, rfl⟩
    · intro w hw; dsimp only; rw [if_pos hz]; exact ⟨w, hw, hv.wlen w hw, hv.wpos w hw, rfl⟩
  · have hm : findMultiplicity tol x s.kvU = s.kvU.count x := ok_mult hu hx
    obtain ⟨o1, o2⟩ := insert_ok hu hx k hk num hnum.le
    have hU : ∀ cp : List V, (insertNetU s.degreeU s.kvU cp s.nbU s.nbV x num (s.kvU.count x) k).length =
        (s.nbU + num) * s.nbV := fun cp => insertNetU_length hu hx k hk num hnum cp s.nbV
    unfold BSurf.insertU
    rw [if_neg hz]
    dsimp only
    rw [hm, if_neg (by omega), ← hk]
    cases hcw : s.weights with
    | none =>
      refine ⟨_, rfl, ⟨o1, ?_, hU _, by simp [BSurf.new], by simp [BSurf.new]⟩, rfl, rfl, rfl, rfl, o2, ?_, hvst, rfl,
        ?_, ?_⟩
      · simp only [BSurf.new]; rw [hvst]; exact hv.vOK
      · unfold BSurf.kvV BSurf.new; rw [hvst]
      · intro _; simp only [BSurf.new, if_neg hz, true_and]
      · intro w hw; rw [hcw] at hw; simp at hw
    | some w =>
      have hlw := ctrlptsw_length s.ctrlpts w (hv.wlen w hcw)
      obtain ⟨q1, q2, q3⟩ := netRel_separate _ (insertNetU_pos hu hx k hk num hnum (BCurve.ctrlptsw s.ctrlpts w) s.nbV
        (by rw [hlw]; exact hv.len) (ctrlptsw_mem_pos _ _ (hv.wpos w hcw)))
      refine ⟨_, rfl, ⟨o1, ?_, ?_, ?_, ?_⟩, rfl, rfl, rfl, rfl, o2, ?_, hvst, rfl, ?_, ?_⟩
      · simp only [BSurf.new]; rw [hvst]; exact hv.vOK
      · simp only [BSurf.new]
        rw [separate_fst_length]
        exact insertNetU_length hu hx k hk num hnum _ s.nbV
      · simp only [BSurf.new]
        intro l hl; rw [← Option.some.inj hl]; exact q1
      · simp only [BSurf.new]
        intro l hl; rw [← Option.some.inj hl]; exact q2
      · unfold BSurf.kvV BSurf.new; rw [hvst]
      · intro h; rw [hcw] at h; simp at h
      · intro w' hw'
        rw [hcw] at hw'
        obtain rfl := Option.some.inj hw'
        refine ⟨_, rfl, q1, q2, ?_⟩
        simp only [if_neg hz, BSurf.new]
        exact q3

/-- What `insert_knot_surface` gives in the v direction, up to full multiplicity. -/
theorem insertV_spec (hx : InnerKnot tol s.kvV x) (k : ℕ) (hk : k = findSpanLinear s.degreeV (kvFun s.kvV) s.nbV x)
    (num : ℕ) (hnum : num + s.kvV.count x = s.degreeV) (chk : Bool) :
    ∃ t, s.insertV tol x num chk = some t ∧ t.Valid tol ∧ t.degreeU = s.degreeU ∧ t.degreeV = s.degreeV ∧
      t.nbU = s.nbU ∧ t.nbV = s.nbV + num ∧ t.kvU = s.kvU ∧ t.kvV = knotInsertionKv s.kvV x k num ∧
      t.uKnots = s.uKnots ∧ t.uMults = s.uMults ∧
      NetRel s t (fun cp => if num = 0 then cp else insertNetV s.degreeV s.kvV cp s.nbU s.nbV x num (s.kvV.count x) k)
        (fun cp => if num = 0 then cp else insertNetV s.degreeV s.kvV cp s.nbU s.nbV x num (s.kvV.count x) k) := by
  have hu := hv.vOK
  obtain ⟨a, b, d, e, hl, f, g, i, j⟩ := ok_facts hu hx k hk
  have hvst : standardizeKnotVector s.uKnots = s.uKnots := standardize_of_unit _ hv.uOK.headK hv.uOK.lastK
  by_cases hz : num = 0
  · refine ⟨s, ?_, hv, rfl, rfl, rfl, by omega, rfl, ?_, rfl, rfl, ?_, ?_⟩
    · unfold BSurf.insertV; rw [if_pos hz]
    · rw [hz]; unfold knotInsertionKv; simp
    · intro h; dsimp only; rw [if_pos hz]; exact ⟨h, rfl⟩
    · intro w hw; dsimp only; rw [if_pos hz]; exact ⟨w, hw, hv.wlen w hw, hv.wpos w hw, rfl⟩
  · have hm : findMultiplicity tol x s.kvV = s.kvV.count x := ok_mult hu hx
    obtain ⟨o1, o2⟩ := insert_ok hu hx k hk num hnum.le
    have hU : ∀ cp : List V, (insertNetV s.degreeV s.kvV cp s.nbU s.nbV x num (s.kvV.count x) k).length =
        s.nbU * (s.nbV + num) := fun cp => insertNetV_length hu hx k hk num hnum cp s.nbU
    unfold BSurf.insertV
    rw [if_neg hz]
    dsimp only
    rw [hm, if_neg (by omega), ← hk]
    cases hcw : s.weights with
    | none =>
      refine ⟨_, rfl, ⟨?_, o1, hU _, by simp [BSurf.new], by simp [BSurf.new]⟩, rfl, rfl, rfl, rfl, ?_, o2, hvst, rfl,
        ?_, ?_⟩
      · simp only [BSurf.new]; rw [hvst]; exact hv.uOK
      · unfold BSurf.kvU BSurf.new; rw [hvst]
      · intro _; simp only [BSurf.new, if_neg hz, true_and]
      · intro w hw; rw [hcw] at hw; simp at hw
    | some w =>
      have hlw := ctrlptsw_length s.ctrlpts w (hv.wlen w hcw)
      obtain ⟨q1, q2, q3⟩ := netRel_separate _ (insertNetV_pos hu hx k hk num hnum (BCurve.ctrlptsw s.ctrlpts w) s.nbU
        (by rw [hlw]; exact hv.len) (ctrlptsw_mem_pos _ _ (hv.wpos w hcw)))
      refine ⟨_, rfl, ⟨?_, o1, ?_, ?_, ?_⟩, rfl, rfl, rfl, rfl, ?_, o2, hvst, rfl, ?_, ?_⟩
      · simp only [BSurf.new]; rw [hvst]; exact hv.uOK
      · simp only [BSurf.new]
        rw [separate_fst_length]
        exact insertNetV_length hu hx k hk num hnum _ s.nbU
      · simp only [BSurf.new]
        intro l hl; rw [← Option.some.inj hl]; exact q1
      · simp only [BSurf.new]
        intro l hl; rw [← Option.some.inj hl]; exact q2
      · unfold BSurf.kvU BSurf.new; rw [hvst]
      · intro h; rw [hcw] at h; simp at h
      · intro w' hw'
        rw [hcw] at hw'
        obtain rfl := Option.some.inj hw'
        refine ⟨_, rfl, q1, q2, ?_⟩
        simp only [if_neg hz, BSurf.new]
        exact q3

end

/-- The columns of the net after an insertion (or none) in the u direction. -/
theorem insU_cols {W : Type*} [AddCommGroup W] [Module K W] (tol : K) (p n : ℕ) (knots : List K) (mults : List ℕ)
    (ok : KnotsOK tol p n knots mults) (x : K) (hx : InnerKnot tol (repeatKnots knots mults) x) (k : ℕ)
    (hk : k = findSpanLinear p (kvFun (repeatKnots knots mults)) n x) (num : ℕ)
    (hnum : num + (repeatKnots knots mults).count x = p) (cp : List W) (nv j : ℕ) (hj : j < nv) :
    netCol (if num = 0 then cp else
      insertNetU p (repeatKnots knots mults) cp n nv x num ((repeatKnots knots mults).count x) k) (n + num) nv j =
      (List.range (n + num)).map
        (insPtsN (kvFun (repeatKnots knots mults)) k x p (cpFun (netCol cp n nv j)) num) := by
  by_cases hz : num = 0
  · rw [if_pos hz, hz]
    apply List.map_congr_left
    intro i hi
    simp only [insPtsN]
    rw [cpFun_netCol _ _ _ _ _ (by have := List.mem_range.1 hi; omega)]
  · rw [if_neg hz]
    exact insertNetU_cols ok hx k hk num hnum cp nv j hj

/-- The rows of the net after an insertion (or none) in the v direction. -/
theorem insV_rows {W : Type*} [AddCommGroup W] [Module K W] (tol : K) (p n : ℕ) (knots : List K) (mults : List ℕ)
    (ok : KnotsOK tol p n knots mults) (x : K) (hx : InnerKnot tol (repeatKnots knots mults) x) (k : ℕ)
    (hk : k = findSpanLinear p (kvFun (repeatKnots knots mults)) n x) (num : ℕ)
    (hnum : num + (repeatKnots knots mults).count x = p) (cp : List W) (nu i : ℕ) (hi : i < nu) :
    netRow (if num = 0 then cp else
      insertNetV p (repeatKnots knots mults) cp nu n x num ((repeatKnots knots mults).count x) k) (n + num) i =
      (List.range (n + num)).map
        (insPtsN (kvFun (repeatKnots knots mults)) k x p (cpFun (netRow cp n i)) num) := by
  by_cases hz : num = 0
  · rw [if_pos hz, hz]
    apply List.map_congr_left
    intro j hj
    simp only [insPtsN]
    rw [cpFun_netRow _ _ _ _ (by have := List.mem_range.1 hj; omega)]
    rfl
  · rw [if_neg hz]
    exact insertNetV_rows ok hx k hk num hnum cp nu i hi

/-- Inserting in the u direction changes no point. -/
theorem insU_eval {W : Type*} [AddCommGroup W] [Module K W] (tol : K) (p n : ℕ) (knots : List K) (mults : List ℕ)
    (ok : KnotsOK tol p n knots mults) (x : K) (hx : InnerKnot tol (repeatKnots knots mults) x) (k : ℕ)
    (hk : k = findSpanLinear p (kvFun (repeatKnots knots mults)) n x) (num : ℕ)
    (hnum : num + (repeatKnots knots mults).count x = p) (cp : List W) (pv nv : ℕ) (Uv : ℕ → K) (hv : pv < nv) (u v : K)
    (hu0 : 0 ≤ u) (hu1 : u ≤ 1) :
    surfacePoint p pv (kvFun (knotInsertionKv (repeatKnots knots mults) x k num)) Uv (cpFun (if num = 0 then cp else
      insertNetU p (repeatKnots knots mults) cp n nv x num ((repeatKnots knots mults).count x) k)) (n + num) nv u v =
    surfacePoint p pv (kvFun (repeatKnots knots mults)) Uv (cpFun cp) n nv u v := by
  apply surf_col _ _ _ _ _ _ _ _ _ _ ok.clamped.pn (by have := ok.clamped.pn; omega) hv
  intro j hj
  rw [insU_cols tol p n knots mults ok x hx k hk num hnum cp nv j hj]
  have hl := netCol_length cp n nv j
  have := insert_full_curve p (repeatKnots knots mults) (netCol cp n nv j) x ok.sorted (by rw [hl]; exact ok.length)
    (by rw [hl]; exact ok.clamped) (by rw [ok.dom0]; exact hx.1) (by rw [hl, ok.dom1]; exact hx.2.1) k
    (by rw [hl]; exact hk) num u (by rw [ok.dom0]; exact hu0) (by rw [hl, ok.dom1]; exact hu1)
  rw [hl] at this
  exact this

/-- Inserting in the v direction changes no point. -/
theorem insV_eval {W : Type*} [AddCommGroup W] [Module K W] (tol : K) (p n : ℕ) (knots : List K) (mults : List ℕ)
    (ok : KnotsOK tol p n knots mults) (x : K) (hx : InnerKnot tol (repeatKnots knots mults) x) (k : ℕ)
    (hk : k = findSpanLinear p (kvFun (repeatKnots knots mults)) n x) (num : ℕ)
    (hnum : num + (repeatKnots knots mults).count x = p) (cp : List W) (pu nu : ℕ) (Uu : ℕ → K) (hu : pu < nu) (u v : K)
    (hv0 : 0 ≤ v) (hv1 : v ≤ 1) :
    surfacePoint pu p Uu (kvFun (knotInsertionKv (repeatKnots knots mults) x k num)) (cpFun (if num = 0 then cp else
      insertNetV p (repeatKnots knots mults) cp nu n x num ((repeatKnots knots mults).count x) k)) nu (n + num) u v =
    surfacePoint pu p Uu (kvFun (repeatKnots knots mults)) (cpFun cp) nu n u v := by
  apply surf_row _ _ _ _ _ _ _ _ _ _ hu ok.clamped.pn (by have := ok.clamped.pn; omega)
  intro i hi
  rw [insV_rows tol p n knots mults ok x hx k hk num hnum cp nu i hi]
  have hl := netRow_length cp n i
  have := insert_full_curve p (repeatKnots knots mults) (netRow cp n i) x ok.sorted (by rw [hl]; exact ok.length)
    (by rw [hl]; exact ok.clamped) (by rw [ok.dom0]; exact hx.1) (by rw [hl, ok.dom1]; exact hx.2.1) k
    (by rw [hl]; exact hk) num v (by rw [ok.dom0]; exact hv0) (by rw [hl, ok.dom1]; exact hv1)
  rw [hl] at this
  exact this

theorem knotInsertionKv_perm (kv : List K) (x : K) (k num : ℕ) :
    (knotInsertionKv kv x k num).Perm (List.replicate num x ++ kv) := by
  unfold knotInsertionKv
  calc _ = kv.take (k + 1) ++ List.replicate num x ++ kv.drop (k + 1) := rfl
    _ |>.Perm (List.replicate num x ++ kv.take (k + 1) ++ kv.drop (k + 1)) :=
      (List.perm_append_comm).append_right _
    _ = List.replicate num x ++ kv := by rw [List.append_assoc, List.take_append_drop]

theorem insertU_full (tol : K) (s : BSurf K V) (hv : s.Valid tol) (x : K) (hx : InnerKnot tol s.kvU x) (num : ℕ)
    (hnum : num + s.kvU.count x = s.degreeU) (chk : Bool) :
    ∃ t, s.insertU tol x num chk = some t ∧ t.Valid tol ∧ t.degreeU = s.degreeU ∧ t.degreeV = s.degreeV ∧
      t.kvU.Perm (List.replicate num x ++ s.kvU) ∧ t.kvV = s.kvV ∧
      ∀ u v, 0 ≤ u → u ≤ 1 → t.eval u v = s.eval u v := by
  obtain ⟨t, t1, t2, t3, t4, t5, t6, t7, t8, -, -, t9⟩ := insertU_spec tol s hv x hx _ rfl num hnum chk
  refine ⟨t, t1, t2, t3, t4, by rw [t7]; exact knotInsertionKv_perm _ _ _ _, t8, ?_⟩
  intro u v hu0 hu1
  apply t9.eval
  · rw [t3, t4, t5, t6, t7, t8]
    exact insU_eval tol s.degreeU s.nbU s.uKnots s.uMults hv.uOK x hx _ rfl num hnum s.ctrlpts s.degreeV s.nbV _
      hv.vOK.clamped.pn u v hu0 hu1
  · intro w
    rw [t3, t4, t5, t6, t7, t8]
    exact insU_eval tol s.degreeU s.nbU s.uKnots s.uMults hv.uOK x hx _ rfl num hnum _ s.degreeV s.nbV _
      hv.vOK.clamped.pn u v hu0 hu1

theorem insertV_full (tol : K) (s : BSurf K V) (hv : s.Valid tol) (x : K) (hx : InnerKnot tol s.kvV x) (num : ℕ)
    (hnum : num + s.kvV.count x = s.degreeV) (chk : Bool) :
    ∃ t, s.insertV tol x num chk = some t ∧ t.Valid tol ∧ t.degreeU = s.degreeU ∧ t.degreeV = s.degreeV ∧
      t.kvU = s.kvU ∧ t.kvV.Perm (List.replicate num x ++ s.kvV) ∧
      ∀ u v, 0 ≤ v → v ≤ 1 → t.eval u v = s.eval u v := by
  obtain ⟨t, t1, t2, t3, t4, t5, t6, t7, t8, -, -, t9⟩ := insertV_spec tol s hv x hx _ rfl num hnum chk
  refine ⟨t, t1, t2, t3, t4, t7, by rw [t8]; exact knotInsertionKv_perm _ _ _ _, ?_⟩
  intro u v hv0 hv1
  apply t9.eval
  · rw [t3, t4, t5, t6, t7, t8]
    exact insV_eval tol s.degreeV s.nbV s.vKnots s.vMults hv.vOK x hx _ rfl num hnum s.ctrlpts s.degreeU s.nbU _
      hv.uOK.clamped.pn u v hv0 hv1
  · intro w
    rw [t3, t4, t5, t6, t7, t8]
    exact insV_eval tol s.degreeV s.nbV s.vKnots s.vMults hv.vOK x hx _ rfl num hnum _ s.degreeU s.nbU _
      hv.uOK.clamped.pn u v hv0 hv1

/-- **C150** (partial: the knots are inserted up to multiplicity `degree`, as the split functions do) for every valid
surface, rational or not, and every pair of parameters inside the domain, inserting a knot in both directions at
once gives a valid surface of the same degrees, whose knot vectors are the old ones plus the inserted knots, with the
same point at every parameter. -/
theorem C150_insert_partial (tol : K) (s : BSurf K V) (hv : s.Valid tol) (x y : K) (hx : InnerKnot tol s.kvU x)
    (hy : InnerKnot tol s.kvV y) (num num' : ℕ) (hnum : num + s.kvU.count x = s.degreeU)
    (hnum' : num' + s.kvV.count y = s.degreeV) :
    ∃ t, s.insertKnot tol (some x) (some y) num num' true = some t ∧ t.Valid tol ∧ t.degreeU = s.degreeU ∧
      t.degreeV = s.degreeV ∧ t.kvU.Perm (List.replicate num x ++ s.kvU) ∧ t.kvV.Perm (List.replicate num' y ++ s.kvV) ∧
      ∀ u v, 0 ≤ u → u ≤ 1 → 0 ≤ v → v ≤ 1 → t.eval u v = s.eval u v := by
  obtain ⟨t, a1, a2, a3, a4, a5, a6, a7⟩ := insertU_full tol s hv x hx num hnum true
  obtain ⟨r, b1, b2, b3, b4, b5, b6, b7⟩ := insertV_full tol t a2 y (by rw [a6]; exact hy) num'
    (by rw [a6, a4]; exact hnum') true
  refine ⟨r, ?_, b2, by rw [b3, a3], by rw [b4, a4], by rw [b5]; exact a5, by rw [a6] at b6; exact b6, ?_⟩
  · unfold BSurf.insertKnot
    dsimp only
    rw [a1]
    exact b1
  · intro u v h1 h2 h3 h4
    rw [b7 u v h3 h4, a7 u v h1 h2]

/-- **C150** (partial, as above) the same for one direction only. -/
theorem C150_insert_one_partial (tol : K) (s : BSurf K V) (hv : s.Valid tol) (x : K) (num other : ℕ) :
    (InnerKnot tol s.kvU x → num + s.kvU.count x = s.degreeU →
      ∃ t, s.insertKnot tol (some x) none num other true = some t ∧ t.Valid tol ∧
        t.kvU.Perm (List.replicate num x ++ s.kvU) ∧ t.kvV = s.kvV ∧
        ∀ u v, 0 ≤ u → u ≤ 1 → t.eval u v = s.eval u v) ∧
    (InnerKnot tol s.kvV x → num + s.kvV.count x = s.degreeV →
      ∃ t, s.insertKnot tol none (some x) other num true = some t ∧ t.Valid tol ∧
        t.kvU = s.kvU ∧ t.kvV.Perm (List.replicate num x ++ s.kvV) ∧
        ∀ u v, 0 ≤ v → v ≤ 1 → t.eval u v = s.eval u v) := by
  constructor
  · intro hx hnum
    obtain ⟨t, a1, a2, -, -, a5, a6, a7⟩ := insertU_full tol s hv x hx num hnum true
    refine ⟨t, ?_, a2, a5, a6, a7⟩
    unfold BSurf.insertKnot
    dsimp only
    rw [a1]; rfl
  · intro hx hnum
    obtain ⟨t, a1, a2, -, -, a5, a6, a7⟩ := insertV_full tol s hv x hx num hnum true
    refine ⟨t, ?_, a2, a5, a6, a7⟩
    unfold BSurf.insertKnot
    dsimp only
    rw [Option.bind_some]
    exact a1

/-- **C150** the operation is refused (`ValueError`) exactly when the multiplicity would exceed the degree. -/
theorem C150_refused (tol : K) (s : BSurf K V) (hv : s.Valid tol) (x : K) (num other : ℕ) (h0 : 0 < num) :
    (InnerKnot tol s.kvU x → (s.insertKnot tol (some x) none num other true = none ↔
      s.degreeU < num + s.kvU.count x)) ∧
    (InnerKnot tol s.kvV x → (s.insertKnot tol none (some x) other num true = none ↔
      s.degreeV < num + s.kvV.count x)) := by
  constructor
  · intro hx
    have hm : findMultiplicity tol x s.kvU = s.kvU.count x := ok_mult hv.uOK hx
    unfold BSurf.insertKnot BSurf.insertU
    dsimp only
    rw [if_neg (by omega), hm]
    by_cases h : s.degreeU < num + s.kvU.count x
    · rw [if_pos ⟨rfl, h⟩]; exact ⟨fun _ => h, fun _ => rfl⟩
    · rw [if_neg (fun hc => h hc.2)]
      cases s.weights <;> simp [h]
  · intro hx
    have hm : findMultiplicity tol x s.kvV = s.kvV.count x := ok_mult hv.vOK hx
    unfold BSurf.insertKnot BSurf.insertV
    dsimp only
    rw [Option.bind_some, if_neg (by omega), hm]
    by_cases h : s.degreeV < num + s.kvV.count x
    · rw [if_pos ⟨rfl, h⟩]; exact ⟨fun _ => h, fun _ => rfl⟩
    · rw [if_neg (fun hc => h hc.2)]
      cases s.weights <;> simp [h]

/-! ### a concrete surface -/

/-- A surface of degrees 2 and 1 with `4 × 3` control points, knots `[0,0,0,1/2,1,1,1]` and `[0,0,1/3,1,1]`. -/
def exampleSurf (w : Option (List ℚ)) : BSurf ℚ (ℚ × ℚ × ℚ) :=
  { degreeU := 2, degreeV := 1
    ctrlpts := [(0, 0, 0), (0, 1, 1), (0, 2, 0), (1, 0, 2), (1, 1, 3), (1, 2, 1), (2, 0, 1), (2, 1, 0), (2, 2, 5),
      (3, 0, 0), (3, 1, 2), (3, 2, 4)]
    nbU := 4, nbV := 3, uMults := [3, 1, 3], vMults := [2, 1, 2], uKnots := [0, 1 / 2, 1], vKnots := [0, 1 / 3, 1]
    weights := w }

theorem exampleSurf_kvU (w : Option (List ℚ)) : (exampleSurf w).kvU = [0, 0, 0, 1 / 2, 1, 1, 1] := rfl
theorem exampleSurf_kvV (w : Option (List ℚ)) : (exampleSurf w).kvV = [0, 0, 1 / 3, 1, 1] := rfl

theorem exampleSurf_valid (w : Option (List ℚ)) (h1 : ∀ l, w = some l → l.length = 12)
    (h2 : ∀ l, w = some l → ∀ a ∈ l, 0 < a) : (exampleSurf w).Valid (1 / 10 ^ 15) := by
  have hs : ([0, 0, 0, 1 / 2, 1, 1, 1] : List ℚ).Pairwise (· ≤ ·) := by decide +kernel
  have hs' : ([0, 0, 1 / 3, 1, 1] : List ℚ).Pairwise (· ≤ ·) := by decide +kernel
  refine ⟨⟨by norm_num, show 0 < 2 by norm_num, rfl, rfl, rfl, hs, ?_, rfl, ?_, ?_, ?_, ?_⟩,
    ⟨by norm_num, show 0 < 1 by norm_num, rfl, rfl, rfl, hs', ?_, rfl, ?_, ?_, ?_, ?_⟩, rfl, h1, h2⟩
  · show Separated _ [0, 0, 0, 1 / 2, 1, 1, 1]
    unfold Separated; decide +kernel
  · show Clamped 2 4 (kvFun [0, 0, 0, 1 / 2, 1, 1, 1])
    refine ⟨by decide +kernel, kvFun_mono _ hs, ?_, ?_, ?_, ?_⟩ <;> decide +kernel
  · show InteriorMult 2 4 (kvFun [0, 0, 0, 1 / 2, 1, 1, 1])
    intro i h3 h4
    rcases (by omega : i = 1 ∨ i = 2 ∨ i = 3) with rfl | rfl | rfl <;> decide +kernel
  · show kvFun [0, 0, 0, 1 / 2, 1, 1, 1] 2 = 0
    decide +kernel
  · show kvFun [0, 0, 0, 1 / 2, 1, 1, 1] 4 = 1
    decide +kernel
  · show Separated _ [0, 0, 1 / 3, 1, 1]
    unfold Separated; decide +kernel
  · show Clamped 1 3 (kvFun [0, 0, 1 / 3, 1, 1])
    refine ⟨by decide +kernel, kvFun_mono _ hs', ?_, ?_, ?_, ?_⟩ <;> decide +kernel
  · show InteriorMult 1 3 (kvFun [0, 0, 1 / 3, 1, 1])
    intro i h3 h4
    rcases (by omega : i = 1 ∨ i = 2) with rfl | rfl <;> decide +kernel
  · show kvFun [0, 0, 1 / 3, 1, 1] 1 = 0
    decide +kernel
  · show kvFun [0, 0, 1 / 3, 1, 1] 3 = 1
    decide +kernel

/-- Weights for the example. -/
def exampleWeights : List ℚ := [1, 2, 1, 1, 3, 1, 1, 1, 2, 1, 1, 1]

theorem exampleSurf_validw : (exampleSurf (some exampleWeights)).Valid (1 / 10 ^ 15) :=
  exampleSurf_valid _ (by intro l hl; rw [← Option.some.inj hl]; rfl)
    (by intro l hl; rw [← Option.some.inj hl]; unfold exampleWeights; decide +kernel)

theorem exampleSurf_innerU (w : Option (List ℚ)) : InnerKnot (1 / 10 ^ 15) (exampleSurf w).kvU (1 / 4) := by
  rw [exampleSurf_kvU]; unfold InnerKnot; decide +kernel
theorem exampleSurf_innerV (w : Option (List ℚ)) : InnerKnot (1 / 10 ^ 15) (exampleSurf w).kvV (1 / 2) := by
  rw [exampleSurf_kvV]; unfold InnerKnot; decide +kernel

example : ∃ t, (exampleSurf (some exampleWeights)).insertKnot (1 / 10 ^ 15) (some (1 / 4)) (some (1 / 2)) 2 1 true =
      some t ∧ ∀ u v, 0 ≤ u → u ≤ 1 → 0 ≤ v → v ≤ 1 → t.eval u v = (exampleSurf (some exampleWeights)).eval u v := by
  obtain ⟨t, h1, -, -, -, -, -, h2⟩ := C150_insert_partial (1 / 10 ^ 15) _ exampleSurf_validw (1 / 4) (1 / 2)
    (exampleSurf_innerU _) (exampleSurf_innerV _) 2 1 (by decide +kernel) (by decide +kernel)
  exact ⟨t, h1, h2⟩
example : (exampleSurf (some exampleWeights)).eval (1 / 4) (1 / 2) ≠ (exampleSurf none).eval (1 / 4) (1 / 2) := by
  decide +kernel

/-- The full property: every allowed insertion keeps every point. -/
def C150_full_statement (K V : Type) [Field K] [LinearOrder K] [AddCommGroup V] [Module K V] : Prop :=
  ∀ (s : BSurf K V), s.Valid (1 / 10 ^ 15) → ∀ x, InnerKnot (1 / 10 ^ 15) s.kvU x → ∀ num,
    0 < num → num + s.kvU.count x ≤ s.degreeU →
    ∃ t, s.insertKnot (1 / 10 ^ 15) (some x) none num 0 true = some t ∧
      ∀ u v, 0 ≤ u → u ≤ 1 → 0 ≤ v → v ≤ 1 → t.eval u v = s.eval u v

/-- **C150** inserting a knot once in a direction of degree 2 changes the surface: the columns are stored with one
point too many, and the net is read with the wrong stride. -/
theorem C150_counterexample : ¬ C150_full_statement ℚ (ℚ × ℚ × ℚ) := by
  intro h
  obtain ⟨t, h1, h2⟩ := h (exampleSurf none) (exampleSurf_valid _ (by simp) (by simp)) (1 / 4)
    (exampleSurf_innerU _) 1 (by norm_num) (by decide +kernel)
  have h3 := h2 (1 / 8) (1 / 2) (by norm_num) (by norm_num) (by norm_num) (by norm_num)
  have h4 : t = ((exampleSurf none).insertKnot (1 / 10 ^ 15) (some (1 / 4)) none 1 0 true).getD (exampleSurf none) := by
    rw [h1]; rfl
  rw [h4] at h3
  revert h3
  decide +kernel

end
end Volmdlr
