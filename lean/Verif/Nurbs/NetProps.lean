import Verif.Nurbs.Decompose

/-!
# Control nets: rows, columns, insertion and evaluation
-/

namespace Volmdlr
open Finset
section
variable {K : Type*} [Field K] [LinearOrder K] [IsStrictOrderedRing K]
variable {V : Type*} [AddCommGroup V] [Module K V]

section
variable {W : Type*} [AddCommGroup W]

/-- Reading in a concatenation of lists of the same length. -/
theorem cpFun_flatMap (f : ℕ → List W) (a b i j : ℕ) (hf : ∀ i < a, (f i).length = b) (hi : i < a) (hj : j < b) :
    cpFun ((List.range a).flatMap f) (j + b * i) = cpFun (f i) j := by
  induction a with
  | zero => omega
  | succ a ih =>
    have hlen : ((List.range a).flatMap f).length = a * b := by
      rw [List.length_flatMap]
      have : (List.range a).map (fun i => (f i).length) = (List.range a).map (fun _ => b) :=
        List.map_congr_left fun i hi => hf i (by have := List.mem_range.1 hi; omega)
      rw [this]; simp
    rw [List.range_succ, List.flatMap_append]
    simp only [List.flatMap_cons, List.flatMap_nil, List.append_nil]
    rcases Nat.lt_or_ge i a with h | h
    · have hb : j + b * i < a * b := by
        have : b * (i + 1) ≤ b * a := Nat.mul_le_mul_left b h
        rw [Nat.mul_comm a b]; rw [Nat.mul_succ] at this; omega
      have := ih (fun i hi => hf i (by omega)) h
      unfold cpFun at this ⊢
      rw [List.getD_append _ _ _ _ (by rw [hlen]; exact hb)]
      exact this
    · obtain rfl : i = a := by omega
      unfold cpFun
      rw [List.getD_append_right _ _ _ _ (by rw [hlen, Nat.mul_comm]; omega), hlen]
      congr 1
      rw [Nat.mul_comm i b]; omega

theorem length_flatMap_range (f : ℕ → List W) (a b : ℕ) (hf : ∀ i < a, (f i).length = b) :
    ((List.range a).flatMap f).length = a * b := by
  rw [List.length_flatMap]
  have : (List.range a).map (fun i => (f i).length) = (List.range a).map (fun _ => b) :=
    List.map_congr_left fun i hi => hf i (List.mem_range.1 hi)
  rw [this]; simp

theorem netCol_length (cp : List W) (nu nv j : ℕ) : (netCol cp nu nv j).length = nu := by simp [netCol]
theorem netRow_length (cp : List W) (nv i : ℕ) : (netRow cp nv i).length = nv := by simp [netRow]

theorem cpFun_netCol (cp : List W) (nu nv j i : ℕ) (hi : i < nu) : cpFun (netCol cp nu nv j) i = cpFun cp (j + nv * i) :=
  cpFun_range_map _ _ _ hi
theorem cpFun_netRow (cp : List W) (nv i j : ℕ) (hj : j < nv) : cpFun (netRow cp nv i) j = cpFun cp (j + nv * i) :=
  cpFun_range_map _ _ _ hj

/-- The columns of a concatenation of rows. -/
theorem netCol_flatMap (f : ℕ → List W) (nu nv j : ℕ) (hf : ∀ i < nu, (f i).length = nv) (hj : j < nv) :
    netCol ((List.range nu).flatMap f) nu nv j = (List.range nu).map fun i => cpFun (f i) j := by
  apply List.map_congr_left
  intro i hi
  exact cpFun_flatMap f nu nv i j hf (List.mem_range.1 hi) hj

theorem list_eq_range_map (l : List W) (n : ℕ) (h : l.length = n) : l = (List.range n).map (cpFun l) := by
  apply List.ext_getElem
  · simp [h]
  · intro i h1 h2
    rw [List.getElem_map, List.getElem_range]
    unfold cpFun
    rw [List.getD_eq_getElem _ _ h1]

/-- The rows of a concatenation of rows. -/
theorem netRow_flatMap (f : ℕ → List W) (nu nv i : ℕ) (hf : ∀ i < nu, (f i).length = nv) (hi : i < nu) :
    netRow ((List.range nu).flatMap f) nv i = f i := by
  rw [list_eq_range_map (f i) nv (hf i hi)]
  apply List.map_congr_left
  intro j hj
  exact cpFun_flatMap f nu nv i j hf hi (List.mem_range.1 hj)

/-- The rows after the `d`-th one. -/
theorem netRows_drop (cp : List W) (nu nv d : ℕ) :
    (netRows cp nu nv).drop d = (List.range (nu - d)).map fun i => netRow cp nv (d + i) := by
  unfold netRows
  apply List.ext_getElem
  · simp
  · intro i h1 h2
    simp

theorem netRows_take (cp : List W) (nu nv m : ℕ) (hm : m ≤ nu) :
    (netRows cp nu nv).take m = (List.range m).map fun i => netRow cp nv i := by
  unfold netRows
  rw [← List.map_take, List.take_range, Nat.min_eq_left hm]

theorem netCol_take (cp : List W) (nu nv m j : ℕ) (hm : m ≤ nu) (hj : j < nv) :
    netCol ((netRows cp nu nv).take m).flatten m nv j = (netCol cp nu nv j).take m := by
  rw [netRows_take cp nu nv m hm, ← List.flatMap_def, netCol_flatMap _ _ _ _ (fun i _ => netRow_length _ _ _) hj]
  unfold netCol
  rw [← List.map_take, List.take_range, Nat.min_eq_left hm]
  apply List.map_congr_left
  intro i _
  exact cpFun_netRow _ _ _ _ hj

theorem netCol_drop (cp : List W) (nu nv d j : ℕ) (hj : j < nv) :
    netCol ((netRows cp nu nv).drop d).flatten (nu - d) nv j = (netCol cp nu nv j).drop d := by
  rw [netRows_drop cp nu nv d, ← List.flatMap_def, netCol_flatMap _ _ _ _ (fun i _ => netRow_length _ _ _) hj]
  apply List.ext_getElem
  · simp [netCol]
  · intro i h1 h2
    rw [List.getElem_map, List.getElem_range, List.getElem_drop]
    unfold netCol
    rw [List.getElem_map, List.getElem_range]
    exact cpFun_netRow _ _ _ _ hj

theorem netRow_take (cp : List W) (nu nv m i : ℕ) (hm : m ≤ nv) (hi : i < nu) :
    netRow ((netRows cp nu nv).flatMap fun r : List W => r.take m) m i = (netRow cp nv i).take m := by
  unfold netRows
  rw [List.flatMap_map]
  exact netRow_flatMap (fun u => (netRow cp nv u).take m) nu m i
    (fun u _ => by rw [List.length_take, netRow_length, Nat.min_eq_left hm]) hi

theorem netRow_drop (cp : List W) (nu nv d i : ℕ) (hi : i < nu) :
    netRow ((netRows cp nu nv).flatMap fun r : List W => r.drop d) (nv - d) i = (netRow cp nv i).drop d := by
  unfold netRows
  rw [List.flatMap_map]
  exact netRow_flatMap (fun u => (netRow cp nv u).drop d) nu (nv - d) i
    (fun u _ => by rw [List.length_drop, netRow_length]) hi

theorem mem_netRow (cp : List W) (nu nv i : ℕ) (hlen : cp.length = nu * nv) (hi : i < nu) :
    ∀ q ∈ netRow cp nv i, q ∈ cp := by
  intro q hq
  obtain ⟨j, hj, rfl⟩ := List.mem_map.1 hq
  have hj := List.mem_range.1 hj
  have hb : j + nv * i < cp.length := by
    rw [hlen, Nat.mul_comm nu nv]
    have : nv * (i + 1) ≤ nv * nu := Nat.mul_le_mul_left nv hi
    rw [Nat.mul_succ] at this; omega
  unfold cpFun
  rw [List.getD_eq_getElem _ _ hb]
  exact List.getElem_mem _

end

/-! ### evaluation by columns and by rows -/

theorem surfacePoint_rows (pu pv : ℕ) (Uu Uv : ℕ → K) (cp : List V) (su sv : ℕ) (hu : pu < su) (hv : pv < sv) (u v : K) :
    surfacePoint pu pv Uu Uv (cpFun cp) su sv u v =
      ∑ i ∈ range su, bsp Uu (findSpanLinear pu Uu su u) u pu i • curvePoint pv Uv (cpFun (netRow cp sv i)) sv v := by
  rw [surfacePoint_eq, curvePoint_eq pu Uu _ su u hu]
  apply sum_congr rfl
  intro i _
  congr 1
  apply curvePoint_congr _ _ _ _ _ hv
  intro j hj
  rw [cpFun_netRow _ _ _ _ hj]

theorem surfacePoint_cols (pu pv : ℕ) (Uu Uv : ℕ → K) (cp : List V) (su sv : ℕ) (hu : pu < su) (hv : pv < sv) (u v : K) :
    surfacePoint pu pv Uu Uv (cpFun cp) su sv u v =
      ∑ j ∈ range sv, bsp Uv (findSpanLinear pv Uv sv v) v pv j • curvePoint pu Uu (cpFun (netCol cp su sv j)) su u := by
  rw [surfacePoint_rows pu pv Uu Uv cp su sv hu hv]
  have h1 : ∀ i ∈ range su, bsp Uu (findSpanLinear pu Uu su u) u pu i • curvePoint pv Uv (cpFun (netRow cp sv i)) sv v =
      ∑ j ∈ range sv, bsp Uu (findSpanLinear pu Uu su u) u pu i •
        (bsp Uv (findSpanLinear pv Uv sv v) v pv j • cpFun cp (j + sv * i)) := by
    intro i _
    rw [curvePoint_eq pv Uv _ sv v hv, smul_sum]
    apply sum_congr rfl
    intro j hj
    rw [cpFun_netRow _ _ _ _ (mem_range.1 hj)]
  rw [sum_congr rfl h1, sum_comm]
  apply sum_congr rfl
  intro j _
  rw [curvePoint_eq pu Uu _ su u hu, smul_sum]
  apply sum_congr rfl
  intro i hi
  rw [cpFun_netCol _ _ _ _ _ (mem_range.1 hi), smul_comm]

/-- Two nets with the same columns (as curves) have the same points. -/
theorem surf_col (pu pv : ℕ) (Uu Uu' Uv : ℕ → K) (cp cp' : List V) (su su' sv : ℕ) (hu : pu < su) (hu' : pu < su')
    (hv : pv < sv) (u u' v : K)
    (h : ∀ j < sv, curvePoint pu Uu' (cpFun (netCol cp' su' sv j)) su' u' =
      curvePoint pu Uu (cpFun (netCol cp su sv j)) su u) :
    surfacePoint pu pv Uu' Uv (cpFun cp') su' sv u' v = surfacePoint pu pv Uu Uv (cpFun cp) su sv u v := by
  rw [surfacePoint_cols pu pv Uu' Uv cp' su' sv hu' hv, surfacePoint_cols pu pv Uu Uv cp su sv hu hv]
  exact sum_congr rfl fun j hj => by rw [h j (mem_range.1 hj)]

/-- Two nets with the same rows (as curves) have the same points. -/
theorem surf_row (pu pv : ℕ) (Uu Uv Uv' : ℕ → K) (cp cp' : List V) (su sv sv' : ℕ) (hu : pu < su) (hv : pv < sv)
    (hv' : pv < sv') (u v v' : K)
    (h : ∀ i < su, curvePoint pv Uv' (cpFun (netRow cp' sv' i)) sv' v' =
      curvePoint pv Uv (cpFun (netRow cp sv i)) sv v) :
    surfacePoint pu pv Uu Uv' (cpFun cp') su sv' u v' = surfacePoint pu pv Uu Uv (cpFun cp) su sv u v := by
  rw [surfacePoint_rows pu pv Uu Uv' cp' su sv' hu hv', surfacePoint_rows pu pv Uu Uv cp su sv hu hv]
  exact sum_congr rfl fun j hj => by rw [h j (mem_range.1 hj)]

/-! ### insertion up to full multiplicity -/

section
variable {tol : K} {p n : ℕ} {knots : List K} {mults : List ℕ} (ok : KnotsOK tol p n knots mults) {x : K}
  (hx : InnerKnot tol (repeatKnots knots mults) x) (k : ℕ)
  (hk : k = findSpanLinear p (kvFun (repeatKnots knots mults)) n x) (num : ℕ)
  (hnum : num + (repeatKnots knots mults).count x = p)
include ok hx hk hnum

/-- `insert_full` also for no insertion at all (as `extract_surface_curve_u` calls it). -/
theorem knotInsertion_full (cp : List V) (hcp : cp.length = n) :
    knotInsertion p (repeatKnots knots mults) cp x num ((repeatKnots knots mults).count x) k =
      (List.range (n + num)).map (insPtsN (kvFun (repeatKnots knots mults)) k x p (cpFun cp) num) := by
  have h := insert_full p (repeatKnots knots mults) cp x ok.sorted (by rw [hcp]; exact ok.length)
    (by rw [hcp]; exact ok.clamped) (by rw [ok.dom0]; exact hx.1) (by rw [hcp, ok.dom1]; exact hx.2.1) k
    (by rw [hcp]; exact hk) num hnum
  rw [hcp] at h
  by_cases hz : num = 0
  · rw [if_pos hz] at h
    rw [← h]
    obtain ⟨a, b, d, e, hl, f, g, i, j⟩ := ok_facts ok hx k hk
    subst hz
    rw [zero_add] at hnum
    rw [hnum]
    have h1 : (sliceAssign (List.replicate (cp.length + 0) (0 : V)) 0 (k - p + 1) (cp.take (k - p + 1))).take (k - p) =
        cp.take (k - p) := by
      unfold sliceAssign
      rw [List.take_zero, List.nil_append, List.take_append_of_le_length (by rw [List.length_take]; omega),
        List.take_take, Nat.min_eq_left (by omega)]
    have h2 : (sliceAssign (List.replicate (cp.length + 0) (0 : V)) 0 (k - p + 1) (cp.take (k - p + 1))).length =
        cp.length := by
      unfold sliceAssign
      simp; omega
    unfold knotInsertion
    simp only [insLoop]
    rw [show k - p - (k - p + 0) = 0 by omega]
    have h3 : sliceAssign (sliceAssign (List.replicate (cp.length + 0) (0 : V)) 0 (k - p + 1) (cp.take (k - p + 1)))
        (k - p + 0) (sliceAssign (List.replicate (cp.length + 0) (0 : V)) 0 (k - p + 1) (cp.take (k - p + 1))).length
        (cp.drop (k - p)) = cp := by
      rw [h2]
      generalize sliceAssign (List.replicate (cp.length + 0) (0 : V)) 0 (k - p + 1) (cp.take (k - p + 1)) = N at h1 h2
      unfold sliceAssign
      rw [Nat.add_zero, h1, List.take_append_drop, List.drop_eq_nil_of_le (by omega), List.append_nil]
    rw [h3]
    unfold sliceAssign
    simp
  · rw [if_neg hz] at h
    exact h

/-- The columns of the net after an insertion in the u direction. -/
theorem insertNetU_cols (cp : List V) (nv j : ℕ) (hj : j < nv) :
    netCol (insertNetU p (repeatKnots knots mults) cp n nv x num ((repeatKnots knots mults).count x) k) (n + num) nv j =
      (List.range (n + num)).map
        (insPtsN (kvFun (repeatKnots knots mults)) k x p (cpFun (netCol cp n nv j)) num) := by
  have hL := fun j => knotInsertion_full ok hx k hk num hnum (netCol cp n nv j) (netCol_length _ _ _ _)
  unfold insertNetU flipU
  rw [netCol_flatMap _ _ _ _ (by simp) hj]
  apply List.map_congr_left
  intro i hi
  have hi := List.mem_range.1 hi
  rw [cpFun_range_map _ _ _ hj, Nat.mul_comm j, cpFun_flatMap _ nv (n + num) j i (by intro v _; rw [hL]; simp) hj hi, hL,
    cpFun_range_map _ _ _ hi]

theorem insertNetU_length (cp : List V) (nv : ℕ) :
    (insertNetU p (repeatKnots knots mults) cp n nv x num ((repeatKnots knots mults).count x) k).length =
      (n + num) * nv := by
  unfold insertNetU flipU
  exact length_flatMap_range _ _ _ (by simp)

/-- The rows of the net after an insertion in the v direction. -/
theorem insertNetV_rows (cp : List V) (nu i : ℕ) (hi : i < nu) :
    netRow (insertNetV p (repeatKnots knots mults) cp nu n x num ((repeatKnots knots mults).count x) k) (n + num) i =
      (List.range (n + num)).map
        (insPtsN (kvFun (repeatKnots knots mults)) k x p (cpFun (netRow cp n i)) num) := by
  have hL := fun i => knotInsertion_full ok hx k hk num hnum (netRow cp n i) (netRow_length _ _ _)
  unfold insertNetV
  rw [netRow_flatMap _ nu (n + num) i (by intro v _; rw [hL]; simp) hi, hL]

theorem insertNetV_length (cp : List V) (nu : ℕ) :
    (insertNetV p (repeatKnots knots mults) cp nu n x num ((repeatKnots knots mults).count x) k).length =
      nu * (n + num) := by
  unfold insertNetV
  apply length_flatMap_range
  intro i _
  rw [knotInsertion_full ok hx k hk num hnum (netRow cp n i) (netRow_length _ _ _)]
  simp

theorem insPtsN_pos_of (cp : List (V × K)) (hcp : cp.length = n) (hpos : ∀ q ∈ cp, 0 < q.2) (i : ℕ) (hi : i < n + num) :
    0 < (insPtsN (kvFun (repeatKnots knots mults)) k x p (cpFun cp) num i).2 := by
  obtain ⟨a, b, d, e, -⟩ := ok_facts ok hx k hk
  refine insPtsN_pos (kvFun (repeatKnots knots mults)) ok.clamped.mono k x d e p n a b (cpFun cp) ?_ num i hi
  intro j hj
  unfold cpFun
  rw [List.getD_eq_getElem _ _ (by omega)]
  exact hpos _ (List.getElem_mem _)

theorem insertNetU_pos (cp : List (V × K)) (nv : ℕ) (hlen : cp.length = n * nv) (hpos : ∀ q ∈ cp, 0 < q.2) :
    ∀ q ∈ insertNetU p (repeatKnots knots mults) cp n nv x num ((repeatKnots knots mults).count x) k, 0 < q.2 := by
  intro q hq
  have hL := fun j => knotInsertion_full ok hx k hk num hnum (netCol cp n nv j) (netCol_length _ _ _ _)
  unfold insertNetU flipU at hq
  obtain ⟨i, hi, hq⟩ := List.mem_flatMap.1 hq
  obtain ⟨j, hj, rfl⟩ := List.mem_map.1 hq
  have hi := List.mem_range.1 hi
  have hj := List.mem_range.1 hj
  rw [Nat.mul_comm j, cpFun_flatMap _ nv (n + num) j i (by intro v _; rw [hL]; simp) hj hi, hL, cpFun_range_map _ _ _ hi]
  apply insPtsN_pos_of ok hx k hk num hnum _ (netCol_length _ _ _ _) _ i hi
  intro q hq
  obtain ⟨r, hr, rfl⟩ := List.mem_map.1 hq
  have hr := List.mem_range.1 hr
  have hb : j + nv * r < cp.length := by
    rw [hlen, Nat.mul_comm n nv]
    have : nv * (r + 1) ≤ nv * n := Nat.mul_le_mul_left nv hr
    rw [Nat.mul_succ] at this; omega
  unfold cpFun
  rw [List.getD_eq_getElem _ _ hb]
  exact hpos _ (List.getElem_mem _)

theorem insertNetV_pos (cp : List (V × K)) (nu : ℕ) (hlen : cp.length = nu * n) (hpos : ∀ q ∈ cp, 0 < q.2) :
    ∀ q ∈ insertNetV p (repeatKnots knots mults) cp nu n x num ((repeatKnots knots mults).count x) k, 0 < q.2 := by
  intro q hq
  unfold insertNetV at hq
  obtain ⟨i, hi, hq⟩ := List.mem_flatMap.1 hq
  have hi := List.mem_range.1 hi
  rw [knotInsertion_full ok hx k hk num hnum (netRow cp n i) (netRow_length _ _ _)] at hq
  obtain ⟨j, hj, rfl⟩ := List.mem_map.1 hq
  exact insPtsN_pos_of ok hx k hk num hnum _ (netRow_length _ _ _)
    (fun q hq => hpos q (mem_netRow cp nu n i hlen hi q hq)) j (List.mem_range.1 hj)

end

end
end Volmdlr
