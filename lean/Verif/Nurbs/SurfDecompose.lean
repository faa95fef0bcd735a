import Verif.Nurbs.SurfSplit
import Verif.Nurbs.Decompose

/-!
# C152: decomposition of a surface into Bézier patches
-/

namespace Volmdlr
open Finset
section
variable {K : Type*} [Field K] [LinearOrder K] [IsStrictOrderedRing K]
variable {V : Type*} [AddCommGroup V] [Module K V]

namespace BSurf
/-- Reading a surface along one direction: degree, number of control points, knot vector. -/
def deg : Dir → BSurf K V → ℕ
  | .u, s => s.degreeU
  | .v, s => s.degreeV
/-- The number of control points along one direction. -/
def nb : Dir → BSurf K V → ℕ
  | .u, s => s.nbU
  | .v, s => s.nbV
/-- The knot vector along one direction. -/
def kv : Dir → BSurf K V → List K
  | .u, s => s.kvU
  | .v, s => s.kvV
/-- The point of parameter `a` along the direction and `b` along the other one. -/
def evalDir : Dir → BSurf K V → K → K → V
  | .u, s, a, b => s.eval a b
  | .v, s, a, b => s.eval b a
/-- The other direction. -/
def Dir.other : Dir → Dir
  | .u => .v
  | .v => .u
end BSurf

open BSurf

theorem split_dir (tol : K) (d : Dir) (s : BSurf K V) (hv : s.Valid tol) (x : K) (hx : InnerKnot tol (kv d s) x) (k : ℕ)
    (hk : k = findSpanLinear (deg d s) (kvFun (kv d s)) (nb d s) x) :
    ∃ s1 s2, split tol d s x = some (s1, s2) ∧ s1.Valid tol ∧ s2.Valid tol ∧
      (deg d s1 = deg d s ∧ deg d.other s1 = deg d.other s ∧ kv d.other s1 = kv d.other s ∧ nb d.other s1 = nb d.other s) ∧
      (deg d s2 = deg d s ∧ deg d.other s2 = deg d.other s ∧ kv d.other s2 = kv d.other s ∧ nb d.other s2 = nb d.other s) ∧
      nb d s1 = k + 1 - (kv d s).count x ∧ nb d s2 = nb d s - (k - deg d s) ∧
      kv d s2 = (List.replicate (deg d s + 1) x ++ (kv d s).drop (k + 1)).map (fun a => (a - x) / (1 - x)) ∧
      (∀ a b, 0 ≤ a → a ≤ 1 → evalDir d s1 a b = evalDir d s (a * x) b) ∧
      (∀ a b, 0 ≤ a → a ≤ 1 → evalDir d s2 a b = evalDir d s (x + a * (1 - x)) b) := by
  cases d with
  | u => exact splitU_spec tol s hv x hx k hk
  | v =>
    obtain ⟨s1, s2, h1, h2, h3, h4, h5, h6, h7, h8, h9, h10⟩ := splitV_spec tol s hv x hx k hk
    exact ⟨s1, s2, h1, h2, h3, h4, h5, h6, h7, h8, fun a b => h9 b a, fun a b => h10 b a⟩

theorem BSurf.Valid.okDir {tol : K} {s : BSurf K V} (hv : s.Valid tol) (d : Dir) :
    ∃ knots mults, KnotsOK tol (deg d s) (nb d s) knots mults ∧ kv d s = repeatKnots knots mults := by
  cases d with
  | u => exact ⟨_, _, hv.uOK, rfl⟩
  | v => exact ⟨_, _, hv.vOK, rfl⟩

theorem innerKnots_dir (d : Dir) (s : BSurf K V) : innerKnots d s = BCurve.innerKnots (deg d s) (kv d s) := by
  cases d <;> rfl

theorem decomposeLoop_dir (tol : K) (d : Dir) (fuel : ℕ) : ∀ (s : BSurf K V), s.Valid tol → nb d s ≤ fuel + deg d s →
    ∀ start pmax : K, ∃ L, decomposeLoop tol d fuel s start pmax = some L ∧
      L.map (fun q => q.2.1) = ((kv d s).dedup.map fun a => a * (pmax - start) + start).dropLast ∧
      L.map (fun q => q.2.2) = ((kv d s).dedup.map fun a => a * (pmax - start) + start).tail ∧
      ∀ q ∈ L, q.1.Valid tol ∧ (deg d q.1 = deg d s ∧ nb d q.1 = deg d s + 1 ∧ kv d q.1 = bezierKnots (deg d s)) ∧
        (deg d.other q.1 = deg d.other s ∧ kv d.other q.1 = kv d.other s ∧ nb d.other q.1 = nb d.other s) ∧
        ∃ α β : K, 0 ≤ α ∧ α ≤ β ∧ β ≤ 1 ∧
        q.2.1 = α * (pmax - start) + start ∧ q.2.2 = β * (pmax - start) + start ∧
        ∀ a b, 0 ≤ a → a ≤ 1 → evalDir d q.1 a b = evalDir d s (α + a * (β - α)) b := by
  induction fuel with
  | zero =>
    intro s hv hf
    obtain ⟨kn, mu, hok, -⟩ := hv.okDir d
    have := hok.clamped.pn
    omega
  | succ fuel ih =>
    intro s hv hf start umax
    obtain ⟨kn, mu, hok, hkv⟩ := hv.okDir d
    have hpn := hok.clamped.pn
    unfold decomposeLoop
    dsimp only
    rw [innerKnots_dir]
    rcases Nat.lt_or_ge (deg d s + 1) (nb d s) with hlt | hge
    · obtain ⟨f1, f2, f3, f4, f5, f6, f7⟩ := hok.first hlt _ rfl
      have fd := hok.first_dedup hlt _ rfl
      rw [← hkv] at f1 f2 f3 f4 f5 f6 f7 fd
      rw [if_pos f1, f2]
      set x := kvFun (kv d s) (deg d s + 1) with hx
      obtain ⟨s1, s2, e1, v1, v2, o1, o2, l1, l2, k2, g1, g2⟩ := split_dir tol d s hv x f3 _ f5.symm
      rw [e1]
      dsimp only
      have hx0 := f3.1
      have hx1 := f3.2.1
      have hne : (1 - x) ≠ 0 := by intro h; linarith
      obtain ⟨L, e1, e2, e3, e4⟩ := ih s2 v2 (by rw [l2, o2.1]; omega) (x * (umax - start) + start) umax
      have hmap : ((kv d s2).dedup.map fun a => a * (umax - (x * (umax - start) + start)) +
          (x * (umax - start) + start)) =
          (List.replicate (deg d s + 1) x ++ (kv d s).drop (deg d s + (kv d s).count x + 1)).dedup.map
            fun a => a * (umax - start) + start := by
        rw [k2, List.dedup_map_of_injective]
        · rw [List.map_map]
          apply List.map_congr_left
          intro a _
          simp only [Function.comp_apply]
          field_simp
          ring
        · intro a b hab
          simp only at hab
          rw [div_left_inj' hne] at hab
          linarith
      rw [hmap] at e2 e3
      set D := (List.replicate (deg d s + 1) x ++ (kv d s).drop (deg d s + (kv d s).count x + 1)).dedup with hD
      have hDx : ∃ D', D = x :: D' := by
        have hnm : x ∉ (kv d s).drop (deg d s + (kv d s).count x + 1) := fun h => lt_irrefl _ (f7 _ h)
        exact ⟨_, by rw [hD, dedup_replicate_append, List.dedup_cons_of_notMem hnm]⟩
      obtain ⟨D', hD'⟩ := hDx
      refine ⟨(s1, start, x * (umax - start) + start) :: L, by rw [e1]; rfl, ?_, ?_, ?_⟩
      · rw [List.map_cons, e2, fd, hD']
        simp
      · rw [List.map_cons, e3, fd, hD']
        simp
      · intro q hq
        rcases List.mem_cons.1 hq with rfl | hq
        · have hn1 : nb d s1 = deg d s + 1 := by rw [l1]; omega
          refine ⟨v1, ⟨o1.1, hn1, ?_⟩, ⟨o1.2.1, o1.2.2.1, o1.2.2.2⟩, 0, x, le_refl _, hx0.le, hx1.le, by simp, rfl, ?_⟩
          · obtain ⟨kn1, mu1, h2, h3⟩ := v1.okDir d
            rw [o1.1, hn1] at h2
            rw [h3]; exact h2.bezier
          · intro a b h0 h1
            rw [g1 a b h0 h1, zero_add, sub_zero]
        · obtain ⟨q1, q2, q3, α, β, a1, a2, a3, a4, a5, a6⟩ := e4 q hq
          rw [o2.1] at q2
          rw [o2.2.1, o2.2.2.1, o2.2.2.2] at q3
          have hpos : 0 < 1 - x := sub_pos.2 hx1
          refine ⟨q1, q2, q3, x + α * (1 - x), x + β * (1 - x), ?_, ?_, ?_, ?_, ?_, ?_⟩
          · have := mul_nonneg a1 hpos.le; linarith
          · have := mul_le_mul_of_nonneg_right a2 hpos.le; linarith
          · have := mul_le_mul_of_nonneg_right a3 hpos.le; linarith
          · rw [a4]; ring
          · rw [a5]; ring
          · intro a b h0 h1
            rw [a6 a b h0 h1, g2]
            · congr 1; ring
            · have := mul_nonneg h0 (sub_nonneg.2 a2); linarith
            · have := mul_le_mul_of_nonneg_right h1 (sub_nonneg.2 a2); linarith
    · have hn : nb d s = deg d s + 1 := by omega
      have hb : kv d s = bezierKnots (deg d s) := by
        have h2 := hok
        rw [hn] at h2
        rw [hkv]; exact h2.bezier
      have hin : BCurve.innerKnots (deg d s) (kv d s) = [] := by
        unfold BCurve.innerKnots
        apply List.drop_eq_nil_of_le
        rw [List.length_take, hkv, hok.length]
        omega
      rw [hin]
      have hd : (kv d s).dedup = [0, 1] := by
        rw [hb]; unfold bezierKnots
        rw [dedup_replicate_append, List.dedup_cons_of_notMem, show List.replicate (deg d s + 1) (1 : K) =
          List.replicate (deg d s + 1) 1 ++ [] by simp, dedup_replicate_append]
        · simp
        · intro h; exact zero_ne_one (List.eq_of_mem_replicate h)
      refine ⟨[(s, start, umax)], by simp, ?_, ?_, ?_⟩
      · rw [hd]; simp
      · rw [hd]; simp
      · intro q hq
        obtain rfl := List.mem_singleton.1 hq
        refine ⟨hv, ⟨rfl, hn, hb⟩, ⟨rfl, rfl, rfl⟩, 0, 1, le_refl _, zero_le_one, le_refl _, by simp, by simp, ?_⟩
        intro v _ _
        simp

/-- Specification: the intervals between two consecutive distinct knots. -/
def knotIntervals (kv : List K) : List (K × K) := kv.dedup.dropLast.zip kv.dedup.tail

theorem decomposeDir_spec (tol : K) (d : Dir) (fuel : ℕ) (s : BSurf K V) (hv : s.Valid tol) (hf : nb d s ≤ fuel) :
    ∃ L, decomposeDir tol d fuel s = some L ∧ L.map (fun q => q.2) = knotIntervals (kv d s) ∧
      ∀ q ∈ L, q.1.Valid tol ∧ (deg d q.1 = deg d s ∧ nb d q.1 = deg d s + 1 ∧ kv d q.1 = bezierKnots (deg d s)) ∧
        (deg d.other q.1 = deg d.other s ∧ kv d.other q.1 = kv d.other s ∧ nb d.other q.1 = nb d.other s) ∧
        (0 ≤ q.2.1 ∧ q.2.1 ≤ q.2.2 ∧ q.2.2 ≤ 1) ∧
        ∀ a b, 0 ≤ a → a ≤ 1 → evalDir d q.1 a b = evalDir d s (q.2.1 + a * (q.2.2 - q.2.1)) b := by
  obtain ⟨kn, mu, hok, hkv⟩ := hv.okDir d
  have h : decomposeDir tol d fuel s = decomposeLoop tol d fuel s 0 1 := by
    unfold decomposeDir
    cases d with
    | u =>
      have h0 := hv.uOK.length
      have h1 := hv.uOK.dom0
      have h2 := hv.uOK.dom1
      change s.kvU.length = _ at h0
      change kvFun s.kvU _ = _ at h1
      change kvFun s.kvU _ = _ at h2
      dsimp only
      rw [h0, show s.nbU + s.degreeU + 1 - (s.degreeU + 1) = s.nbU by omega, h1, h2]
    | v =>
      have h0 := hv.vOK.length
      have h1 := hv.vOK.dom0
      have h2 := hv.vOK.dom1
      change s.kvV.length = _ at h0
      change kvFun s.kvV _ = _ at h1
      change kvFun s.kvV _ = _ at h2
      dsimp only
      rw [h0, show s.nbV + s.degreeV + 1 - (s.degreeV + 1) = s.nbV by omega, h1, h2]
  obtain ⟨L, h1, h2, h3, h4⟩ := decomposeLoop_dir tol d fuel s hv (by omega) 0 1
  simp only [sub_zero, mul_one, add_zero, List.map_id'] at h2 h3
  refine ⟨L, by rw [h, h1], ?_, ?_⟩
  · have : L.map (fun q => q.2) = (L.map fun q => q.2.1).zip (L.map fun q => q.2.2) := by
      rw [List.zip_map']
    rw [this, h2, h3]; rfl
  · intro q hq
    obtain ⟨q1, q2, q3, α, β, a1, a2, a3, a4, a5, a6⟩ := h4 q hq
    simp only [sub_zero, mul_one, add_zero] at a4 a5
    rw [a4, a5]
    exact ⟨q1, q2, q3, ⟨a1, a2, a3⟩, a6⟩

/-- **C152** in one direction: the patches of a decomposition in u are one for each interval between two consecutive
distinct u knots, in order, Bézier in u and with the v knots of the surface; each is the part of the surface
between its parameters. -/
theorem C152_decompose_u (tol : K) (s : BSurf K V) (hv : s.Valid tol) (fuel : ℕ) (hf : s.nbU ≤ fuel) :
    ∃ L, s.decomposeDir tol .u fuel = some L ∧ L.map (fun q => q.2) = knotIntervals s.kvU ∧
      ∀ q ∈ L, q.1.Valid tol ∧ (q.1.degreeU = s.degreeU ∧ q.1.nbU = s.degreeU + 1 ∧ q.1.kvU = bezierKnots s.degreeU) ∧
        (q.1.degreeV = s.degreeV ∧ q.1.kvV = s.kvV) ∧
        ∀ u v, 0 ≤ u → u ≤ 1 → q.1.eval u v = s.eval (q.2.1 + u * (q.2.2 - q.2.1)) v := by
  obtain ⟨L, h1, h2, h3⟩ := decomposeDir_spec tol .u fuel s hv hf
  refine ⟨L, h1, h2, fun q hq => ?_⟩
  obtain ⟨q1, q2, q3, -, q4⟩ := h3 q hq
  exact ⟨q1, q2, ⟨q3.1, q3.2.1⟩, q4⟩

/-- **C152** the same in v. -/
theorem C152_decompose_v (tol : K) (s : BSurf K V) (hv : s.Valid tol) (fuel : ℕ) (hf : s.nbV ≤ fuel) :
    ∃ L, s.decomposeDir tol .v fuel = some L ∧ L.map (fun q => q.2) = knotIntervals s.kvV ∧
      ∀ q ∈ L, q.1.Valid tol ∧ (q.1.degreeV = s.degreeV ∧ q.1.nbV = s.degreeV + 1 ∧ q.1.kvV = bezierKnots s.degreeV) ∧
        (q.1.degreeU = s.degreeU ∧ q.1.kvU = s.kvU) ∧
        ∀ u v, 0 ≤ v → v ≤ 1 → q.1.eval u v = s.eval u (q.2.1 + v * (q.2.2 - q.2.1)) := by
  obtain ⟨L, h1, h2, h3⟩ := decomposeDir_spec tol .v fuel s hv hf
  refine ⟨L, h1, h2, fun q hq => ?_⟩
  obtain ⟨q1, q2, q3, -, q4⟩ := h3 q hq
  exact ⟨q1, q2, ⟨q3.1, q3.2.1⟩, fun u v => q4 v u⟩

/-- **C152** the decomposition of every valid surface in both directions ends; there is one patch for each pair of an
interval between consecutive distinct u knots and one between consecutive distinct v knots (u first); each is a
Bézier patch of the degrees of the surface, and the point of parameters `(u, v)` of the patch is that of the
surface at the corresponding place of its rectangle. -/
theorem C152_decompose_surface (tol : K) (s : BSurf K V) (hv : s.Valid tol) (fuel : ℕ) (hf : s.nbU ≤ fuel)
    (hf' : s.nbV ≤ fuel) :
    ∃ L, s.decomposeUV tol fuel = some L ∧
      L.map (fun q => q.2) = (knotIntervals s.kvU).flatMap (fun a => (knotIntervals s.kvV).map fun b => (a, b)) ∧
      ∀ q ∈ L, (q.1.degreeU = s.degreeU ∧ q.1.nbU = s.degreeU + 1 ∧ q.1.kvU = bezierKnots s.degreeU) ∧
        (q.1.degreeV = s.degreeV ∧ q.1.nbV = s.degreeV + 1 ∧ q.1.kvV = bezierKnots s.degreeV) ∧
        q.1.ctrlpts.length = (s.degreeU + 1) * (s.degreeV + 1) ∧
        ∀ u v, 0 ≤ u → u ≤ 1 → 0 ≤ v → v ≤ 1 → q.1.eval u v =
          s.eval (q.2.1.1 + u * (q.2.1.2 - q.2.1.1)) (q.2.2.1 + v * (q.2.2.2 - q.2.2.1)) := by
  obtain ⟨L, h1, h2, h3⟩ := decomposeDir_spec tol .u fuel s hv hf
  unfold BSurf.decomposeUV
  rw [h1]
  dsimp only
  change L.map (fun q => q.2) = knotIntervals s.kvU at h2
  rw [← h2]
  clear h1 h2
  have key : ∀ M : List (BSurf K V × K × K), (∀ q ∈ M, q ∈ L) → ∃ R,
      (M.mapM fun q : BSurf K V × K × K =>
        (decomposeDir tol .v fuel q.1).map fun lv : List (BSurf K V × K × K) =>
          lv.map fun r : BSurf K V × K × K => (r.1, q.2, r.2)) = some R ∧
      R.flatten.map (fun q => q.2) =
        (M.map fun q => q.2).flatMap (fun a => (knotIntervals s.kvV).map fun b => (a, b)) ∧
      ∀ q ∈ R.flatten, (q.1.degreeU = s.degreeU ∧ q.1.nbU = s.degreeU + 1 ∧ q.1.kvU = bezierKnots s.degreeU) ∧
        (q.1.degreeV = s.degreeV ∧ q.1.nbV = s.degreeV + 1 ∧ q.1.kvV = bezierKnots s.degreeV) ∧
        q.1.ctrlpts.length = (s.degreeU + 1) * (s.degreeV + 1) ∧
        ∀ u v, 0 ≤ u → u ≤ 1 → 0 ≤ v → v ≤ 1 → q.1.eval u v =
          s.eval (q.2.1.1 + u * (q.2.1.2 - q.2.1.1)) (q.2.2.1 + v * (q.2.2.2 - q.2.2.1)) := by
    intro M
    induction M with
    | nil => intro _; exact ⟨[], rfl, rfl, by simp⟩
    | cons m M ih =>
      intro hM
      obtain ⟨R, i1, i2, i3⟩ := ih fun q hq => hM q (List.mem_cons_of_mem _ hq)
      obtain ⟨m1, ⟨m2, m3, m4⟩, ⟨m5, m6, m7⟩, ⟨m8, m9, m10⟩, m11⟩ := h3 m (hM m (List.mem_cons_self ..))
      change m.1.degreeV = s.degreeV at m5
      change m.1.kvV = s.kvV at m6
      change m.1.nbV = s.nbV at m7
      obtain ⟨T, t1, t2, t3⟩ := decomposeDir_spec tol .v fuel m.1 m1 (by change m.1.nbV ≤ fuel; rw [m7]; exact hf')
      refine ⟨(T.map fun r => (r.1, m.2, r.2)) :: R, ?_, ?_, ?_⟩
      · rw [List.mapM_cons, t1]
        simp [i1]
      · rw [List.flatten_cons, List.map_append, i2, List.map_cons, List.flatMap_cons]
        congr 1
        change T.map (fun q => q.2) = knotIntervals m.1.kvV at t2
        rw [← m6, ← t2, List.map_map, List.map_map]
        rfl
      · intro q hq
        rw [List.flatten_cons] at hq
        rcases List.mem_append.1 hq with hq | hq
        · obtain ⟨r, hr, rfl⟩ := List.mem_map.1 hq
          obtain ⟨r1, ⟨r2, r3, r4⟩, ⟨r5, r6, r7⟩, ⟨r8, r9, r10⟩, r11⟩ := t3 r hr
          change r.1.degreeV = m.1.degreeV at r2
          change r.1.nbV = m.1.degreeV + 1 at r3
          change r.1.kvV = bezierKnots m.1.degreeV at r4
          change r.1.degreeU = m.1.degreeU at r5
          change r.1.kvU = m.1.kvU at r6
          change r.1.nbU = m.1.nbU at r7
          change m.1.degreeU = s.degreeU at m2
          change m.1.nbU = s.degreeU + 1 at m3
          change m.1.kvU = bezierKnots s.degreeU at m4
          refine ⟨⟨by dsimp only; rw [r5, m2], by dsimp only; rw [r7, m3], by dsimp only; rw [r6, m4]⟩,
            ⟨by dsimp only; rw [r2, m5], by dsimp only; rw [r3, m5], by dsimp only; rw [r4, m5]⟩, ?_, ?_⟩
          · dsimp only; rw [r1.len, r7, m3, r3, m5]
          · intro u v hu0 hu1 hv0 hv1
            dsimp only
            have e1 := r11 v u hv0 hv1
            change r.1.eval u v = m.1.eval u (r.2.1 + v * (r.2.2 - r.2.1)) at e1
            have e2 := m11 u (r.2.1 + v * (r.2.2 - r.2.1)) hu0 hu1
            change m.1.eval u _ = s.eval (m.2.1 + u * (m.2.2 - m.2.1)) _ at e2
            rw [e1, e2]
        · exact i3 q hq
  obtain ⟨R, k1, k2, k3⟩ := key L fun _ h => h
  exact ⟨R.flatten, by rw [k1]; rfl, k2, k3⟩

example : ∃ L, (exampleSurf (some exampleWeights)).decomposeUV (1 / 10 ^ 15) 4 = some L ∧
    L.map (fun q => q.2) = [((0, 1 / 2), (0, 1 / 3)), ((0, 1 / 2), (1 / 3, 1)), ((1 / 2, 1), (0, 1 / 3)),
      ((1 / 2, 1), (1 / 3, 1))] ∧ ∀ q ∈ L, q.1.ctrlpts.length = 6 := by
  obtain ⟨L, h1, h2, h3⟩ := C152_decompose_surface (1 / 10 ^ 15) _ exampleSurf_validw 4 (le_refl _) (by decide)
  refine ⟨L, h1, ?_, fun q hq => (h3 q hq).2.2.1⟩
  rw [h2, exampleSurf_kvU, exampleSurf_kvV]
  decide +kernel

end
end Volmdlr
