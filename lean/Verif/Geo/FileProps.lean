import Verif.Geo.Model
import Mathlib.Tactic.Ring
import Mathlib.Tactic.Linarith

/-!
# C126: every `.geo` file is well formed
-/

set_option linter.unusedSectionVars false
namespace Volmdlr.Geo
variable {K : Type*} [Field K] [LinearOrder K]

/-! ### Specification -/

/-- The tags of gmsh are numbered separately for each kind; segments and circles are curves. -/
inductive Kind
  | point
  | curve
  | loop
  | surface
  | surfaceLoop
  | volume
  deriving DecidableEq

/-- What a line defines. -/
def key : Stmt K → Kind × ℕ
  | .point t _ => (.point, t)
  | .line t _ _ => (.curve, t)
  | .circle t _ _ _ => (.curve, t)
  | .loop t _ => (.loop, t)
  | .surface _ t _ => (.surface, t)
  | .surfaceLoop t _ => (.surfaceLoop, t)
  | .volume t _ => (.volume, t)

/-- What a line refers to; a negative number in a loop is a curve taken backwards. -/
def refs : Stmt K → List (Kind × ℕ)
  | .point _ _ => []
  | .line _ a b => [(.point, a), (.point, b)]
  | .circle _ a c b => [(.point, a), (.point, c), (.point, b)]
  | .loop _ l => l.map fun t : ℤ => (Kind.curve, t.natAbs)
  | .surface _ _ l => l.map fun t : ℕ => (Kind.loop, t)
  | .surfaceLoop _ l => l.map fun t : ℕ => (Kind.surface, t)
  | .volume _ t => [(.surfaceLoop, t)]

/-- Each line defines something with a positive tag that no line before it defines, and refers only to what the lines before it define. -/
def WellFormed (S : List (Stmt K)) : Prop :=
  ∀ pre s post, S = pre ++ s :: post → 0 < (key s).2 ∧ key s ∉ pre.map key ∧ ∀ r ∈ refs s, r ∈ pre.map key

/-! ### Proof -/

/-- The greatest tags used so far. -/
structure Bounds where
  point : ℕ
  curve : ℕ
  loop : ℕ
  surface : ℕ
  surfaceLoop : ℕ
  volume : ℕ

/-- The bound for a kind. -/
def Bounds.get (B : Bounds) : Kind → ℕ
  | .point => B.point
  | .curve => B.curve
  | .loop => B.loop
  | .surface => B.surface
  | .surfaceLoop => B.surfaceLoop
  | .volume => B.volume

/-- Well formed, with bounded tags. -/
def Good (S : List (Stmt K)) (B : Bounds) : Prop := WellFormed S ∧ ∀ s ∈ S, (key s).2 ≤ B.get (key s).1

theorem Good.add {S : List (Stmt K)} {B B' : Bounds} {s : Stmt K} (h : Good S B) (hs : B.get (key s).1 < (key s).2) (hr : ∀ r ∈ refs s, r ∈ S.map key)
    (hB : ∀ k, B.get k ≤ B'.get k) (hs' : (key s).2 ≤ B'.get (key s).1) : Good (S ++ [s]) B' := by
  constructor
  · intro pre t post e
    rcases List.eq_nil_or_concat post with rfl | ⟨post', u, rfl⟩
    · obtain ⟨rfl, e'⟩ := List.append_inj' e rfl
      obtain rfl : s = t := by simpa using e'
      refine ⟨by omega, fun hm => ?_, hr⟩
      obtain ⟨u, hu, hk⟩ := List.mem_map.1 hm
      have := h.2 u hu
      rw [hk] at this
      omega
    · rw [List.concat_eq_append, ← List.cons_append, ← List.append_assoc] at e
      obtain ⟨e1, -⟩ := List.append_inj' e rfl
      exact h.1 pre t post' e1
  · intro t ht
    rcases List.mem_append.1 ht with ht | ht
    · exact (h.2 t ht).trans (hB _)
    · rw [List.mem_singleton.1 ht]; exact hs'

theorem Good.weaken {S : List (Stmt K)} {B B' : Bounds} (h : Good S B) (hB : ∀ k, B.get k ≤ B'.get k) : Good S B' :=
  ⟨h.1, fun s hs => (h.2 s hs).trans (hB _)⟩

theorem good_points (account : ℕ) : ∀ (ps : List (V3 K)) (k : ℕ) (S : List (Stmt K)) (B : Bounds), Good S B → B.point = account + k →
    Good (S ++ (ps.zipIdx k).map (fun pi : V3 K × ℕ => Stmt.point (pi.2 + account + 1) pi.1)) {B with point := account + k + ps.length}
  | [], k, S, B, h, hB => by
    simpa using h.weaken (B' := {B with point := account + k + 0}) (by intro x; cases x <;> simp [Bounds.get]; omega)
  | p :: ps, k, S, B, h, hB => by
    have h1 : Good (S ++ [Stmt.point (k + account + 1) p]) {B with point := account + (k + 1)} := by
      refine h.add ?_ (by simp [refs]) ?_ ?_
      · change B.point < k + account + 1; omega
      · intro x; cases x <;> simp [Bounds.get]; omega
      · change k + account + 1 ≤ account + (k + 1); omega
    have h2 := good_points account ps (k + 1) _ _ h1 rfl
    rw [List.zipIdx_cons, List.map_cons, List.append_cons]
    refine h2.weaken ?_
    intro x; cases x <;> simp [Bounds.get]; omega

theorem points_defined (account : ℕ) (ps : List (V3 K)) (S : List (Stmt K)) (i : ℕ) (p : V3 K) (h : ps[i]? = some p) :
    Stmt.point (i + account + 1) p ∈ S ++ ps.zipIdx.map (fun pi : V3 K × ℕ => Stmt.point (pi.2 + account + 1) pi.1) := by
  refine List.mem_append_right _ (List.mem_map.2 ⟨(p, i), ?_, rfl⟩)
  exact List.mk_mem_zipIdx_iff_getElem?.2 h

/-- The points of the shell are defined. -/
def PointsIn (points : List (V3 K)) (account : ℕ) (S : List (Stmt K)) : Prop := ∀ i < points.length, ((Kind.point, i + 1 + account) : Kind × ℕ) ∈ S.map key

theorem PointsIn.append {points : List (V3 K)} {account : ℕ} {S : List (Stmt K)} (h : PointsIn points account S) (l : List (Stmt K)) :
    PointsIn points account (S ++ l) := fun i hi => by rw [List.map_append]; exact List.mem_append_left _ (h i hi)

theorem pointTag_lt {points : List (V3 K)} {account : ℕ} {p : V3 K} {t : ℕ} (h : pointTag points account p = .ok t) : ∃ i < points.length, t = i + 1 + account := by
  unfold pointTag at h
  split at h
  · cases h
  · next i hi =>
    cases h
    exact ⟨i, (List.findIdx?_eq_some_iff_findIdx_eq.1 hi).1, rfl⟩

theorem bind_eq_ok {α β : Type*} {x : Except PyErr α} {f : α → Except PyErr β} {b : β} (h : x.bind f = .ok b) : ∃ a, x = .ok a ∧ f a = .ok b := by
  cases x with
  | error e => cases h
  | ok a => exact ⟨a, rfl, h⟩

theorem defineEdge_key {points : List (V3 K)} {account tag : ℕ} {e : Edge K} {s : Stmt K} {S : List (Stmt K)} (hp : PointsIn points account S)
    (h : defineEdge points account tag e = .ok s) : key s = (.curve, tag) ∧ ∀ r ∈ refs s, r ∈ S.map key := by
  have two : ∀ a b : V3 K, ((pointTag points account a).bind fun i => (pointTag points account b).bind fun j => .ok (Stmt.line tag i j : Stmt K)) = .ok s →
      key s = (.curve, tag) ∧ ∀ r ∈ refs s, r ∈ S.map key := by
    intro a b h
    obtain ⟨i, hi, h⟩ := bind_eq_ok h
    obtain ⟨j, hj, h⟩ := bind_eq_ok h
    cases h
    obtain ⟨i', hi', rfl⟩ := pointTag_lt hi
    obtain ⟨j', hj', rfl⟩ := pointTag_lt hj
    refine ⟨rfl, fun r hr => ?_⟩
    simp only [refs, List.mem_cons, List.not_mem_nil, or_false] at hr
    rcases hr with rfl | rfl
    · exact hp _ hi'
    · exact hp _ hj'
  match e, h with
  | .seg a b, h => exact two a b h
  | .arc a c m b, h =>
    obtain ⟨i, hi, h⟩ := bind_eq_ok h
    obtain ⟨k, hk, h⟩ := bind_eq_ok h
    obtain ⟨j, hj, h⟩ := bind_eq_ok h
    cases h
    obtain ⟨i', hi', rfl⟩ := pointTag_lt hi
    obtain ⟨k', hk', rfl⟩ := pointTag_lt hk
    obtain ⟨j', hj', rfl⟩ := pointTag_lt hj
    refine ⟨rfl, fun r hr => ?_⟩
    simp only [refs, List.mem_cons, List.not_mem_nil, or_false] at hr
    rcases hr with rfl | rfl | rfl
    · exact hp _ hi'
    · exact hp _ hk'
    · exact hp _ hj'
  | .spline (a :: b :: _), h => exact two a b h
  | .spline [_], h => cases h
  | .spline [], h => cases h

/-- The variables of the loops agree with the lines already written. -/
structure Inv (points : List (V3 K)) (account : ℕ) (S : List (Stmt K)) (B : Bounds) (s : State) : Prop where
  good : Good S B
  points : PointsIn points account S
  line : s.lineAccount = B.curve + 1
  check : ∀ t, some t ∈ s.check → ((Kind.curve, t) : Kind × ℕ) ∈ S.map key

theorem inv_edge {points : List (V3 K)} {edges : List (Edge K)} {account : ℕ} {S : List (Stmt K)} {B : Bounds} {s s' : State} {e : Edge K} {o : Output K}
    (h : Inv points account S B s) (ho : edgeTurn points edges account s e = .ok (o, s')) :
    ∃ n, Inv points account (S ++ o.lines) {B with curve := n} s' ∧ ∀ t ∈ o.tags, ((Kind.curve, t.natAbs) : Kind × ℕ) ∈ (S ++ o.lines).map key := by
  unfold edgeTurn at ho
  split at ho
  · cases ho
  next i _ =>
  split at ho
  · cases ho
  next p _ =>
  obtain ⟨⟨o1, s1⟩, h1, h2⟩ := bind_eq_ok ho
  have first : ∃ n, Inv points account (S ++ o1.lines) {B with curve := n} s1 ∧ ∀ t ∈ o1.tags, ((Kind.curve, t.natAbs) : Kind × ℕ) ∈ (S ++ o1.lines).map key := by
    unfold turnForward at h1
    split at h1
    · obtain ⟨l, hl, h1⟩ := bind_eq_ok h1
      cases h1
      obtain ⟨hk, hr⟩ := defineEdge_key h.points hl
      refine ⟨B.curve + 1, ⟨?_, h.points.append _, ?_, ?_⟩, ?_⟩
      · refine h.good.add ?_ hr ?_ ?_
        · rw [hk, h.line]; exact Nat.lt_succ_self _
        · intro x; cases x <;> simp [Bounds.get]
        · rw [hk, h.line]; exact le_rfl
      · rw [h.line]
      · intro t ht
        rw [List.map_append]
        rcases List.mem_or_eq_of_mem_set ht with ht | ht
        · exact List.mem_append_left _ (h.check t ht)
        · refine List.mem_append_right _ ?_
          rw [List.map_singleton, hk, Option.some.inj ht]
          exact List.mem_singleton.2 rfl
      · intro t ht
        rw [List.mem_singleton.1 ht, List.map_append]
        refine List.mem_append_right _ ?_
        rw [List.map_singleton, hk]
        exact List.mem_singleton.2 rfl
    · cases h1
      exact ⟨B.curve, by simpa using h, by simp⟩
  obtain ⟨n, hi, ht⟩ := first
  unfold turnBackward at h2
  split at h2
  · split at h2
    · next t hc =>
      cases h2
      refine ⟨n, hi, fun u hu => ?_⟩
      rcases List.mem_append.1 hu with hu | hu
      · exact ht u hu
      · rw [List.mem_singleton.1 hu, Int.natAbs_neg, Int.natAbs_natCast]
        exact hi.check t (List.mem_of_getElem? hc)
    · cases h2
  · cases h2
    exact ⟨n, hi, ht⟩

theorem mem_keys_append {S : List (Stmt K)} {r : Kind × ℕ} (h : r ∈ S.map key) (l : List (Stmt K)) : r ∈ (S ++ l).map key := by
  rw [List.map_append]; exact List.mem_append_left _ h

theorem inv_contour {points : List (V3 K)} {edges : List (Edge K)} {account : ℕ} : ∀ {c : List (Edge K)} {S : List (Stmt K)} {B : Bounds} {s s' : State}
    {o : Output K}, Inv points account S B s → contourTurns points edges account s c = .ok (o, s') →
    ∃ n, Inv points account (S ++ o.lines) {B with curve := n} s' ∧ ∀ t ∈ o.tags, ((Kind.curve, t.natAbs) : Kind × ℕ) ∈ (S ++ o.lines).map key
  | [], S, B, s, s', o, h, ho => by
    cases ho
    exact ⟨B.curve, by simpa using h, by simp⟩
  | e :: c, S, B, s, s', o, h, ho => by
    obtain ⟨⟨o1, s1⟩, h1, ho⟩ := bind_eq_ok ho
    obtain ⟨⟨o2, s2⟩, h2, ho⟩ := bind_eq_ok ho
    cases ho
    obtain ⟨n, hi, ht⟩ := inv_edge h h1
    obtain ⟨m, hi', ht'⟩ := inv_contour hi h2
    refine ⟨m, by rw [← List.append_assoc]; exact hi', ?_⟩
    intro t hm
    rw [← List.append_assoc]
    rcases List.mem_append.1 hm with hm | hm
    · exact mem_keys_append (ht t hm) _
    · exact ht' t hm

theorem inv_face {points : List (V3 K)} {edges : List (Edge K)} {account : ℕ} : ∀ {cs : List (List (Edge K))} {loops : ℕ} {S : List (Stmt K)} {B : Bounds}
    {s s' : State} {l : List (Stmt K)} {ts : List ℕ}, Inv points account S B s → B.loop = loops → faceTurns points edges account loops s cs = .ok (l, ts, s') →
    ∃ n, Inv points account (S ++ l) {B with curve := n, loop := loops + ts.length} s' ∧ ∀ t ∈ ts, ((Kind.loop, t) : Kind × ℕ) ∈ (S ++ l).map key
  | [], loops, S, B, s, s', l, ts, h, hl, ho => by
    cases ho
    subst hl
    exact ⟨B.curve, by simpa using h, by simp⟩
  | c :: cs, loops, S, B, s, s', l, ts, h, hl, ho => by
    obtain ⟨⟨o1, s1⟩, h1, ho⟩ := bind_eq_ok ho
    obtain ⟨⟨l2, ts2, s2⟩, h2, ho⟩ := bind_eq_ok ho
    cases ho
    obtain ⟨n, hi, ht⟩ := inv_contour h h1
    have hi' : Inv points account ((S ++ o1.lines) ++ [.loop (loops + 1) o1.tags]) {B with curve := n, loop := loops + 1} s1 := by
      refine ⟨hi.good.add ?_ ?_ ?_ ?_, hi.points.append _, hi.line, fun t ht => mem_keys_append (hi.check t ht) _⟩
      · change B.loop < loops + 1; omega
      · intro r hr
        obtain ⟨t, htm, rfl⟩ := List.mem_map.1 hr
        exact ht t htm
      · intro x; cases x <;> simp [Bounds.get]; omega
      · exact le_rfl
    obtain ⟨m, hi2, ht2⟩ := inv_face hi' rfl h2
    have e : S ++ (o1.lines ++ .loop (loops + 1) o1.tags :: l2) = ((S ++ o1.lines) ++ [.loop (loops + 1) o1.tags]) ++ l2 := by simp
    rw [e]
    refine ⟨m, ?_, ?_⟩
    · have : loops + 1 + ts2.length = loops + ((loops + 1) :: ts2).length := by simp; omega
      rw [← this]
      exact hi2
    · intro t hm
      rcases List.mem_cons.1 hm with rfl | hm
      · refine mem_keys_append ?_ _
        rw [List.map_append]
        exact List.mem_append_right _ (List.mem_singleton.2 rfl)
      · exact ht2 t hm

theorem inv_shell {points : List (V3 K)} {edges : List (Edge K)} {account : ℕ} : ∀ {fs : List (Face K)} {loops surfaces loops' : ℕ} {S : List (Stmt K)} {B : Bounds}
    {s s' : State} {l : List (Stmt K)}, Inv points account S B s → B.loop = loops → B.surface = surfaces →
    shellTurns points edges account loops surfaces s fs = .ok (l, loops', s') →
    ∃ n, Inv points account (S ++ l) {B with curve := n, loop := loops', surface := surfaces + fs.length} s' ∧
      ∀ k < fs.length, ((Kind.surface, surfaces + 1 + k) : Kind × ℕ) ∈ (S ++ l).map key
  | [], loops, surfaces, loops', S, B, s, s', l, h, hl, hs, ho => by
    cases ho
    subst hl hs
    exact ⟨B.curve, by simpa using h, by simp⟩
  | f :: fs, loops, surfaces, loops', S, B, s, s', l, h, hl, hs, ho => by
    obtain ⟨⟨l1, ts, s1⟩, h1, ho⟩ := bind_eq_ok ho
    obtain ⟨⟨l2, loops2, s2⟩, h2, ho⟩ := bind_eq_ok ho
    cases ho
    obtain ⟨n, hi, ht⟩ := inv_face h hl h1
    have hi' : Inv points account ((S ++ l1) ++ [.surface f.plane (surfaces + 1) ts]) {B with curve := n, loop := loops + ts.length, surface := surfaces + 1} s1 := by
      refine ⟨hi.good.add ?_ ?_ ?_ ?_, hi.points.append _, hi.line, fun t ht => mem_keys_append (hi.check t ht) _⟩
      · change B.surface < surfaces + 1; omega
      · intro r hr
        obtain ⟨t, htm, rfl⟩ := List.mem_map.1 hr
        exact ht t htm
      · intro x; cases x <;> simp [Bounds.get]; omega
      · exact le_rfl
    obtain ⟨m, hi2, ht2⟩ := inv_shell hi' rfl rfl h2
    have e : S ++ (l1 ++ .surface f.plane (surfaces + 1) ts :: l2) = ((S ++ l1) ++ [.surface f.plane (surfaces + 1) ts]) ++ l2 := by simp
    rw [e]
    refine ⟨m, ?_, ?_⟩
    · have : surfaces + 1 + fs.length = surfaces + (f :: fs).length := by simp; omega
      rw [← this]
      exact hi2
    · intro k hk
      rcases k with _ | k
      · refine mem_keys_append ?_ _
        rw [List.map_append]
        exact List.mem_append_right _ (List.mem_singleton.2 rfl)
      · have := ht2 k (by simpa using hk)
        rwa [show surfaces + 1 + (k + 1) = surfaces + 1 + 1 + k by omega]

/-- The bounds given by the accounts. -/
def Accounts.bounds (d : Accounts) (volume : ℕ) : Bounds := ⟨d.point, d.line, d.lineLoop, d.surface, d.surfaceLoop, volume⟩

theorem last_shell {order : List (V3 K) → List (V3 K)} {d d' : Accounts} {faces : List (Face K)} {l : List (Stmt K)} (ho : shellLines order d faces = .ok (l, d')) :
    l.getLast? = some (.surfaceLoop (1 + d.surfaceLoop) ((List.range faces.length).map fun k : ℕ => d.surface + 1 + k)) := by
  unfold shellLines at ho
  dsimp only at ho
  obtain ⟨⟨l1, loops, s⟩, h1, ho⟩ := bind_eq_ok ho
  cases ho
  simp

theorem good_shell {order : List (V3 K) → List (V3 K)} {d d' : Accounts} {volume : ℕ} {faces : List (Face K)} {S l : List (Stmt K)}
    (h : Good S (d.bounds volume)) (ho : shellLines order d faces = .ok (l, d')) :
    Good (S ++ l) (d'.bounds volume) ∧ l.getLast? = some (.surfaceLoop (1 + d.surfaceLoop) ((List.range faces.length).map fun k : ℕ => d.surface + 1 + k)) := by
  unfold shellLines at ho
  dsimp only at ho
  obtain ⟨⟨l1, loops, s⟩, h1, ho⟩ := bind_eq_ok ho
  cases ho
  have hp := good_points d.point (shellPoints order faces) 0 S _ h rfl
  have hi : Inv (shellPoints order faces) d.point (S ++ (shellPoints order faces).zipIdx.map (fun pi : V3 K × ℕ => Stmt.point (pi.2 + d.point + 1) pi.1))
      {d.bounds volume with point := d.point + 0 + (shellPoints order faces).length} ⟨List.replicate (shellEdges faces).length none, d.line + 1⟩ := by
    refine ⟨hp, ?_, rfl, ?_⟩
    · intro i hi
      refine List.mem_map.2 ⟨_, points_defined d.point (shellPoints order faces) S i _ (List.getElem?_eq_getElem hi), ?_⟩
      change (Kind.point, i + d.point + 1) = (Kind.point, i + 1 + d.point)
      rw [show i + d.point + 1 = i + 1 + d.point by omega]
    · intro t ht
      exact absurd (List.eq_of_mem_replicate ht) (by simp)
  obtain ⟨n, hi2, ht⟩ := inv_shell hi rfl rfl h1
  constructor
  · rw [← List.append_assoc, ← List.append_assoc]
    refine hi2.good.add ?_ ?_ ?_ ?_
    · change d.surfaceLoop < 1 + d.surfaceLoop; omega
    · intro r hr
      obtain ⟨t, htm, rfl⟩ := List.mem_map.1 hr
      obtain ⟨k, hk, rfl⟩ := List.mem_map.1 htm
      exact ht k (List.mem_range.1 hk)
    · have := hi2.line
      dsimp only at this
      intro x; cases x
      · change d.point + 0 + _ ≤ d.point + _; omega
      · change n ≤ d.line + (s.lineAccount - 1); omega
      · change loops ≤ d.lineLoop + loops; omega
      · change d.surface + faces.length ≤ d.surface + faces.length; omega
      · change d.surfaceLoop ≤ d.surfaceLoop + 1; omega
      · exact le_rfl
    · change 1 + d.surfaceLoop ≤ d.surfaceLoop + 1; omega
  · simp

theorem good_model {order : List (V3 K) → List (V3 K)} : ∀ {prims : List (Prim K)} {volume : ℕ} {d : Accounts} {lines S : List (Stmt K)},
    Good lines (d.bounds volume) → modelTurns order volume d lines prims = .ok S → WellFormed S
  | [], volume, d, lines, S, h, ho => by cases ho; exact h.1
  | .closed faces :: l, volume, d, lines, S, h, ho => by
    obtain ⟨⟨l1, d'⟩, h1, ho⟩ := bind_eq_ok ho
    obtain ⟨hg, hl⟩ := good_shell h h1
    dsimp only at ho
    have hlast : (lines ++ l1).getLast? = some (.surfaceLoop (1 + d.surfaceLoop) ((List.range faces.length).map fun k : ℕ => d.surface + 1 + k)) := by
      rw [List.getLast?_append, hl]; rfl
    rw [hlast] at ho
    refine good_model (prims := l) (hg.add ?_ ?_ ?_ ?_) ho
    · exact Nat.lt_succ_self _
    · intro r hr
      rw [List.mem_singleton.1 hr]
      exact List.mem_map.2 ⟨_, List.mem_of_getLast? hlast, rfl⟩
    · intro x; cases x <;> simp [Bounds.get, Accounts.bounds]
    · exact le_rfl
  | .opened faces :: l, volume, d, lines, S, h, ho => by
    obtain ⟨⟨l1, d'⟩, h1, ho⟩ := bind_eq_ok ho
    exact good_model (prims := l) (good_shell h h1).1 ho
  | .other :: l, volume, d, lines, S, h, ho => good_model (prims := l) h ho

/-- **C126** every `.geo` file that is written is well formed: whatever the shells, the order in which sets of points are read, the tolerance effects and the kinds of
edges, each tag is defined once for its kind, is positive, and every reference is to something defined before. -/
theorem C126_well_formed (order : List (V3 K) → List (V3 K)) (prims : List (Prim K)) (S : List (Stmt K)) (h : modelLines order prims = .ok S) : WellFormed S :=
  good_model (d := ⟨0, 0, 0, 0, 0⟩) (volume := 0) (lines := []) ⟨fun pre s post e => by simp at e, by simp⟩ h

/-- A triangle and its back, as a closed shell of two faces, and an open shell of one face with a half-circle. -/
def exampleModel : List (Prim ℚ) :=
  let a : V3 ℚ := ⟨0, 0, 0⟩
  let b : V3 ℚ := ⟨1, 0, 0⟩
  let c : V3 ℚ := ⟨0, 1, 0⟩
  [.opened [⟨true, [[.seg a b, .seg b c, .arc c a ⟨-4 / 5, -3 / 5, 0⟩ b, .seg b a]]⟩], .other,
   .closed [⟨true, [[.seg a b, .seg b c, .seg c a]]⟩, ⟨false, [[.seg b a, .seg a c, .seg c b]]⟩]]

example : ∃ S, modelLines id exampleModel = .ok S ∧ S.length = 3 + 3 + 1 + 1 + 1 + (3 + 3 + 1 + 1 + 1 + 1 + 1 + 1) ∧ WellFormed S := by
  have h : (match modelLines id exampleModel with
    | .ok S => decide (S.length = 21)
    | .error _ => false) = true := by decide +kernel
  cases hS : modelLines id exampleModel with
  | error e => rw [hS] at h; cases h
  | ok S => rw [hS] at h; exact ⟨S, rfl, of_decide_eq_true h, C126_well_formed _ _ _ hS⟩

end Volmdlr.Geo
