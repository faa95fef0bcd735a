import Verif.Wire.Model
import Verif.Vec.Model
import Mathlib.Data.List.Chain
import Mathlib.Data.List.Forall2
import Mathlib.Data.List.Perm.Basic
import Mathlib.Tactic.Push
import Mathlib.Algebra.Order.Ring.Rat
import Mathlib.Tactic.NormNum
import Mathlib.Tactic.Positivity

/-!
# C51: ordering the primitives of a wire
-/

namespace Volmdlr.Wire

variable {E P K : Type} [Field K] [LinearOrder K] [IsStrictOrderedRing K] (k : EdgeKit E P K)

/-! ## Specification -/

/-- `b` starts where `a` ends, up to the tolerance. -/
def Follows (tol : K) (a b : E) : Prop := k.dist (k.fin a) (k.start b) ≤ tol

/-- The lists agree up to the orientation of the edges. -/
def UpToOrientation (l l' : List E) : Prop := List.Forall₂ (fun e e' => e' = e ∨ e' = k.reverse e) l l'

/-- The two edges have an extremity in common, up to the tolerance. -/
def Touch (tol : K) (a b : E) : Prop :=
  ∃ p ∈ [k.start a, k.fin a], ∃ q ∈ [k.start b, k.fin b], k.dist p q ≤ tol

/-- The point is an extremity of one of the edges. -/
def IsExtremityOf (l : List E) (p : P) : Prop := ∃ e ∈ l, p = k.start e ∨ p = k.fin e

/-- The number of extremities of edges of the list at the point `p`. -/
def ends (tol : K) (p : P) (l : List E) : ℕ :=
  (l.map fun e => (if k.dist (k.start e) p ≤ tol then 1 else 0) + if k.dist (k.fin e) p ≤ tol then 1 else 0).sum

/-! ## Closeness -/

lemma isClose_iff {tol : K} (htol : 0 ≤ tol) (p q : P) : isClose k p q tol = true ↔ k.dist p q ≤ tol := by
  unfold isClose mathIsClose
  rw [decide_eq_true_iff, sub_zero, abs_of_nonneg (k.dist_nonneg p q), abs_zero, max_eq_left (k.dist_nonneg p q), le_max_iff]
  constructor
  · rintro (h | h)
    · have h0 := k.dist_nonneg p q
      have : k.dist p q ≤ 0 := by
        by_contra hc
        push Not at hc
        have : 1 / 10 ^ 9 * k.dist p q < 1 * k.dist p q := mul_lt_mul_of_pos_right (by norm_num) hc
        linarith
      linarith
    · exact h
  · exact Or.inr

lemma isExtremity_iff {tol : K} (htol : 0 ≤ tol) (e : E) (p : P) :
    isExtremity k e p tol = true ↔ k.dist (k.start e) p ≤ tol ∨ k.dist (k.fin e) p ≤ tol := by
  unfold isExtremity
  rw [Bool.or_eq_true, isClose_iff k htol, isClose_iff k htol]

lemma notDegenerate_eq {tol : K} (htol : 0 ≤ tol) (prims : List E) :
    notDegenerate k tol prims = prims.filter fun e => decide (tol < k.length e) := by
  unfold notDegenerate
  congr 1
  funext e
  have h0 := k.length_nonneg e
  unfold mathIsClose
  rw [sub_zero, abs_of_nonneg h0, abs_zero, max_eq_left h0]
  by_cases h : tol < k.length e
  · rw [decide_eq_true h]
    have : ¬ k.length e ≤ max (1 / 10 ^ 9 * k.length e) tol := by
      push Not
      refine max_lt ?_ h
      have hp : 0 < k.length e := lt_of_le_of_lt htol h
      have : 1 / 10 ^ 9 * k.length e < 1 * k.length e := mul_lt_mul_of_pos_right (by norm_num) hp
      linarith
    rw [decide_eq_false this]; rfl
  · rw [decide_eq_false h]
    have : k.length e ≤ max (1 / 10 ^ 9 * k.length e) tol := le_max_of_le_right (not_lt.1 h)
    rw [decide_eq_true this]; rfl

/-! ## One step -/

lemma orderStep_some {tol : K} (htol : 0 ≤ tol) {prims new new' : List E} {e : E} (h : orderStep k tol prims new = some (e, new')) :
    e ∈ prims ∧ ∃ e', (e' = e ∨ e' = k.reverse e) ∧
      ((∃ last ∈ new.getLast?, new' = new ++ [e'] ∧ Follows k tol last e') ∨
       (∃ first ∈ new.head?, new' = e' :: new ∧ Follows k tol e' first)) := by
  induction prims with
  | nil => simp [orderStep] at h
  | cons a l ih =>
    unfold orderStep at h
    rcases hf : new.head? with _ | first
    · rw [hf] at h; simp at h
    rcases hl : new.getLast? with _ | last
    · rw [hf, hl] at h; simp at h
    rw [hf, hl] at h
    dsimp only at h
    by_cases h1 : isExtremity k a (k.fin last) tol = true
    · rw [if_pos h1] at h
      rw [isExtremity_iff k htol] at h1
      by_cases h2 : isClose k (k.fin last) (k.start a) tol = true
      · rw [if_pos h2] at h
        obtain ⟨rfl, rfl⟩ := Prod.mk.inj (Option.some.inj h)
        refine ⟨List.mem_cons_self, a, Or.inl rfl, Or.inl ⟨last, rfl, rfl, ?_⟩⟩
        exact (isClose_iff k htol _ _).1 h2
      · rw [if_neg h2] at h
        obtain ⟨rfl, rfl⟩ := Prod.mk.inj (Option.some.inj h)
        refine ⟨List.mem_cons_self, _, Or.inr rfl, Or.inl ⟨last, rfl, rfl, ?_⟩⟩
        rw [isClose_iff k htol, k.dist_comm] at h2
        unfold Follows
        rw [k.reverse_start, k.dist_comm]
        exact h1.resolve_left h2
    · rw [if_neg h1] at h
      by_cases h3 : isExtremity k a (k.start first) tol = true
      · rw [if_pos h3] at h
        rw [isExtremity_iff k htol] at h3
        by_cases h2 : isClose k (k.start first) (k.fin a) tol = true
        · rw [if_pos h2] at h
          obtain ⟨rfl, rfl⟩ := Prod.mk.inj (Option.some.inj h)
          refine ⟨List.mem_cons_self, a, Or.inl rfl, Or.inr ⟨first, rfl, rfl, ?_⟩⟩
          unfold Follows
          rw [k.dist_comm]
          exact (isClose_iff k htol _ _).1 h2
        · rw [if_neg h2] at h
          obtain ⟨rfl, rfl⟩ := Prod.mk.inj (Option.some.inj h)
          refine ⟨List.mem_cons_self, _, Or.inr rfl, Or.inr ⟨first, rfl, rfl, ?_⟩⟩
          rw [isClose_iff k htol, k.dist_comm] at h2
          unfold Follows
          rw [k.reverse_fin]
          exact h3.resolve_right h2
      · rw [if_neg h3] at h
        obtain ⟨hm, rest⟩ := ih h
        rw [hf, hl] at rest
        exact ⟨List.mem_cons_of_mem _ hm, rest⟩

lemma orderStep_none {tol : K} (htol : 0 ≤ tol) {prims new : List E} {first last : E} (hf : first ∈ new.head?) (hl : last ∈ new.getLast?)
    (h : orderStep k tol prims new = none) : ∀ e ∈ prims,
      ¬ (k.dist (k.start e) (k.fin last) ≤ tol ∨ k.dist (k.fin e) (k.fin last) ≤ tol ∨
         k.dist (k.start e) (k.start first) ≤ tol ∨ k.dist (k.fin e) (k.start first) ≤ tol) := by
  induction prims with
  | nil => simp
  | cons a l ih =>
    unfold orderStep at h
    rw [Option.mem_def] at hf hl
    rw [hf, hl] at h
    dsimp only at h
    by_cases h1 : isExtremity k a (k.fin last) tol = true
    · rw [if_pos h1] at h
      split at h <;> simp at h
    · rw [if_neg h1] at h
      by_cases h3 : isExtremity k a (k.start first) tol = true
      · rw [if_pos h3] at h
        split at h <;> simp at h
      · rw [if_neg h3] at h
        rw [isExtremity_iff k htol] at h1 h3
        intro e he
        rcases List.mem_cons.1 he with rfl | he
        · tauto
        · exact ih h e he

/-! ## The loop -/

lemma follows_append {tol : K} {new : List E} {e' last : E} (hl : last ∈ new.getLast?) (hch : new.IsChain (Follows k tol))
    (h : Follows k tol last e') : (new ++ [e']).IsChain (Follows k tol) := by
  rw [List.isChain_append]
  refine ⟨hch, List.isChain_singleton _, ?_⟩
  intro x hx y hy
  rw [Option.mem_def] at hl hx
  rw [hl] at hx
  simp at hy
  obtain rfl := Option.some.inj hx
  rw [← hy]
  exact h

lemma follows_cons {tol : K} {new : List E} {e' first : E} (hf : first ∈ new.head?) (hch : new.IsChain (Follows k tol))
    (h : Follows k tol e' first) : (e' :: new).IsChain (Follows k tol) := by
  rw [List.isChain_cons]
  refine ⟨?_, hch⟩
  intro y hy
  rw [Option.mem_def] at hf hy
  rw [hf] at hy
  obtain rfl := Option.some.inj hy
  exact h

lemma orderLoop_ok [DecidableEq E] {tol : K} (htol : 0 ≤ tol) : ∀ (n : ℕ) (prims new used res : List E),
    new.IsChain (Follows k tol) → UpToOrientation k used new → orderLoop k tol n prims new = .ok res →
    res.IsChain (Follows k tol) ∧ ∃ l, l.Perm (used ++ prims) ∧ UpToOrientation k l res := by
  intro n
  induction n with
  | zero =>
    intro prims new used res hch hu h
    rcases prims with _ | ⟨a, l⟩
    · simp only [orderLoop] at h
      obtain rfl := Except.ok.inj h
      exact ⟨hch, used, by simp, hu⟩
    · simp only [orderLoop] at h
      cases h
  | succ n ih =>
    intro prims new used res hch hu h
    rcases prims with _ | ⟨a, l⟩
    · simp only [orderLoop] at h
      obtain rfl := Except.ok.inj h
      exact ⟨hch, used, by simp, hu⟩
    · rw [show orderLoop k tol (n + 1) (a :: l) new = (match orderStep k tol (a :: l) new with
        | none => .error .notImplemented
        | some (e, new') => orderLoop k tol n ((a :: l).erase e) new') from rfl] at h
      rcases hs : orderStep k tol (a :: l) new with _ | ⟨e, new'⟩
      · rw [hs] at h; cases h
      · rw [hs] at h
        dsimp only at h
        obtain ⟨he, e', hor, hcase⟩ := orderStep_some k htol hs
        have hp : (e :: (a :: l).erase e).Perm (a :: l) := (List.perm_cons_erase he).symm
        rcases hcase with ⟨last, hlast, rfl, hfol⟩ | ⟨first, hfirst, rfl, hfol⟩
        · obtain ⟨h1, l', hl', h2⟩ := ih _ _ (used ++ [e]) res (follows_append k hlast hch hfol)
            (List.rel_append hu (List.Forall₂.cons hor List.Forall₂.nil)) h
          refine ⟨h1, l', hl'.trans ?_, h2⟩
          rw [List.append_assoc]
          exact (List.Perm.append_left used hp)
        · obtain ⟨h1, l', hl', h2⟩ := ih _ _ (e :: used) res (follows_cons k hfirst hch hfol)
            (List.Forall₂.cons hor hu) h
          refine ⟨h1, l', hl'.trans ?_, h2⟩
          rw [List.cons_append]
          exact (List.perm_middle.symm).trans (List.Perm.append_left used hp)

/-- **C51.** What `ordering_primitives` returns is a chain in which every edge starts where the previous one ends, made of the
edges longer than the tolerance, each used exactly once, reversed or not. -/
theorem C51_ordering_primitives [DecidableEq E] {tol : K} (htol : 0 ≤ tol) (prims res : List E)
    (h : orderingPrimitives k tol prims = .ok res) :
    res.IsChain (Follows k tol) ∧
    ∃ l, l.Perm (prims.filter fun e => decide (tol < k.length e)) ∧ UpToOrientation k l res := by
  unfold orderingPrimitives at h
  rw [notDegenerate_eq k htol] at h
  rcases hd : (prims.filter fun e => decide (tol < k.length e)) with _ | ⟨e, es⟩
  · rw [hd] at h; cases h
  · rw [hd] at h
    dsimp only at h
    obtain ⟨h1, l, hl, h2⟩ := orderLoop_ok k htol _ _ _ [e] _ (List.isChain_singleton _)
      (List.Forall₂.cons (Or.inl rfl) List.Forall₂.nil) h
    exact ⟨h1, l, by simpa using hl, h2⟩

lemma wireIsOrdered_iff {tol : K} (l : List E) : wireIsOrdered k tol l = true ↔ l.IsChain (Follows k tol) := by
  induction l with
  | nil => simp [wireIsOrdered]
  | cons a l ih =>
    rcases l with _ | ⟨b, l⟩
    · simp [wireIsOrdered]
    · rw [show wireIsOrdered k tol (a :: b :: l) =
        if k.dist (k.fin a) (k.start b) > tol then false else wireIsOrdered k tol (b :: l) from rfl]
      rw [List.isChain_cons_cons]
      by_cases h : k.dist (k.fin a) (k.start b) > tol
      · rw [if_pos h]
        simp only [Bool.false_eq_true, false_iff, not_and]
        intro hf
        exact absurd hf (not_le.2 h)
      · rw [if_neg h, ih]
        exact ⟨fun hc => ⟨not_lt.1 h, hc⟩, fun hc => hc.2⟩

/-- **C51.** `order_wire`: the result is ordered (`is_ordered` is true of it) and is either the list given, when that was already
ordered, or made of its edges longer than the tolerance, each used exactly once, reversed or not. -/
theorem C51_order_wire [DecidableEq E] {tol : K} (htol : 0 ≤ tol) (prims res : List E) (h : orderWire k tol prims = .ok res) :
    wireIsOrdered k tol res = true ∧
    (res = prims ∨ ∃ l, l.Perm (prims.filter fun e => decide (tol < k.length e)) ∧ UpToOrientation k l res) := by
  unfold orderWire at h
  by_cases ho : wireIsOrdered k tol prims = true
  · rw [if_pos ho] at h
    obtain rfl := Except.ok.inj h
    exact ⟨ho, Or.inl rfl⟩
  · rw [if_neg ho] at h
    obtain ⟨h1, h2⟩ := C51_ordering_primitives k htol prims res h
    exact ⟨(wireIsOrdered_iff k res).2 h1, Or.inr h2⟩

/-- **C51.** `is_ordered` says exactly whether every edge starts where the previous one ends. -/
theorem C51_is_ordered {tol : K} (prims : List E) : wireIsOrdered k tol prims = true ↔ prims.IsChain (Follows k tol) :=
  wireIsOrdered_iff k prims

lemma orderLoop_error [DecidableEq E] {tol : K} (htol : 0 ≤ tol) : ∀ (n : ℕ) (prims new : List E) (err : WireError), new ≠ [] →
    prims.length ≤ n → orderLoop k tol n prims new = .error err →
    err = .notImplemented := by
  intro n
  induction n with
  | zero =>
    intro prims new err hne hlen h
    obtain rfl := List.length_eq_zero_iff.1 (Nat.le_zero.1 hlen)
    simp [orderLoop] at h
  | succ n ih =>
    intro prims new err hne hlen h
    rcases prims with _ | ⟨a, l⟩
    · simp [orderLoop] at h
    · rw [show orderLoop k tol (n + 1) (a :: l) new = (match orderStep k tol (a :: l) new with
        | none => .error .notImplemented
        | some (e, new') => orderLoop k tol n ((a :: l).erase e) new') from rfl] at h
      rcases hs : orderStep k tol (a :: l) new with _ | ⟨e, new'⟩
      · rw [hs] at h
        exact (Except.error.inj h).symm
      · rw [hs] at h
        dsimp only at h
        obtain ⟨he, e', hor, hcase⟩ := orderStep_some k htol hs
        have hlen' : ((a :: l).erase e).length ≤ n := by
          rw [List.length_erase_of_mem he]
          simp at hlen ⊢
          omega
        refine ih _ _ err ?_ hlen' h
        rcases hcase with ⟨_, _, rfl, _⟩ | ⟨_, _, rfl, _⟩ <;> simp

/-- **C51.** It always ends: with a chain, or with an exception, `IndexError` if and only if no edge is longer than the tolerance,
and `NotImplementedError` otherwise. -/
theorem C51_exceptions [DecidableEq E] {tol : K} (htol : 0 ≤ tol) (prims : List E) (err : WireError)
    (h : orderingPrimitives k tol prims = .error err) :
    (err = .indexError ∧ ∀ e ∈ prims, k.length e ≤ tol) ∨ (err = .notImplemented ∧ ∃ e ∈ prims, tol < k.length e) := by
  unfold orderingPrimitives at h
  rw [notDegenerate_eq k htol] at h
  rcases hd : (prims.filter fun e => decide (tol < k.length e)) with _ | ⟨e, es⟩
  · rw [hd] at h
    left
    refine ⟨(Except.error.inj h).symm, fun e he => ?_⟩
    rw [List.filter_eq_nil_iff] at hd
    have := hd e he
    simpa using this
  · rw [hd] at h
    dsimp only at h
    right
    refine ⟨orderLoop_error k htol _ _ _ err (by simp) le_rfl h, e, ?_⟩
    have : e ∈ prims.filter fun e => decide (tol < k.length e) := by rw [hd]; exact List.mem_cons_self
    rw [List.mem_filter] at this
    exact ⟨this.1, by simpa using this.2⟩

/-! ## Completeness -/

lemma ends_append (tol : K) (p : P) (l l' : List E) : ends k tol p (l ++ l') = ends k tol p l + ends k tol p l' := by
  simp [ends]

lemma ends_perm (tol : K) (p : P) {l l' : List E} (h : l.Perm l') : ends k tol p l = ends k tol p l' :=
  (h.map _).sum_eq

lemma ends_orientation (tol : K) (p : P) {l l' : List E} (h : UpToOrientation k l l') : ends k tol p l' = ends k tol p l := by
  induction h with
  | nil => rfl
  | cons hab _ ih =>
    simp only [ends, List.map_cons, List.sum_cons] at ih ⊢
    rw [ih]
    rcases hab with rfl | rfl
    · rfl
    · rw [k.reverse_start, k.reverse_fin]; omega

lemma ends_pos (tol : K) (p : P) {l : List E} {e : E} (he : e ∈ l) (h : k.dist (k.start e) p ≤ tol ∨ k.dist (k.fin e) p ≤ tol) :
    1 ≤ ends k tol p l := by
  induction l with
  | nil => simp at he
  | cons a l ih =>
    simp only [ends, List.map_cons, List.sum_cons] at ih ⊢
    rcases List.mem_cons.1 he with rfl | he
    · rcases h with h | h <;> rw [if_pos h] <;> omega
    · have := ih he; omega

/-- An inner point of a chain is the extremity of two edges. -/
lemma ends_inner {tol : K} (X : P → Prop)
    (htrans : ∀ p q r, X p → X q → X r → k.dist p q ≤ tol → k.dist q r ≤ tol → k.dist p r ≤ tol) (p : P) (hXp : X p) :
    ∀ (l : List E) (first last : E), (∀ e ∈ l, X (k.start e) ∧ X (k.fin e)) → l.IsChain (Follows k tol) → first ∈ l.head? → last ∈ l.getLast? →
    (∃ e ∈ l, k.dist (k.start e) p ≤ tol ∨ k.dist (k.fin e) p ≤ tol) → ¬ k.dist (k.start first) p ≤ tol →
    ¬ k.dist (k.fin last) p ≤ tol → 2 ≤ ends k tol p l := by
  intro l
  induction l with
  | nil => intro first last _ _ hf; simp at hf
  | cons a l ih =>
    intro first last hX hch hf hl ⟨e, he, hep⟩ hns hnf
    simp at hf; subst hf
    rcases l with _ | ⟨b, l⟩
    · simp at hl; subst hl
      simp at he; subst he
      tauto
    · rw [List.isChain_cons_cons] at hch
      obtain ⟨hab, hch⟩ := hch
      have hXa := hX a List.mem_cons_self
      have hXb := hX b (List.mem_cons_of_mem _ List.mem_cons_self)
      have hl' : last ∈ (b :: l).getLast? := by simpa using hl
      by_cases hp : k.dist (k.fin a) p ≤ tol
      · have hb : k.dist (k.start b) p ≤ tol := by
          refine htrans _ (k.fin a) _ hXb.1 hXa.2 hXp ?_ hp
          rw [k.dist_comm]; exact hab
        have := ends_pos k tol p (l := b :: l) List.mem_cons_self (Or.inl hb)
        simp only [ends, List.map_cons, List.sum_cons] at this ⊢
        rw [if_pos hp]; omega
      · have hb : ¬ k.dist (k.start b) p ≤ tol := fun hb => hp (htrans _ (k.start b) _ hXa.2 hXb.1 hXp hab hb)
        have he' : e ∈ b :: l := by
          rcases List.mem_cons.1 he with rfl | h
          · exact absurd hep (by tauto)
          · exact h
        have := ih b last (fun e he => hX e (List.mem_cons_of_mem _ he)) hch (by simp) hl' ⟨e, he', hep⟩ hb hnf
        simp only [ends, List.map_cons, List.sum_cons] at this ⊢
        omega

lemma orderLoop_complete [DecidableEq E] {tol : K} (htol : 0 ≤ tol) (X : P → Prop)
    (htrans : ∀ p q r, X p → X q → X r → k.dist p q ≤ tol → k.dist q r ≤ tol → k.dist p r ≤ tol) (all : List E)
    (hX : ∀ e ∈ all, X (k.start e) ∧ X (k.fin e))
    (hends : ∀ p, X p → ends k tol p all ≤ 2)
    (hconn : ∀ S T : List E, S ≠ [] → T ≠ [] → (S ++ T).Perm all → ∃ s ∈ S, ∃ t ∈ T, Touch k tol s t) :
    ∀ (n : ℕ) (prims new used : List E), prims.length ≤ n → new ≠ [] → new.IsChain (Follows k tol) → UpToOrientation k used new →
    (used ++ prims).Perm all → ∃ res, orderLoop k tol n prims new = .ok res := by
  intro n
  induction n with
  | zero =>
    intro prims new used hlen _ _ _ _
    obtain rfl := List.length_eq_zero_iff.1 (Nat.le_zero.1 hlen)
    exact ⟨new, rfl⟩
  | succ n ih =>
    intro prims new used hlen hne hch hu hperm
    rcases prims with _ | ⟨a, l⟩
    · exact ⟨new, rfl⟩
    · rw [show orderLoop k tol (n + 1) (a :: l) new = (match orderStep k tol (a :: l) new with
        | none => .error .notImplemented
        | some (e, new') => orderLoop k tol n ((a :: l).erase e) new') from rfl]
      rcases hs : orderStep k tol (a :: l) new with _ | ⟨e, new'⟩
      · exfalso
        have hf : new.head hne ∈ new.head? := List.head?_eq_some_head hne
        have hl : new.getLast hne ∈ new.getLast? := List.getLast?_eq_some_getLast hne
        have hnone := orderStep_none k htol hf hl hs
        have hune : used ≠ [] := by
          rintro rfl
          have := List.Forall₂.length_eq hu
          simp at this
          exact hne (List.length_eq_zero_iff.1 this.symm)
        obtain ⟨s, hs', t, ht, p, hp, q, hq, hpq⟩ := hconn used (a :: l) hune (by simp) hperm
        have hsX := hX s (hperm.subset (List.mem_append_left _ hs'))
        have htX := hX t (hperm.subset (List.mem_append_right _ ht))
        have hpX : X p := by
          simp at hp
          rcases hp with rfl | rfl
          · exact hsX.1
          · exact hsX.2
        have hqX : X q := by
          simp at hq
          rcases hq with rfl | rfl
          · exact htX.1
          · exact htX.2
        have hnewX : ∀ e ∈ new, X (k.start e) ∧ X (k.fin e) := by
          have husedX : ∀ e ∈ used, X (k.start e) ∧ X (k.fin e) := fun e he => hX e (hperm.subset (List.mem_append_left _ he))
          clear * - hu husedX
          induction hu with
          | nil => simp
          | cons hab _ ih =>
            intro e he
            rcases List.mem_cons.1 he with rfl | h
            · have := husedX _ List.mem_cons_self
              rcases hab with rfl | rfl
              · exact this
              · rw [k.reverse_start, k.reverse_fin]; exact this.symm
            · exact ih (fun e he => husedX e (List.mem_cons_of_mem _ he)) e h
        -- the point `q` is an extremity of an edge of the chain
        have hin : ∃ e ∈ new, k.dist (k.start e) q ≤ tol ∨ k.dist (k.fin e) q ≤ tol := by
          have hsq : k.dist (k.start s) q ≤ tol ∨ k.dist (k.fin s) q ≤ tol := by
            simp at hp
            rcases hp with rfl | rfl
            · exact Or.inl hpq
            · exact Or.inr hpq
          clear * - hu hs' hsq
          induction hu with
          | nil => simp at hs'
          | cons hab _ ih =>
            rcases List.mem_cons.1 hs' with rfl | h
            · refine ⟨_, List.mem_cons_self, ?_⟩
              rcases hab with rfl | rfl
              · exact hsq
              · rw [k.reverse_start, k.reverse_fin]; exact hsq.symm
            · obtain ⟨e, he, h'⟩ := ih h
              exact ⟨e, List.mem_cons_of_mem _ he, h'⟩
        have hnt := hnone t ht
        have hqt : k.dist (k.start t) q ≤ tol ∨ k.dist (k.fin t) q ≤ tol := by
          have h0 : k.dist q q ≤ tol := htrans q p q hqX hpX hqX (by rw [k.dist_comm]; exact hpq) hpq
          simp at hq
          rcases hq with rfl | rfl
          · exact Or.inl h0
          · exact Or.inr h0
        have hself : ∀ x : P, X x → k.dist x q ≤ tol → ∀ y : P, X y → k.dist y q ≤ tol → k.dist y x ≤ tol := by
          intro x hXx hx y hXy hy
          exact htrans y q x hXy hqX hXx hy (by rw [k.dist_comm]; exact hx)
        have h1 : ¬ k.dist (k.start (new.head hne)) q ≤ tol := by
          intro h
          rcases hqt with ht' | ht'
          · exact hnt (Or.inr (Or.inr (Or.inl (hself _ (hnewX _ (List.head_mem hne)).1 h _ htX.1 ht'))))
          · exact hnt (Or.inr (Or.inr (Or.inr (hself _ (hnewX _ (List.head_mem hne)).1 h _ htX.2 ht'))))
        have h2 : ¬ k.dist (k.fin (new.getLast hne)) q ≤ tol := by
          intro h
          rcases hqt with ht' | ht'
          · exact hnt (Or.inl (hself _ (hnewX _ (List.getLast_mem hne)).2 h _ htX.1 ht'))
          · exact hnt (Or.inr (Or.inl (hself _ (hnewX _ (List.getLast_mem hne)).2 h _ htX.2 ht')))
        have h3 := ends_inner k X htrans q hqX new _ _ hnewX hch hf hl hin h1 h2
        rw [ends_orientation k tol q hu] at h3
        have h4 := ends_pos k tol q ht hqt
        have h5 := hends q hqX
        rw [← ends_perm k tol q hperm, ends_append] at h5
        omega
      · dsimp only
        obtain ⟨he, e', hor, hcase⟩ := orderStep_some k htol hs
        have hlen' : ((a :: l).erase e).length ≤ n := by
          rw [List.length_erase_of_mem he]
          simp at hlen ⊢
          omega
        have hp : (e :: (a :: l).erase e).Perm (a :: l) := (List.perm_cons_erase he).symm
        rcases hcase with ⟨last, hlast, rfl, hfol⟩ | ⟨first, hfirst, rfl, hfol⟩
        · refine ih _ _ (used ++ [e]) hlen' (by simp) (follows_append k hlast hch hfol)
            (List.rel_append hu (List.Forall₂.cons hor List.Forall₂.nil)) ?_
          rw [List.append_assoc]
          exact (List.Perm.append_left used hp).trans hperm
        · refine ih _ _ (e :: used) hlen' (by simp) (follows_cons k hfirst hch hfol) (List.Forall₂.cons hor hu) ?_
          rw [List.cons_append]
          exact (List.perm_middle.symm).trans ((List.Perm.append_left used hp).trans hperm)

/-- **C51.** Ordering does not fail on the edges of a path or of a closed contour, given in any order and with any orientations:
if closeness up to the tolerance is transitive on their extremities, the edges (longer than the tolerance) are connected, and at most two of their
extremities are at the same place, a chain is returned. -/
theorem C51_succeeds [DecidableEq E] {tol : K} (htol : 0 ≤ tol)
    (prims : List E) (hne : prims ≠ [])
    (htrans : ∀ p q r, IsExtremityOf k prims p → IsExtremityOf k prims q → IsExtremityOf k prims r →
      k.dist p q ≤ tol → k.dist q r ≤ tol → k.dist p r ≤ tol)
    (hlen : ∀ e ∈ prims, tol < k.length e) (hends : ∀ p, IsExtremityOf k prims p → ends k tol p prims ≤ 2)
    (hconn : ∀ S T : List E, S ≠ [] → T ≠ [] → (S ++ T).Perm prims → ∃ s ∈ S, ∃ t ∈ T, Touch k tol s t) :
    ∃ res, orderingPrimitives k tol prims = .ok res := by
  unfold orderingPrimitives
  rw [notDegenerate_eq k htol, List.filter_eq_self.2 (fun e he => by simpa using hlen e he)]
  rcases prims with _ | ⟨e, es⟩
  · exact absurd rfl hne
  · exact orderLoop_complete k htol _ htrans (e :: es) (fun a ha => ⟨⟨a, ha, Or.inl rfl⟩, ⟨a, ha, Or.inr rfl⟩⟩) hends hconn _ _ _ [e] le_rfl (by simp) (List.isChain_singleton _)
      (List.Forall₂.cons (Or.inl rfl) List.Forall₂.nil) (by simp)

/-! ## Example: line segments with rational extremities -/

/-- Segments of a line, as an edge kit. -/
def C51_segments : EdgeKit (ℚ × ℚ) ℚ ℚ where
  start := Prod.fst
  fin := Prod.snd
  reverse := Prod.swap
  length e := |e.1 - e.2|
  pointAt e s := e.1 + s * (if e.1 ≤ e.2 then 1 else -1)
  edgeClose e e' tol := decide (|e.1 - e'.1| ≤ tol) && decide (|e.2 - e'.2| ≤ tol)
  dist p q := |p - q|
  reverse_start _ := rfl
  reverse_fin _ := rfl
  reverse_length e := abs_sub_comm _ _
  length_nonneg _ := abs_nonneg _
  dist_nonneg _ _ := abs_nonneg _
  dist_comm _ _ := abs_sub_comm _ _

/-- Four segments in disorder, one of them degenerate, with tolerance 1/10. -/
example : orderingPrimitives C51_segments (1 / 10) [(1, 2), (1, 0), (3, 3), (5, 2)] = .ok [(0, 1), (1, 2), (2, 5)] := by
  decide +kernel

/-- Two separate segments cannot be ordered. -/
example : orderingPrimitives C51_segments (1 / 10) [(1, 2), (4, 5)] = .error .notImplemented := by
  decide +kernel

/-- The hypotheses of `C51_succeeds` are met by two segments which only touch up to the tolerance. -/
example : ∃ res, orderingPrimitives C51_segments (1 / 2) [(1, 2), (5 / 4, 0)] = .ok res := by
  have hx : ∀ p, IsExtremityOf C51_segments [(1, 2), (5 / 4, 0)] p → p = 1 ∨ p = 2 ∨ p = 5 / 4 ∨ p = 0 := by
    rintro p ⟨e, he, hp⟩
    simp only [List.mem_cons, List.not_mem_nil, or_false] at he
    rcases he with rfl | rfl
    · rcases hp with h | h
      · exact Or.inl h
      · exact Or.inr (Or.inl h)
    · rcases hp with h | h
      · exact Or.inr (Or.inr (Or.inl h))
      · exact Or.inr (Or.inr (Or.inr h))
  refine C51_succeeds C51_segments (by norm_num) _ (by simp) ?_ ?_ ?_ ?_
  · intro p q r hp hq hr
    rcases hx p hp with rfl | rfl | rfl | rfl <;> rcases hx q hq with rfl | rfl | rfl | rfl <;>
      rcases hx r hr with rfl | rfl | rfl | rfl <;> decide +kernel
  · decide +kernel
  · intro p hp
    rcases hx p hp with rfl | rfl | rfl | rfl <;> decide +kernel
  · intro S T hS hT hperm
    obtain ⟨s, hs⟩ := List.exists_mem_of_ne_nil S hS
    obtain ⟨t, ht⟩ := List.exists_mem_of_ne_nil T hT
    have hs' : s ∈ [((1 : ℚ), (2 : ℚ)), (5 / 4, 0)] := hperm.subset (List.mem_append_left _ hs)
    have ht' : t ∈ [((1 : ℚ), (2 : ℚ)), (5 / 4, 0)] := hperm.subset (List.mem_append_right _ ht)
    refine ⟨s, hs, t, ht, C51_segments.start s, by simp, C51_segments.start t, by simp, ?_⟩
    simp only [List.mem_cons, List.not_mem_nil, or_false] at hs' ht'
    rcases hs' with rfl | rfl <;> rcases ht' with rfl | rfl <;> decide +kernel

end Volmdlr.Wire
