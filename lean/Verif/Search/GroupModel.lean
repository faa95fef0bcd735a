import Verif.Lists.Model

/-!
# Model of the groups of points (`utils/common_operations.py`)
-/

namespace Volmdlr.Search

section
variable {α : Type*}

/-- common_operations.py:396-400: the radius `eps`.  With one point only, the mean of no distances is not a number, and the clustering of scikit-learn refuses it. -/
noncomputable def epsilon (dist : α → α → ℝ) : List α → Except PyErr ℝ
  | p :: q :: ps =>
    open Classical in
    let distances := ((q :: ps).map fun a : α => dist a p).mergeSort fun a b : ℝ => decide (a ≤ b)
    let first := distances.take (max ((p :: q :: ps).length / 10) 30)
    .ok (max (min (first.sum / first.length / 2) (35 / 100)) (2 / 100))
  | _ => .error .valueError

/-- `groups[label].append(point)`, or `groups[label] = [point]` for a new label (common_operations.py:410-413): a dictionary in order of insertion. -/
def addTo (label : ℕ) (point : α) : List (ℕ × List α) → List (ℕ × List α)
  | [] => [(label, [point])]
  | (k, g) :: rest => if k = label then (k, g ++ [point]) :: rest else (k, g) :: addTo label point rest

/-- common_operations.py:407-413. -/
def groups (labelled : List (ℕ × α)) : List (ℕ × List α) :=
  labelled.foldl (fun (d : List (ℕ × List α)) (x : ℕ × α) => addTo x.1 x.2 d) []

/-- common_operations.py:416-417: a group in the order of the nearest neighbours, closed by its first point. -/
noncomputable def closeLoop (dist : α → α → ℝ) (nz : α → Bool) (group : List α) : Except PyErr (List α) :=
  (orderPointsNearestNeighbor dist nz group).bind fun r : List α =>
    match r with
    | [] => .error .indexError
    | a :: _ => .ok (r ++ [a])

/-- common_operations.py:377-418 `separate_points_by_closeness`.  `dbscan eps points` are the labels of `DBSCAN(eps=eps, min_samples=1)` of scikit-learn; `nz` says whether a
coordinate of the point is not zero. -/
noncomputable def separate (dist : α → α → ℝ) (nz : α → Bool) (dbscan : ℝ → List α → List ℕ) (points : List α) : Except PyErr (List (List α)) :=
  if points.isEmpty then .ok []
  else (epsilon dist points).bind fun eps : ℝ =>
    (groups ((dbscan eps points).zip points)).mapM fun g : ℕ × List α => closeLoop dist nz g.2
end

/-- common_operations.py:421-432 `get_center_of_mass`. -/
def centerOfMass {K : Type*} [Field K] (points : List (V3 K)) : Except PyErr (V3 K) :=
  let s := points.foldl (fun (c p : V3 K) => c + p) ⟨0, 0, 0⟩
  if points.length = 0 then .error .zeroDivision
  else .ok ⟨s.x / points.length, s.y / points.length, s.z / points.length⟩

end Volmdlr.Search
