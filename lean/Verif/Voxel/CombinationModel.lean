import Verif.Voxel.VoxelizeModel
import Mathlib.Data.Set.Card

/-!
# Model of what is done with octrees of triangles: intersecting faces, overlap of octrees, merged voxels, layers

Numbers are exact, the roundings to 9 digits are the identity.
-/

namespace Volmdlr.Voxel

variable {K : Type} [Field K] [LinearOrder K] [IsStrictOrderedRing K] [FloorRing K]

/-- `itertools.combinations(l, 2)`. -/
def combinations2 : List ℕ → List (ℕ × ℕ)
  | [] => []
  | x :: xs => (xs.map fun y : ℕ => (x, y)) ++ combinations2 xs

/-- discrete_representation.py:2889-2894: the sorted pairs of a leaf, with one number below the threshold. -/
def leafCombinations (threshold : ℕ) (l : List ℕ) : List (ℕ × ℕ) :=
  ((combinations2 l).map fun c : ℕ × ℕ => (min c.1 c.2, max c.1 c.2)).filter fun c : ℕ × ℕ =>
    decide (threshold = 0) || (decide (c.1 < threshold) && decide (threshold ≤ c.2))

/-- discrete_representation.py:2877-2931 `_get_intersections_leaf_centers`: the dictionary of sets of centres as a set of
pairs (key, centre); the first number is `self._octree_depth - current_depth`. -/
def leafPairs (threshold : ℕ) : ℕ → K → (Fin 3 → K) → Oct → Set ((ℕ × ℕ) × (Fin 3 → K))
  | 0, _, c, t => {e | e.1 ∈ leafCombinations threshold t.items ∧ e.2 = c}
  | n + 1, size, c, t =>
    {e | ∃ i, (t.child i).truthy = true ∧ e ∈ leafPairs threshold n (size / 2) (childCentre (size / 2) c i) (t.child i)}

/-- discrete_representation.py:2866-2875 `_get_intersections_voxel_centers`. -/
def OctVox.pairs (v : OctVox K) (threshold : ℕ) : Set ((ℕ × ℕ) × (Fin 3 → K)) :=
  leafPairs threshold v.depth (v.size * 2 ^ v.depth) v.rootC v.octree

/-- discrete_representation.py:2934-2971 `_shell_to_face_idx_by_triangle`: `face_idx_by_triangle[t]`.  A shell is the list of
the lists of triangles of its faces (empty if the triangulation fails); the last face with the triangle wins. -/
def faceOfTriangle (faces : List (List (Tri3 K))) (t : Tri3 K) : Option ℕ :=
  (((List.range faces.length).zip faces).reverse.find? fun f : ℕ × List (Tri3 K) => decide (t ∈ f.2)).map Prod.fst

open Classical in
/-- discrete_representation.py:2822-2864 `intersecting_faces_combinations`: the numbers of the faces and the voxels, as a set of
pairs. -/
noncomputable def intersectingFaces (faces1 faces2 : List (List (Tri3 K))) (vs : K) :
    Except VzError (Set ((ℕ × ℕ) × (Fin 3 → K))) :=
  match OctVox.fromTriangles faces1.flatten vs, OctVox.fromTriangles faces2.flatten vs with
  | .error e, _ => .error e
  | _, .error e => .error e
  | .ok v, .ok w =>
    match v.intersection w with
    | .error _ => .error .valueError
    | .ok r =>
      let face1 : ℕ → Option ℕ := fun i => faces1.flatten[i]?.bind (faceOfTriangle faces1)
      let face2 : ℕ → Option ℕ := fun j => faces2.flatten[j - faces1.flatten.length]?.bind (faceOfTriangle faces2)
      if ∀ e ∈ r.pairs v.triangles, (face1 e.1.1).isSome ∧ (face2 e.1.2).isSome then
        .ok {e | ∃ i j, ((i, j), e.2) ∈ r.pairs v.triangles ∧ face1 i = some e.1.1 ∧ face2 j = some e.1.2}
      else .error .outOfBounds

/-- discrete_representation.py:2045-2078 `_check_voxel_intersection`. -/
def voxelsOverlap (c1 : Fin 3 → K) (h1 : K) (c2 : Fin 3 → K) (h2 : K) : Bool :=
  decide (max (c1 0 - h1) (c2 0 - h2) < min (c1 0 + h1) (c2 0 + h2)) &&
    decide (max (c1 1 - h1) (c2 1 - h2) < min (c1 1 + h1) (c2 1 + h2)) &&
    decide (max (c1 2 - h1) (c2 2 - h2) < min (c1 2 + h1) (c2 2 + h2))

/-- An entry of the stacks: the number of levels below (`_octree_depth - current_depth`), the centre and the octree. -/
structure StackVoxel (K : Type) where
  below : ℕ
  centre : Fin 3 → K
  octree : Oct

/-- discrete_representation.py:1977-2005 (2007-2034): a leaf is kept, another voxel is replaced by its sub-voxels.  `none` is
the `IndexError` for an octree that is an empty list. -/
def splitVoxel (vs : K) (s : StackVoxel K) : Option (List (StackVoxel K)) :=
  match s.below, s.octree with
  | 0, _ => some [s]
  | _ + 1, .leaf _ => none
  | n + 1, .node ch => some ((List.finRange 8).filterMap fun i : Fin 8 =>
      if (ch i).truthy then some ⟨n, childCentre (vs * 2 ^ n) s.centre i, ch i⟩ else none)

/-- discrete_representation.py:1956-2042: the loop.  The two stacks have the same length, they are one list of pairs here, whose
head is the top.  The first option is for a loop that is not finished. -/
def overlapLoop (vs1 vs2 : K) : ℕ → List (StackVoxel K × StackVoxel K) → Option (Except VzError Bool)
  | _, [] => some (.ok false)
  | 0, _ :: _ => none
  | fuel + 1, (a, b) :: rest =>
    if voxelsOverlap a.centre (vs1 * 2 ^ a.below / 2) b.centre (vs2 * 2 ^ b.below / 2) = false then overlapLoop vs1 vs2 fuel rest
    else if a.below = 0 ∧ b.below = 0 then some (.ok true)
    else
      match splitVoxel vs1 a, splitVoxel vs2 b with
      | some as, some bs =>
        overlapLoop vs1 vs2 fuel
          ((as.flatMap fun x : StackVoxel K => bs.map fun y : StackVoxel K => (x, y)).reverse ++ rest)
      | _, _ => some (.error .outOfBounds)

/-- discrete_representation.py:1938-2042 `is_intersecting`. -/
def OctVox.isIntersecting (fuel : ℕ) (v w : OctVox K) : Option (Except VzError Bool) :=
  overlapLoop v.size w.size fuel [(⟨v.depth, v.rootC, v.octree⟩, ⟨w.depth, w.rootC, w.octree⟩)]

open Classical in
/-- discrete_representation.py:2682-2732 `_get_non_homogeneous_leaf_centers`: the dictionary of sets of centres as a set of
pairs (size, centre); the first number is `self._octree_depth - current_depth`. -/
noncomputable def mergedCentres : ℕ → K → (Fin 3 → K) → Oct → Set (K × (Fin 3 → K))
  | 0, size, c, _ => {(size, c)}
  | n + 1, size, c, t =>
    let sub : Set (K × (Fin 3 → K)) :=
      {e | ∃ i, (t.child i).truthy = true ∧ e ∈ mergedCentres n (size / 2) (childCentre (size / 2) c i) (t.child i)}
    if {p : Fin 3 → K | (size / 2, p) ∈ sub}.ncard = 8 then {e | e ∈ sub ∧ e.1 ≠ size / 2} ∪ {(size, c)} else sub

/-- discrete_representation.py:2671-2680 `_get_non_homogeneous_voxel_centers`, the voxels of the voxelizations of 2454-2466. -/
noncomputable def OctVox.merged (v : OctVox K) : Set (K × (Fin 3 → K)) :=
  mergedCentres v.depth (v.size * 2 ^ v.depth) v.rootC v.octree

open Classical in
/-- discrete_representation.py:2760-2818 `_get_inner_growing_leaf_centers`; `thick` says that `layer_dict[center]` is at least
the minimal thickness. -/
noncomputable def innerGrowing (thick : (Fin 3 → K) → Prop) : ℕ → K → (Fin 3 → K) → Oct → Set (K × (Fin 3 → K))
  | 0, size, c, _ => {(size, c)}
  | n + 1, size, c, t =>
    let sub : Set (K × (Fin 3 → K)) :=
      {e | ∃ i, (t.child i).truthy = true ∧ e ∈ innerGrowing thick n (size / 2) (childCentre (size / 2) c i) (t.child i)}
    if {p : Fin 3 → K | (size / 2, p) ∈ sub}.ncard = 8 ∧ n = 0 ∧ ∀ p, (size / 2, p) ∈ sub → thick p then
      {e | e ∈ sub ∧ e.1 ≠ size / 2} ∪ {(size, c)} else sub

/-- discrete_representation.py:1732-1740: the cube of the given radius around the voxel has no `False`. -/
def fullCube (m : Mat 3) (c : Cell 3) (r : ℕ) : Prop := ∀ d : Cell 3, (∀ i, |d i - c i| ≤ (r : ℤ)) → m.val d = true

open Classical in
/-- discrete_representation.py:1724-1743: the loop from `count` on, `fuel` bounds the number of turns. -/
noncomputable def layersFrom (m : Mat 3) (c : Cell 3) : ℕ → ℕ → ℕ
  | 0, count => count
  | fuel + 1, count =>
    if ∀ i, 0 ≤ c i - count ∧ c i + count < m.shape i then
      if fullCube m c count then layersFrom m c fuel (count + 1) else count
    else count

/-- discrete_representation.py:1703-1747 `_layers_matrix`: the number of layers of a voxel.  The loop ends when the cube leaves the
matrix, so the length along one axis bounds the number of turns. -/
noncomputable def layersOf (m : Mat 3) (c : Cell 3) : ℕ := if m.val c then layersFrom m c (m.shape 0) 1 - 1 else 0

/-- discrete_representation.py:1677-1701 `layers_thickness_by_voxel_centers`: the dictionary as a set of pairs. -/
def Vox.layerDict (v : Vox 3 K) : Set ((Fin 3 → K) × K) :=
  {e | ∃ c, v.mat.val c = true ∧ e.1 = (fun i => v.minC i + c i * v.size) ∧ e.2 = layersOf v.mat c * v.size}

/-- discrete_representation.py:2734-2758 `get_inner_growing_voxel_centers` as a set of pairs (size, centre).  `m` is the matrix
based voxelization with the same voxels. -/
noncomputable def OctVox.innerGrowingCentres (v : OctVox K) (m : Vox 3 K) (minThickness : K) : Set (K × (Fin 3 → K)) :=
  innerGrowing (fun p => ∃ x, (p, x) ∈ m.layerDict ∧ minThickness ≤ x) v.depth (v.size * 2 ^ v.depth) v.rootC v.octree

end Volmdlr.Voxel
