import Mathlib.Data.List.Basic

/-!
# Model of the STEP import: work list and instantiation order
-/

namespace Volmdlr.StepImport

/-- One value of the dictionary `Step.functions` (step.py:141-202 `Step.read_lines`): its key, whether its name is in
`STEP_TO_VOLMDLR`, `Step.connections[key]`, the identifiers referenced by its arguments (step.py:173-186), and the
identifiers whose objects are looked up in `object_dict` when the entity is instantiated (step.py:364-405
`Step.instantiate`), in the order of the look-ups.  The name and the other arguments are not kept. -/
structure Func where
  id : ℕ
  supported : Bool
  connections : List ℕ
  looksUp : List ℕ
deriving DecidableEq

/-- `Step.functions` as a list of its values; `Step.connections` has the same keys. -/
abbrev File := List Func

/-- `self.functions[node]`; `none` is the `KeyError`. -/
def lookup (file : File) (n : ℕ) : Option Func := file.find? fun f => f.id == n

/-- step.py:418-432, the body of the `while` loop of `Step.create_node_list`; `stack`, `visited_set`, `list_head`
and `list_nodes` are the arguments.  `none` when the fuel is used up, `some none` for a `KeyError`. -/
def nodeLoop (file : File) : ℕ → List ℕ → List ℕ → List ℕ → List ℕ → Option (Option (List ℕ))
  | 0, _, _, _, _ => none
  | _ + 1, [], _, head, nodes => some (some (head ++ nodes.reverse))
  | fuel + 1, node :: stack, visited, head, nodes =>
    match lookup file node with
    | none => some none
    | some f =>
      if node ∉ visited ∧ f.supported then
        let visited' := node :: visited
        if f.connections ≠ [] then
          nodeLoop file fuel (stack ++ f.connections.filter fun c => c ∉ visited') visited' head (nodes ++ [node])
        else nodeLoop file fuel stack visited' (head ++ [node]) nodes
      else nodeLoop file fuel stack visited head nodes

/-- step.py:407-433 `Step.create_node_list`. -/
def createNodeList (file : File) (fuel : ℕ) (initial : List ℕ) : Option (Option (List ℕ)) :=
  nodeLoop file fuel initial [] [] []

/-- The `for` loop of step.py:803-811 over `instantiate_ids[::-1]`.  `log` holds the keys of `object_dict` in the
order of the assignments.  Instantiating an entity looks up its function (`KeyError` with its own identifier when it is
not in the file) and then the objects it refers to, in order (`KeyError` with the first missing one);
errors other than `KeyError` are not modelled.  Returns the log and the key of the `KeyError`, if any. -/
def instantiatePass (file : File) : List ℕ → List ℕ → List ℕ × Option ℕ
  | [], log => (log, none)
  | i :: is, log =>
    match lookup file i with
    | none => (log, some i)
    | some f =>
      match f.looksUp.find? fun d => d ∉ log with
      | some d => (log, some d)
      | none => instantiatePass file is (log ++ [i])

/-- The `while error` loop of step.py:799-821 (`ids` is `instantiate_ids`); `none` when the fuel is used up. -/
def instantiateLoop (file : File) : ℕ → List ℕ → List ℕ → Option (List ℕ)
  | 0, _, _ => none
  | fuel + 1, ids, log =>
    match instantiatePass file ids.reverse log with
    | (log', none) => some log'
    | (log', some key) => instantiateLoop file fuel (ids ++ [key]) log'

/-- step.py:794-823 `Step._helper_instantiate`. -/
def helperInstantiate (file : File) (fuel : ℕ) (node : ℕ) (log : List ℕ) : Option (List ℕ) :=
  instantiateLoop file fuel [node] log

/-- step.py:767-773, the loop of `Step.to_volume_model` over the nodes: each is instantiated by
`_helper_instantiate` with the same `object_dict`. -/
def instantiateAll (file : File) (fuel : ℕ) : List ℕ → List ℕ → Option (List ℕ)
  | [], log => some log
  | n :: ns, log =>
    match helperInstantiate file fuel n log with
    | none => none
    | some log' => instantiateAll file fuel ns log'

end Volmdlr.StepImport
