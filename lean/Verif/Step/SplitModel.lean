import Mathlib.Data.List.Basic
import Mathlib.Data.Nat.Basic

/-!
# Model of the splitting of STEP texts

A Python `str` is a `List Char`.
-/

namespace Volmdlr.StepSplit

/-- A Python string. -/
abbrev Str := List Char

/-- `str.strip()`. -/
def strip (s : Str) : Str := ((s.dropWhile Char.isWhitespace).reverse.dropWhile Char.isWhitespace).reverse

/-- utils/step_reader.py:123-147, the loop of `step_split_arguments_special`; the arguments are the text to read,
`argument`, `parenthesis`, `is_str` and `arguments`. -/
def specialLoop : Str → Str → ℕ → Bool → List Str → List Str
  | [], _, _, _, args => args
  | c :: rest, arg, par, isStr, args =>
    let par := if c = '(' then par + 1 else par
    let isStr := if c = '\'' then !isStr else isStr
    if !isStr && c = ' ' then specialLoop rest arg par isStr args
    else
      let st : Str × List Str :=
        if par > 1 ∨ isStr then (arg ++ [c], args) else if c ≠ ',' then (arg ++ [c], args) else ([], args ++ [arg])
      if c = ')' then
        if par - 1 = 0 then st.2 ++ [st.1.dropLast] else specialLoop rest st.1 (par - 1) isStr st.2
      else specialLoop rest st.1 par isStr st.2

/-- utils/step_reader.py:107-148 `step_split_arguments_special`. -/
def splitSpecial (functionArg : Str) : List Str :=
  let s := strip functionArg
  let s := if 0 < s.length ∧ s.getLast? ≠ some ')' then s ++ [')'] else s
  let s := if 0 < s.length ∧ s.head? = some '(' then s ++ [')'] else s
  specialLoop s [] 1 false []

/-- `str.split(',')`: the pieces between the commas (at least one). -/
def splitComma : Str → List Str
  | [] => [[]]
  | c :: s =>
    if c = ',' then [] :: splitComma s
    else
      match splitComma s with
      | [] => [[c]]
      | p :: ps => (c :: p) :: ps

/-- `l[-1] = f(l[-1])`. -/
def modifyLast (f : Str → Str) : List Str → List Str
  | [] => []
  | [x] => [f x]
  | x :: y :: r => x :: modifyLast f (y :: r)

/-- utils/step_reader.py:12-24 `set_to_list`. -/
def setToList (s : Str) : List Str :=
  let l := splitComma s
  let l := l.modifyHead List.tail
  modifyLast List.dropLast l

/-- step.py:333-359, the loop of `Step.step_subfunctions`; the arguments are the text to read, `parenthesis_count`,
`subfunction_name`, `subfunction_arg`, `subfunction_names` and `subfunction_args`. -/
def subLoop : Str → ℤ → Str → Str → List Str → List Str → List Str × List Str
  | [], _, _, _, names, args => (names, args)
  | c :: rest, n, name, arg, names, args =>
    if c = '(' then
      if n + 1 = 1 then subLoop rest (n + 1) [] arg (names ++ [name]) args
      else subLoop rest (n + 1) name (arg ++ [c]) names args
    else if c = ')' then
      if n - 1 = 0 then subLoop rest (n - 1) name [] names (args ++ [arg])
      else subLoop rest (n - 1) name (arg ++ [c]) names args
    else if n = 0 then subLoop rest n (name ++ [c]) arg names args
    else subLoop rest n name (arg ++ [c]) names args

/-- step.py:328-362 `Step.step_subfunctions`: the names and the texts of their arguments (the last step, the split of
these texts by `step_split_arguments`, is `stepSplitArguments` below). -/
def subfunctions (s : Str) : List Str × List Str := subLoop (s.filter (· ≠ ' ')) 0 [] [] [] []

/-- The argument of a function after `Step.parse_arguments`. -/
inductive Parsed where
  | text (s : Str)
  | list (l : List Str)
deriving DecidableEq

/-- step.py:370-379, the loop of `Step.parse_arguments` over the characters of one list; `arg` is `arg_id`. -/
def parseLoop : Str → Str → List Str → List Str
  | [], arg, acc => acc ++ [arg]
  | c :: s, arg, acc => if c = ',' then parseLoop s [] (acc ++ [arg]) else parseLoop s (arg ++ [c]) acc

/-- step.py:364-380 `Step.parse_arguments` for one argument that is a list `(#…)`; the conversion of `#12` to a number
is not modelled. -/
def parseArgument (arg : Str) : Parsed :=
  if arg.take 2 = ['(', '#'] then .list (parseLoop arg.tail.dropLast [] []) else .text arg

end Volmdlr.StepSplit
