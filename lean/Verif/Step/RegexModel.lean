import Verif.Step.SplitModel

/-!
# Model of `step_split_arguments`

The two regular expressions are modelled by functions that give the length of the match at the beginning of a text, with
the order of preference of a backtracking matcher.
-/

namespace Volmdlr.StepSplit

/-- The lengths tried by a greedy `[…]*` at the beginning of `s`: longest first. -/
def greedy (p : Char → Bool) (s : Str) : List ℕ := (List.range ((s.takeWhile p).length + 1)).reverse

/-- `\([^()]*\)` (utils/step_reader.py:77, first alternative). -/
def matchList : Str → Option ℕ
  | [] => none
  | c :: s =>
    if c = '(' then
      (greedy (fun d => d ≠ '(' ∧ d ≠ ')') s).findSome? fun i => if (s.drop i).head? = some ')' then some (i + 2) else none
    else none

/-- `'[^']*[^,]*',` (utils/step_reader.py:77, second alternative, and 97). -/
def matchQuoted : Str → Option ℕ
  | [] => none
  | c :: s =>
    if c = '\'' then
      (greedy (fun d => d ≠ '\'') s).findSome? fun i =>
        (greedy (fun d => d ≠ ',') (s.drop i)).findSome? fun j =>
          if ((s.drop i).drop j).take 2 = ['\'', ','] then some (i + j + 3) else none
    else none

/-- `[^,]+` (utils/step_reader.py:77, third alternative). -/
def matchAtom (s : Str) : Option ℕ :=
  let n := (s.takeWhile fun d => d ≠ ',').length
  if n = 0 then none else some n

/-- The regular expression of utils/step_reader.py:77: the alternatives are tried in order. -/
def matchArg (s : Str) : Option ℕ := (matchList s).or ((matchQuoted s).or (matchAtom s))

/-- `re.findall` with the matcher `m`; the first argument is the fuel. -/
def findAllAux (m : Str → Option ℕ) : ℕ → Str → List Str
  | 0, _ => []
  | _ + 1, [] => []
  | fuel + 1, c :: s =>
    match m (c :: s) with
    | some (n + 1) => (c :: s).take (n + 1) :: findAllAux m fuel ((c :: s).drop (n + 1))
    | _ => findAllAux m fuel s

/-- `re.findall`: a text of length `n` has at most `n` matches. -/
def findAll (m : Str → Option ℕ) (s : Str) : List Str := findAllAux m s.length s

/-- `s.replace(old, new)` for a non-empty `old`; the first argument is the fuel. -/
def replaceAux (old new : Str) : ℕ → Str → Str
  | 0, s => s
  | _ + 1, [] => []
  | fuel + 1, c :: s =>
    if (c :: s).take old.length = old then new ++ replaceAux old new fuel ((c :: s).drop old.length)
    else c :: replaceAux old new fuel s

/-- `s.replace(old, new)`. -/
def replaceAll (old new s : Str) : Str := replaceAux old new s.length s

/-- utils/step_reader.py:95-104 `remove_spaces_outside_quotes`. -/
def removeSpaces (s : Str) : Str :=
  (findAll matchQuoted s).foldl (fun result q => replaceAll (q.filter (· ≠ ' ')) q result) (s.filter (· ≠ ' '))

/-- The starts of the matches of the two-character text `p p` (`re.finditer`, utils/step_reader.py:80-81), counted from
`o`. -/
def pairIndexes (p : Char) : Str → ℕ → List ℕ
  | [], _ => []
  | [_], _ => []
  | c :: d :: s, o => if c = p ∧ d = p then o :: pairIndexes p s (o + 2) else pairIndexes p (d :: s) (o + 1)

/-- `arg.strip(",")`. -/
def stripComma (s : Str) : Str := ((s.dropWhile (· = ',')).reverse.dropWhile (· = ',')).reverse

/-- utils/step_reader.py:82-86: the loop over the pairs of double brackets; the text, the pairs, `starting_index`. -/
def bracketLoop (s : Str) : List (ℕ × ℕ) → ℕ → List Str
  | [], k => (findAll matchArg (s.drop k)).map stripComma
  | (a, b) :: ps, k => findAll matchArg ((s.take a).drop k) ++ (s.take b).drop a :: bracketLoop s ps b

/-- utils/step_reader.py:58-92 `step_split_arguments`. -/
def splitArguments (entityName functionArg : Str) : List Str :=
  let arguments := if entityName ≠ [] then [entityName] else []
  let s := removeSpaces functionArg
  if s = [] then []
  else
    let s := if s.getLast? = some ';' then s.dropLast.dropLast else s
    let starts := pairIndexes '(' s 0
    if starts ≠ [] then arguments ++ bracketLoop s (starts.zip ((pairIndexes ')' s 0).map (· + 2))) 0
    else arguments ++ (findAll matchArg s).map stripComma

end Volmdlr.StepSplit
