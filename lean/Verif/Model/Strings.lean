import Verif.Model.Basic
/-!
Model of the string helpers of `cpp_utils/src/cpp/utils.cpp`.

Characters are an arbitrary type with decidable equality: these functions only
compare characters.  Positions are `Nat`; the code of `split_string` stores them
in `int`, so the model is faithful for strings shorter than 2^31 characters.
-/
namespace Verif.Strings

variable {α : Type} [DecidableEq α]

/-- `std::string::find(pat)`: position of the leftmost occurrence (the empty
pattern occurs at 0).  Library function used at utils.cpp:263, 352, 357. -/
def find (pat : List α) : List α → Option Nat
  | [] => if pat.isPrefixOf ([] : List α) then some 0 else none
  | c :: cs => if pat.isPrefixOf (c :: cs) then some 0 else (find pat cs).map (· + 1)

/-- `std::string::find(pat, start)`: leftmost occurrence at or after `start`;
`npos` when `start > size()`. -/
def findFrom (pat s : List α) (start : Nat) : Option Nat :=
  if start ≤ s.length then (find pat (s.drop start)).map (· + start) else none

/-- `replace_first`, utils.cpp:258-273: the boolean result and the new string. -/
def replaceFirst (st toReplace replaceBy : List α) : Bool × List α :=
  match find toReplace st with
  | none => (false, st)
  | some pos => (true, st.take pos ++ replaceBy ++ st.drop (pos + toReplace.length))

/-- The loop of `replace_all`, utils.cpp:275-286.  `fuel` bounds the number of
loop iterations; `none` means the bound was reached before the loop ended.  The
counter is the exact number of replacements (the code keeps it modulo 2^32). -/
def replaceAllFuel (toReplace replaceBy : List α) : Nat → List α → Nat → Option (Nat × List α)
  | 0, _, _ => none
  | fuel + 1, st, n =>
    match replaceFirst st toReplace replaceBy with
    | (false, _) => some (n, st)
    | (true, st') => replaceAllFuel toReplace replaceBy fuel st' (n + 1)

/-- `replace_all` returns with `n` replacements and string `st'`: the loop ends
after some number of iterations. -/
def ReplaceAllReturns (st toReplace replaceBy : List α) (n : Nat) (st' : List α) : Prop :=
  ∃ fuel, replaceAllFuel toReplace replaceBy fuel st 0 = some (n, st')

/-- `replace_all` never returns: no number of iterations reaches the end. -/
def ReplaceAllDiverges (st toReplace replaceBy : List α) : Prop :=
  ∀ fuel, replaceAllFuel toReplace replaceBy fuel st 0 = none

/-- `strip_str`, utils.cpp:288-299, as a relation because it calls `replace_all`:
one `replace_all` per undesired string, in the order of the set. -/
inductive StripReturns (replaceBy : List α) : List (List α) → List α → Nat → List α → Prop
  | nil (st) : StripReturns replaceBy [] st 0 st
  | cons {u us st st1 n st2 m} : ReplaceAllReturns st u replaceBy n st1 →
      StripReturns replaceBy us st1 m st2 → StripReturns replaceBy (u :: us) st (n + m) st2

/-- Default `undesired_strings` of `strip_str`, utils.hpp:263 (a `std::set`, so in
increasing order). -/
def defaultUndesired : List Str := [['\n'], ['\r']]

/-- Loop of `split_string(source, delimiter)`, utils.cpp:346-361: `start` is the
loop variable, `end` is recomputed, `acc` the pieces pushed so far.  `none` when
the iteration bound is reached. -/
def splitFuel (source delimiter : List α) : Nat → Nat → List (List α) → Option (List (List α))
  | 0, _, _ => none
  | fuel + 1, start, acc =>
    match findFrom delimiter source start with
    | none => some (acc ++ [source.drop start])
    | some e => splitFuel source delimiter fuel (e + delimiter.length)
        (acc ++ [(source.drop start).take (e - start)])

/-- `split_string(source, delimiter)` returns `ps`. -/
def SplitReturns (source delimiter : List α) (ps : List (List α)) : Prop :=
  ∃ fuel, splitFuel source delimiter fuel 0 [] = some ps

/-- Computable `split_string`: the loop with enough iterations for every
non-empty delimiter. -/
def split (source delimiter : List α) : Option (List (List α)) :=
  splitFuel source delimiter (source.length + 2) 0 []

/-- `split_string(vector, delimiter)`, utils.cpp:333-344. -/
def splitMany (sources : List (List α)) (delimiter : List α) : Option (List (List α)) :=
  match sources with
  | [] => some []
  | s :: rest =>
    match split s delimiter, splitMany rest delimiter with
    | some a, some b => some (a ++ b)
    | _, _ => none

/-- `split_string(source, set)`, utils.cpp:321-331; the set is given as the list of
its elements in iteration order. -/
def splitSet (source : List α) (delimiters : List (List α)) : Option (List (List α)) :=
  delimiters.foldl (fun acc d => acc.bind (splitMany · d)) (some [source])

end Verif.Strings
