import Verif.Model.Basic
/-!
`match_pattern` (`cpp_utils/src/cpp/utils.cpp`), on POSIX systems.

It calls `fnmatch` with `FNM_NOESCAPE`, which is modelled after POSIX (Shell Command Language, 2.13 Pattern Matching Notation)
in the "C" locale.  What POSIX leaves open, or uses classes of characters, is not modelled: brackets that contain
"[:", "[.", "[=", begin with "^", or have "-" anywhere but between two ends of a range.
-/
namespace Verif.Pattern

/-- An element of a pattern. -/
inductive Elem
  | star
  | any
  | lit (c : Char)
  /-- `[...]` or `[!...]`: ranges of characters -/
  | set (neg : Bool) (ranges : List (Char × Char))
deriving DecidableEq

/-- The inside of brackets up to "]": the ranges and what follows.  `none`: there is no "]".  `some none`: not modelled. -/
def inside : Str → List (Char × Char) → Option (Option (List (Char × Char) × Str))
  | [], _ => none
  | ']' :: p, acc => if acc = [] then some none else some (some (acc.reverse, p))
  | '[' :: _, _ => some none
  | '^' :: _, _ => some none
  | '!' :: _, _ => some none
  | '-' :: _, _ => some none
  | a :: '-' :: b :: p, acc =>
    if b = ']' ∨ b = '[' ∨ b = '-' ∨ b = '^' ∨ b = '!' then some none else inside p ((a, b) :: acc)
  | a :: p, acc => inside p ((a, a) :: acc)

/-- The elements of a pattern; a bracket that is not closed stands for itself. -/
def parse : Nat → Str → Option (List Elem)
  | _, [] => some []
  | 0, _ :: _ => none
  | k + 1, '*' :: p => (parse k p).map (.star :: ·)
  | k + 1, '?' :: p => (parse k p).map (.any :: ·)
  | k + 1, '[' :: p =>
    let neg := p.head? = some '!'
    match inside (if neg then p.drop 1 else p) [] with
    | none => (parse k p).map (.lit '[' :: ·)
    | some none => none
    | some (some (rs, rest)) => (parse k rest).map (.set neg rs :: ·)
  | k + 1, c :: p => (parse k p).map (.lit c :: ·)

/-- Whether a character is in one of the ranges. -/
def within (rs : List (Char × Char)) (c : Char) : Bool := rs.any fun r => r.1 ≤ c && c ≤ r.2

/-- The rests of a text, itself and the empty one among them. -/
def rests : Str → List Str
  | [] => [[]]
  | c :: s => (c :: s) :: rests s

/-- The comparison: "*" is tried with every rest of the text. -/
def go : List Elem → Str → Bool
  | [], s => s.isEmpty
  | .star :: es, s => (rests s).any (go es)
  | .any :: es, s => match s with | [] => false | _ :: s => go es s
  | .lit a :: es, s => match s with | [] => false | c :: s => a == c && go es s
  | .set neg rs :: es, s => match s with | [] => false | c :: s => (within rs c != neg) && go es s

/-- `fnmatch(pattern, text, FNM_NOESCAPE) == 0` for C strings. -/
def fnmatch (pattern text : Str) : Option Bool := (parse pattern.length pattern).map (go · text)

/-- The C string of a `std::string`: up to the first null character. -/
def cStr (s : Str) : Str := s.takeWhile (· ≠ '\x00')

/-- `match_pattern`, utils.cpp:73-84; `none`: the pattern is not modelled. -/
def matchPattern (pattern str : Str) : Option Bool := fnmatch (cStr pattern) (cStr str)

end Verif.Pattern
