/-!
RFC 4648 section 4, on natural numbers: every 3 bytes form a 24-bit number which
is written as four base-64 digits; a final group of one or two bytes is completed
with zero bits and padded with `=`.
-/
namespace Verif.Spec.Base64

/-- Character code of the base-64 digit `d` (RFC 4648, table 1). -/
def digitCode (d : Nat) : Nat :=
  if d < 26 then 65 + d            -- 'A'..'Z'
  else if d < 52 then 97 + (d - 26) -- 'a'..'z'
  else if d < 62 then 48 + (d - 52) -- '0'..'9'
  else if d = 62 then 43            -- '+'
  else 47                           -- '/'

/-- The digit with character code `c`, if `c` is in the alphabet. -/
def digitOf (c : Nat) : Option Nat := (List.range 64).find? fun d => digitCode d = c

/-- The digits before the first character outside the alphabet. -/
def digits : List Nat → List Nat
  | [] => []
  | c :: cs => match digitOf c with
    | none => []
    | some d => d :: digits cs

/-- Encoding of a list of byte values. -/
def encode : List Nat → List Nat
  | a :: b :: c :: rest =>
    let n := a * 65536 + b * 256 + c
    digitCode (n / 262144) :: digitCode (n / 4096 % 64) :: digitCode (n / 64 % 64) ::
      digitCode (n % 64) :: encode rest
  | [a, b] =>
    let n := a * 65536 + b * 256
    [digitCode (n / 262144), digitCode (n / 4096 % 64), digitCode (n / 64 % 64), 61]
  | [a] =>
    let n := a * 65536
    [digitCode (n / 262144), digitCode (n / 4096 % 64), 61, 61]
  | [] => []

/-- The number written by `ds` in base `k`, most significant first. -/
def value (k : Nat) (ds : List Nat) : Nat := ds.foldl (fun v d => v * k + d) 0

example : value 256 [1, 0, 0, 0] = 2 ^ 24 := by decide

-- "Man" -> "TWFu", "Ma" -> "TWE=", "M" -> "TQ=="
example : encode [77, 97, 110] = [84, 87, 70, 117] := by decide
example : encode [77, 97] = [84, 87, 69, 61] := by decide
example : encode [77] = [84, 81, 61, 61] := by decide

end Verif.Spec.Base64
