import Verif.Model.Basic
/-!
`base64_encode` / `base64_decode`, `cpp_utils/src/cpp/utils.cpp:364-419`.

`int val` is `BitVec 32` with two's complement wrap-around (the behaviour of
`<<` on `int` from C++20 on, and of GCC/Clang before); `int valb` stays between
-8 and 7 and is an `Int`.  The stricter C++14/17 reading, where some of these
shifts are undefined, is modelled by the `...Strict` variants at the end.
-/
namespace Verif.Base64

abbrev Byte := BitVec 8
abbrev I32 := BitVec 32

/-- `base64_alphabet`, utils.hpp:366, as character codes: A-Z a-z 0-9 + /. -/
def alphabet : List Byte :=
  (List.range 26).map (fun i => BitVec.ofNat 8 (65 + i)) ++
  (List.range 26).map (fun i => BitVec.ofNat 8 (97 + i)) ++
  (List.range 10).map (fun i => BitVec.ofNat 8 (48 + i)) ++ [43#8, 47#8]

/-- `base64_alphabet[i]` for the index `x & 0x3F` (always in range). -/
def digit (x : I32) : Byte := alphabet.getD (x &&& 0x3F#32).toNat 0#8

/-- Inner loop, utils.cpp:374-378:
`while (valb >= 0) { out.push_back(alphabet[(val >> valb) & 0x3F]); valb -= 6; }`. -/
def emit (val : I32) (valb : Int) (out : List Byte) : Int × List Byte :=
  if 0 ≤ valb then emit val (valb - 6) (out ++ [digit (val.sshiftRight valb.toNat)])
  else (valb, out)
termination_by (valb + 6).toNat

/-- Outer loop, utils.cpp:370-379. -/
def encLoop : List Byte → I32 → Int → List Byte → I32 × Int × List Byte
  | [], val, valb, out => (val, valb, out)
  | c :: cs, val, valb, out =>
    let val := (val <<< 8) + c.setWidth 32
    let r := emit val (valb + 8) out
    encLoop cs val r.1 r.2

/-- utils.cpp:384-387: `while (out.size() % 4) out.push_back('=');`. -/
def pad (out : List Byte) : List Byte :=
  if out.length % 4 = 0 then out else pad (out ++ [61#8])
termination_by (4 - out.length % 4) % 4
decreasing_by simp; omega

/-- `base64_encode`, utils.cpp:364-389. -/
def encode (s : List Byte) : List Byte :=
  let (val, valb, out) := encLoop s 0#32 (-6) []
  let out := if valb > -6 then out ++ [digit ((val <<< 8).sshiftRight (valb + 8).toNat)] else out
  pad out

/-- The table `T` of utils.cpp:397-401: 256 entries, -1 (here `none`) except
`T[alphabet[i]] = i`. -/
def table : List (Option Nat) :=
  (List.range 64).foldl (fun t i => t.set (alphabet.getD i 0#8).toNat (some i))
    (List.replicate 256 none)

/-- Loop of `base64_decode`, utils.cpp:404-417; `T[c] == -1` breaks. -/
def decLoop : List Byte → I32 → Int → List Byte → List Byte
  | [], _, _, out => out
  | c :: cs, val, valb, out =>
    match table.getD c.toNat none with
    | none => out
    | some d =>
      let val := (val <<< 6) + BitVec.ofNat 32 d
      let valb := valb + 6
      if 0 ≤ valb then
        decLoop cs val (valb - 8) (out ++ [((val.sshiftRight valb.toNat) &&& 0xFF#32).setWidth 8])
      else decLoop cs val valb out

/-- `base64_decode`, utils.cpp:392-419. -/
def decode (s : List Byte) : List Byte := decLoop s 0#32 (-8) []

/-! ### The C++14/17 reading of `<<` on `int`

[expr.shift] before C++20: `E1 << E2` with signed `E1` is undefined when `E1` is
negative or `E1 * 2^E2` is not representable in the corresponding unsigned type. -/

/-- `v << k` with undefined behaviour as `none`. -/
def shlStrict (v : I32) (k : Nat) : Option I32 :=
  if v.msb ∨ 2 ^ 32 ≤ v.toNat * 2 ^ k then none else some (v <<< k)

/-- utils.cpp:370-379 with strict shifts.  (The addition cannot overflow: the low 8
bits of the shifted value are 0 and `c < 256`.) -/
def encLoopStrict : List Byte → I32 → Int → List Byte → Option (I32 × Int × List Byte)
  | [], val, valb, out => some (val, valb, out)
  | c :: cs, val, valb, out =>
    match shlStrict val 8 with
    | none => none
    | some v =>
      let val := v + c.setWidth 32
      let r := emit val (valb + 8) out
      encLoopStrict cs val r.1 r.2

/-- `base64_encode` with strict shifts. -/
def encodeStrict (s : List Byte) : Res (List Byte) :=
  match encLoopStrict s 0#32 (-6) [] with
  | none => .ub
  | some (val, valb, out) =>
    if valb > -6 then
      match shlStrict val 8 with
      | none => .ub
      | some v => .ok (pad (out ++ [digit (v.sshiftRight (valb + 8).toNat)]))
    else .ok (pad out)

/-- utils.cpp:404-417 with strict shifts. -/
def decLoopStrict : List Byte → I32 → Int → List Byte → Option (List Byte)
  | [], _, _, out => some out
  | c :: cs, val, valb, out =>
    match table.getD c.toNat none with
    | none => some out
    | some d =>
      match shlStrict val 6 with
      | none => none
      | some v =>
        let val := v + BitVec.ofNat 32 d
        let valb := valb + 6
        if 0 ≤ valb then
          decLoopStrict cs val (valb - 8)
            (out ++ [((val.sshiftRight valb.toNat) &&& 0xFF#32).setWidth 8])
        else decLoopStrict cs val valb out

/-- `base64_decode` with strict shifts. -/
def decodeStrict (s : List Byte) : Res (List Byte) :=
  match decLoopStrict s 0#32 (-8) [] with
  | none => .ub
  | some out => .ok out

end Verif.Base64
