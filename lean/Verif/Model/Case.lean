import Verif.Model.Basic
/-!
Case conversion, `cpp_utils/src/cpp/utils.cpp:106-124`.
-/
namespace Verif.Case

abbrev Byte := BitVec 8

/-- `std::tolower` in the "C" locale (ISO C 7.4.2.1): only `A`-`Z` (65-90) change.
Library behaviour, assumed. -/
def lowerByte (c : Byte) : Byte := if 65#8 ≤ c ∧ c ≤ 90#8 then c + 32#8 else c

/-- `std::toupper` in the "C" locale: only `a`-`z` (97-122) change. -/
def upperByte (c : Byte) : Byte := if 97#8 ≤ c ∧ c ≤ 122#8 then c - 32#8 else c

/-- utils.cpp:106-114: `std::transform` over the whole string, through `unsigned char`. -/
def toLowercase (s : List Byte) : List Byte := s.map lowerByte

/-- utils.cpp:116-124. -/
def toUppercase (s : List Byte) : List Byte := s.map upperByte

end Verif.Case
