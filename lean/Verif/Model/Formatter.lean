import Verif.Model.Basic
/-!
`Formatter`, `cpp_utils/src/cpp/Formatter.cpp` and `impl/Formatter.ipp`.
-/
namespace Verif.Formatter

/-- The object: the content of the `std::stringstream ss_` (Formatter.hpp:59-60). -/
structure Formatter where
  ss : Str := []

/-- `operator <<`, impl/Formatter.ipp:24-30.  The value is given by the text its own
stream operator writes. -/
def Formatter.stream (f : Formatter) (text : Str) : Formatter := ⟨f.ss ++ text⟩

/-- `to_string`, Formatter.cpp:30-33: `return ss_.str().c_str();`, i.e. a
`std::string` built from a NUL-terminated character array. -/
def Formatter.toString (f : Formatter) : Str := f.ss.takeWhile (· ≠ '\x00')

end Verif.Formatter
