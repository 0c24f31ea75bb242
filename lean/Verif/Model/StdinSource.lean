import Verif.Model.Editor
/-!
Where a `StdinEventHandler` reads from (`cpp_utils/src/cpp/event/StdinEventHandler.cpp`).
-/
namespace Verif.Editor

/-- Arguments of the constructor, StdinEventHandler.hpp:59-63; `source` is what the stream contains. -/
structure Args where
  readLines : Bool
  lines : Nat
  source : Str

/-- A new handler, StdinEventHandler.cpp:193-203: `source_` and `read_lines_` are stored and never used, characters come
from `getchar()` (lines 304-308), so from the standard input `stdin`. -/
def construct (a : Args) (stdin : Str) : St := init stdin a.lines

end Verif.Editor
