import Verif.Model.Basic
/-!
`FileAccessMode` and `is_file_accessible` (`cpp_utils/include/cpp_utils/utils.hpp`:39-66, 190-213 and
`cpp_utils/src/cpp/utils.cpp`:55-71, 239-256), on top of `access` of POSIX.
-/
namespace Verif.FileAccess

/-- `FileAccessModeType` is `int`, utils.hpp:39; an enumerator, or what the operators make of several, is one. -/
abbrev Mode := BitVec 32

/-- `FileAccessMode::exist`, utils.hpp:48. -/
def exist : Mode := 0
/-- `FileAccessMode::read`, utils.hpp:49. -/
def read : Mode := 4
/-- `FileAccessMode::write`, utils.hpp:50. -/
def write : Mode := 2
/-- `FileAccessMode::exec`, utils.hpp:51. -/
def exec : Mode := 1
/-- `FileAccessMode::read_write`, utils.hpp:52. -/
def read_write : Mode := read ||| write
/-- `FileAccessMode::read_exec`, utils.hpp:53. -/
def read_exec : Mode := read ||| exec
/-- `FileAccessMode::read_write_exec`, utils.hpp:54. -/
def read_write_exec : Mode := read ||| write ||| exec
/-- `FileAccessMode::write_exec`, utils.hpp:55. -/
def write_exec : Mode := write ||| exec

/-- `operator |`, utils.cpp:55-61. -/
def union (a b : Mode) : Mode := a ||| b

/-- `operator &`, utils.cpp:64-70. -/
def inter (a b : Mode) : Mode := a &&& b

/-- What the process may do with an existing file. -/
structure Perm where
  mayRead : Bool
  mayWrite : Bool
  mayExec : Bool

/-- `access(path, mode) != -1`, used in utils.cpp:255, for a file that does not exist (or cannot be reached) or exists
with what the process may do with it: POSIX checks every permission whose bit (`R_OK` 4, `W_OK` 2, `X_OK` 1) is set, and
fails with `EINVAL` for any other bit. -/
def access (file : Option Perm) (mode : Mode) : Bool :=
  match file with
  | none => false
  | some p =>
    decide (mode &&& ~~~7#32 = 0) && (decide (mode &&& 4 = 0) || p.mayRead) &&
      (decide (mode &&& 2 = 0) || p.mayWrite) && (decide (mode &&& 1 = 0) || p.mayExec)

/-- `is_file_accessible`, utils.cpp:239-256; `windows`: with lines 243-254.  (`_access` of Windows, which knows the modes
0, 2, 4 and 6 only, is taken to do the same with these.) -/
def isFileAccessible (windows : Bool) (file : Option Perm) (mode : Mode) : Bool :=
  if windows && decide (inter exec mode = exec) then access file (mode &&& ~~~exec) else access file mode

end Verif.FileAccess
