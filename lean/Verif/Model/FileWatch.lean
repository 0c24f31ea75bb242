import Verif.Model.Basic
/-!
What `filewatch::FileWatch<std::string>` (`thirdparty/filewatch/FileWatch.hpp`, the branch for `__unix__`) makes of paths
and of the bytes it reads from `inotify`.
-/
namespace Verif.FileWatch

/-- `split_directory_and_file`, FileWatch.hpp:286-309: directory and file name. -/
def split (path : Str) : Str × Str :=
  let filename := (path.reverse.takeWhile (· ≠ '/')).reverse
  let directory := (path.reverse.dropWhile (· ≠ '/')).reverse
  (if directory.length > 0 then directory else c!"./", filename)

/-- `_watching_single_file` and `_filename`, FileWatch.hpp:168-169. -/
inductive Filter
  | file (name : Str)
  | directory
deriving DecidableEq

/-- `get_directory`, FileWatch.hpp:516-549, for a path that exists: the directory to watch and the filter.  `isFile` is what
`stat` says, FileWatch.hpp:505-514. -/
def getDirectory (path : Str) (isFile : Bool) : Str × Filter :=
  if isFile then ((split path).1, .file (split path).2) else (path, .directory)

/-- `pass_filter`, FileWatch.hpp:311-321; the pattern is ".*" (FileWatch.hpp:104-109), whose "." is any character but the
end of a line. -/
def pass (f : Filter) (name : Str) : Bool :=
  match f with
  | .file n => (split name).2 == n
  | .directory => name.all fun c => c ≠ '\n' && c ≠ '\r'

/-- `filewatch::Event`, FileWatch.hpp:65-72 (the ones used on this platform). -/
inductive Change
  | added
  | removed
  | modified
deriving DecidableEq

/-- An event of the kernel: the name of the file in the directory (some events have none), and whether the bits
`IN_CREATE`, `IN_DELETE`, `IN_MODIFY` are set in its mask. -/
structure Ev where
  name : Option Str
  create : Bool
  delete : Bool
  modify : Bool
deriving DecidableEq

/-- What is noted for an event, FileWatch.hpp:566-584. -/
def note (f : Filter) (e : Ev) : Option (Str × Change) :=
  match e.name with
  | none => none
  | some n =>
    if pass f n then
      if e.create then some (n, .added)
      else if e.delete then some (n, .removed)
      else if e.modify then some (n, .modified)
      else none
    else none

/-- What is noted for the events of one `read`, FileWatch.hpp:562-586. -/
def notes (f : Filter) (es : List Ev) : List (Str × Change) := es.filterMap (note f)

abbrev Byte := BitVec 8

/-- A `uint32_t` in memory (least byte first). -/
def word (bs : List Byte) : Nat :=
  (bs.getD 0 0#8).toNat + 256 * (bs.getD 1 0#8).toNat + 65536 * (bs.getD 2 0#8).toNat + 16777216 * (bs.getD 3 0#8).toNat

/-- The C string that starts with these bytes, as a text. -/
def cstring (bs : List Byte) : Str := (bs.takeWhile (· ≠ 0#8)).map fun b => Char.ofNat b.toNat

/-- Bit `k` of a mask. -/
def bit (k mask : Nat) : Bool := mask.testBit k

/-- The loop over the buffer, FileWatch.hpp:561-586: `buffer` are the bytes from index `i` up to `length`; the structure
`inotify_event` has `wd`, `mask`, `cookie` and `len` of four bytes each, and then the name.  An event whose 16 bytes are not
all below `length` would be read beyond what the kernel wrote: `none`.  `IN_MODIFY` is bit 1, `IN_CREATE` bit 8 and
`IN_DELETE` bit 9.  `fuel` bounds the number of events. -/
def scan : Nat → List Byte → Option (List Ev)
  | _, [] => some []
  | 0, _ :: _ => none
  | fuel + 1, buffer =>
    if buffer.length < 16 then none
    else
      let mask := word (buffer.drop 4)
      let len := word (buffer.drop 12)
      if buffer.length < 16 + len then none
      else
        let name := if len ≠ 0 then some (cstring (buffer.drop 16)) else none
        (scan fuel (buffer.drop (16 + len))).map (⟨name, bit 8 mask, bit 9 mask, bit 1 mask⟩ :: ·)

/-- The events in the buffer after `read`. -/
def readEvents (buffer : List Byte) : Option (List Ev) := scan buffer.length buffer

end Verif.FileWatch
