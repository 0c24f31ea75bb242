import Verif.Model.FileWatch

/-!
What `filewatch::FileWatch<std::string>` (`thirdparty/filewatch/FileWatch.hpp`, the branches for `_WIN32`) makes of paths and
of the bytes that `ReadDirectoryChangesW` writes.  Texts of `std::string` are lists of bytes here, names of the system lists of 16-bit
units.
-/
namespace Verif.FileWatchWin
open Verif.FileWatch (Byte word)

/-- The characters that end a directory, `/repo/thirdparty/filewatch/FileWatch.hpp:289-296`. -/
def isSep (b : Byte) : Bool := b = 0x5C#8 || b = 0x2F#8

/-- `split_directory_and_file`, `/repo/thirdparty/filewatch/FileWatch.hpp:286-309`. -/
def split (path : List Byte) : List Byte × List Byte :=
  let filename := (path.reverse.takeWhile (fun b => !isSep b)).reverse
  let directory := (path.reverse.dropWhile (fun b => !isSep b)).reverse
  (if directory.length > 0 then directory else [0x2E#8, 0x2F#8], filename)

/-- `get_directory` for a path of a file, `/repo/thirdparty/filewatch/FileWatch.hpp:352-392`: the directory that is watched,
with all directories below it (line 431), and `_filename`. -/
def getFile (path : List Byte) : List Byte × List Byte := split path

/-- `pass_filter` for a single file, `/repo/thirdparty/filewatch/FileWatch.hpp:311-321`. -/
def pass (filename changed : List Byte) : Bool := (split changed).2 == filename

/-- `WideCharToMultiByte(CP_UTF8, …)` for one unit, `/repo/thirdparty/filewatch/FileWatch.hpp:394-401`.  Simplified: units that
are characters of their own (no surrogates). -/
def utf8 (u : Nat) : List Byte :=
  if u < 0x80 then [BitVec.ofNat 8 u]
  else if u < 0x800 then [BitVec.ofNat 8 (0xC0 + u / 64), BitVec.ofNat 8 (0x80 + u % 64)]
  else [BitVec.ofNat 8 (0xE0 + u / 4096), BitVec.ofNat 8 (0x80 + u / 64 % 64), BitVec.ofNat 8 (0x80 + u % 64)]

/-- `convert_wstring`, `/repo/thirdparty/filewatch/FileWatch.hpp:394-401`. -/
def convert (w : List Nat) : List Byte := w.flatMap utf8

/-- `filewatch::Event`, `/repo/thirdparty/filewatch/FileWatch.hpp:65-72`. -/
inductive Change
  | added
  | removed
  | modified
  | renamedOld
  | renamedNew
deriving DecidableEq

/-- `_event_type_mapping`, `/repo/thirdparty/filewatch/FileWatch.hpp:196-202`, with the numbers of <winnt.h>; `at` throws for
others. -/
def actionOf : Nat → Option Change
  | 1 => some .added
  | 2 => some .removed
  | 3 => some .modified
  | 4 => some .renamedOld
  | 5 => some .renamedNew
  | _ => none

/-- The units of a name in memory (least byte first). -/
def units : Nat → List Byte → List Nat
  | 0, _ => []
  | n + 1, bs => ((bs.getD 0 0#8).toNat + 256 * (bs.getD 1 0#8).toNat) :: units n (bs.drop 2)

/-- The loop over the buffer, `/repo/thirdparty/filewatch/FileWatch.hpp:453-475`: `buffer` are the bytes from
`file_information` up to `bytes_returned`; a `FILE_NOTIFY_INFORMATION` has `NextEntryOffset`, `Action`, `FileNameLength` (in bytes)
of four bytes each, and then the name.  `none` if anything beyond `bytes_returned` would be read.  `fuel` bounds the number of
entries. -/
def walk : Nat → List Byte → Option (List (Nat × List Nat))
  | 0, _ => none
  | fuel + 1, buffer =>
    if buffer.length < 12 then none
    else if buffer.length < 12 + word (buffer.drop 8) then none
    else
      let entry := (word (buffer.drop 4), units (word (buffer.drop 8) / 2) (buffer.drop 12))
      if word buffer = 0 then some [entry]
      else (walk fuel (buffer.drop (word buffer))).map (entry :: ·)

/-- What is noted for the entries, in order, `/repo/thirdparty/filewatch/FileWatch.hpp:456-465`; `none` if `at` throws, which ends
the thread that watches. -/
def noted (filename : List Byte) : List (Nat × List Nat) → Option (List (List Byte × Change))
  | [] => some []
  | (action, name) :: es =>
    if pass filename (convert name) then
      match actionOf action with
      | none => none
      | some c => (noted filename es).map ((convert name, c) :: ·)
    else noted filename es

/-- One round of `monitor_directory`, `/repo/thirdparty/filewatch/FileWatch.hpp:426-491`: what is noted when the system has
written these bytes, `none` for an error.  No bytes (line 448): nothing. -/
def round (filename : List Byte) (written : List Byte) : Option (List (List Byte × Change)) :=
  if written.length = 0 then some []
  else (walk written.length written).bind (noted filename)

/-- `_buffer_size`, `/repo/thirdparty/filewatch/FileWatch.hpp:165`. -/
def bufferSize : Nat := 1024 * 256

/-- `ReadDirectoryChangesW` (as its manual says): what does not fit into the buffer is dropped as a whole, and no bytes are
returned. -/
def system (bytes : List Byte) : List Byte := if bytes.length ≤ bufferSize then bytes else []

/-- What a `FileWatcherHandler` for `path` calls its callback with,
`/repo/cpp_utils/src/cpp/event/FileWatcherHandler.cpp:62-74`. -/
def reported (path : List Byte) (bytes : List Byte) : Option (List (List Byte)) :=
  (round (getFile path).2 (system bytes)).map fun l => l.filterMap fun x => if x.2 = .modified then some x.1 else none

/-- Why the system tells of a file: the flags `FILE_NOTIFY_CHANGE_…`. -/
inductive Cause
  | security
  | creation
  | lastAccess
  | lastWrite
  | size
  | attributes
  | dirName
  | fileName
deriving DecidableEq

/-- `_listen_filters`, `/repo/thirdparty/filewatch/FileWatch.hpp:186-194`. -/
def listens : Cause → Bool
  | .security | .creation | .lastAccess | .lastWrite | .size | .attributes | .dirName | .fileName => true

/-- What programs do with a file that is there. -/
inductive Use
  | read
  | write (text : List Byte)
  | setAttributes
  | setSecurity
deriving DecidableEq

/-- The text of the file afterwards. -/
def Use.text (old : List Byte) : Use → List Byte
  | .write t => t
  | _ => old

/-- What the system takes note of; `accessTimes` says whether the volume keeps times of last access. -/
def Use.causes (accessTimes : Bool) : Use → List Cause
  | .read => if accessTimes then [.lastAccess] else []
  | .write _ => [.lastWrite, .size]
  | .setAttributes => [.attributes]
  | .setSecurity => [.security]

/-- The entry written for it, `FILE_ACTION_MODIFIED`, if one of the causes is listened to
(`/repo/thirdparty/filewatch/FileWatch.hpp:428-434`). -/
def Use.entry (accessTimes : Bool) (name : List Nat) (u : Use) : Option (Nat × List Nat) :=
  if (u.causes accessTimes).any listens then some (3, name) else none

end Verif.FileWatchWin
