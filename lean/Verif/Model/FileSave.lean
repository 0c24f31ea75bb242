import Verif.Model.FileWatch
/-!
What `inotify` says, with the mask that `filewatch::FileWatch` gives it, when programs change files: a model of
directories with hard and symbolic links.  It is the behaviour of the kernel (inotify(7)) that is modelled here, as far
as the `IN_MODIFY | IN_CREATE | IN_DELETE` of `thirdparty/filewatch/FileWatch.hpp:543` let it through.
-/
namespace Verif.FileSave
open Verif.FileWatch (Ev)

/-- A path: the directory, with its final slash, and the name in it, as FileWatch.hpp:286-309 takes it apart. -/
structure Path where
  dir : Str
  name : Str
deriving DecidableEq

/-- What a name stands for: a file (its inode), or a symbolic link to a path.  (Simplified: the target of a link is a
file, there are no links to links, to directories or to nothing.) -/
inductive Entry
  | file (inode : Nat)
  | link (target : Path)
deriving DecidableEq

/-- A file, and not a link (FileWatch.hpp:505-514 asks `stat`, which follows links; `rename` does not). -/
def Entry.isFile : Entry → Bool
  | .file _ => true
  | .link _ => false

/-- The files: entries of directories, contents of inodes, and the next inode. -/
structure Files where
  entry : Path → Option Entry
  data : Nat → Str
  fresh : Nat

/-- The file that is opened when `p` is: links are followed, as `stat` does in FileWatch.hpp:508. -/
def Files.opens (fs : Files) (p : Path) : Option (Path × Nat) :=
  match fs.entry p with
  | some (.file n) => some (p, n)
  | some (.link q) =>
    match fs.entry q with
    | some (.file n) => some (q, n)
    | _ => none
  | none => none

/-- The text that is read from `p`. -/
def Files.content (fs : Files) (p : Path) : Option Str := (fs.opens p).map fun x => fs.data x.2

/-- `p` stands for `e` from now on. -/
def Files.setEntry (fs : Files) (p : Path) (e : Option Entry) : Files :=
  { fs with entry := fun q => if q = p then e else fs.entry q }

/-- The text of inode `n` is `s` from now on. -/
def Files.setData (fs : Files) (n : Nat) (s : Str) : Files :=
  { fs with data := fun m => if m = n then s else fs.data m }

/-- What programs do with files. -/
inductive Op
  /-- open for writing with `O_TRUNC` -/
  | truncate (p : Path)
  /-- `write` at the end -/
  | append (p : Path) (s : Str)
  /-- a new and empty file -/
  | create (p : Path)
  | unlink (p : Path)
  /-- `rename`, which replaces the target -/
  | rename (p q : Path)
  /-- a new hard link `q` to the file `p` -/
  | hardLink (p q : Path)
  /-- a new symbolic link `q` to `p` -/
  | symLink (p q : Path)
deriving DecidableEq

/-- An event of the kernel for the watches of a directory. -/
abbrev Event := Str × Ev

/-- `IN_MODIFY` for `p`. -/
def modified (p : Path) : Event := (p.dir, ⟨some p.name, false, false, true⟩)

/-- `IN_CREATE` for `p`. -/
def created (p : Path) : Event := (p.dir, ⟨some p.name, true, false, false⟩)

/-- `IN_DELETE` for `p`. -/
def deleted (p : Path) : Event := (p.dir, ⟨some p.name, false, true, false⟩)

/-- The effect of an operation, and the events that pass the mask `IN_MODIFY | IN_CREATE | IN_DELETE` (FileWatch.hpp:543):
a modification counts for the name by which the file was opened, once links have been followed, and a `rename` only makes
`IN_MOVED_FROM` and `IN_MOVED_TO` (and does nothing between two names of one file).  An operation that fails does
nothing.  (Simplified: the kernel may merge equal events that follow each other, and may drop events when its queue is
full; writes through a memory map, which make no event, and operations on directories are left out.) -/
def step (fs : Files) : Op → Files × List Event
  | .truncate p =>
    match fs.opens p with
    | some (q, n) => (fs.setData n [], [modified q])
    | none => (fs, [])
  | .append p s =>
    match fs.opens p with
    | some (q, n) => if s = [] then (fs, []) else (fs.setData n (fs.data n ++ s), [modified q])
    | none => (fs, [])
  | .create p =>
    match fs.entry p with
    | none => ({ fs.setEntry p (some (.file fs.fresh)) with
        data := fun m => if m = fs.fresh then [] else fs.data m, fresh := fs.fresh + 1 }, [created p])
    | some _ => (fs, [])
  | .unlink p =>
    match fs.entry p with
    | some _ => (fs.setEntry p none, [deleted p])
    | none => (fs, [])
  | .rename p q =>
    match fs.entry p with
    | some e =>
      if p = q ∨ e.isFile = true ∧ fs.entry q = some e then (fs, [])
      else ((fs.setEntry q (some e)).setEntry p none, [])
    | none => (fs, [])
  | .hardLink p q =>
    match fs.entry p, fs.entry q with
    | some (.file n), none => (fs.setEntry q (some (.file n)), [created q])
    | _, _ => (fs, [])
  | .symLink p q =>
    match fs.entry p, fs.entry q with
    | some (.file _), none => (fs.setEntry q (some (.link p)), [created q])
    | _, _ => (fs, [])

/-- Several operations. -/
def run (fs : Files) : List Op → Files × List Event
  | [] => (fs, [])
  | op :: ops => let r := run (step fs op).1 ops; (r.1, (step fs op).2 ++ r.2)

/-- What a watch for the file `p` notes (FileWatch.hpp:516-549 and 566-584) and `FileWatcherHandler` reports, which is
interested in modifications only (FileWatcherHandler.cpp:64-74): the names, in order.  `path` is the path as text. -/
def reported (path : Str) (es : List Event) : List Str :=
  let w := FileWatch.getDirectory path true
  (FileWatch.notes w.2 ((es.filter fun e => e.1 = w.1).map (·.2))).filterMap fun x =>
    if x.2 = .modified then some x.1 else none

end Verif.FileSave
