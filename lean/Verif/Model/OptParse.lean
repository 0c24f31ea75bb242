import Verif.Model.Basic
/-!
The option parser `thirdparty/optionparser/optionparser.h` (everything but `printUsage`, which is in `Model/Usage.lean`).

Simplified: arguments are lists of characters without a null one; an argument vector is the list of its elements before the
null pointer; a pointer into an argument is the rest of the argument from there; a `CheckArg` function depends on `name` and `arg`
of the option alone; fewer than 2^31 - 1 options (the overflow protection, lines 1635-1638 and 1692-1696, is left out);
`type` and `help` of a descriptor are not used by the parser.
-/
namespace Verif.OptParse

/-- `ArgStatus`, optionparser.h:252-262. -/
inductive Status
  | none
  | ok
  | ignore
  | illegal
deriving DecidableEq

/-- `Descriptor`, optionparser.h:318-426. -/
structure Desc where
  index : Nat
  short : List Char
  long : Str
  check : Str → Option Str → Status

/-- `Option` without its links, optionparser.h:470-494: the position of its descriptor in the table, `name` and `arg`. -/
structure Opt where
  desc : Nat
  name : Str
  arg : Option Str
deriving DecidableEq

/-- `namelen`, optionparser.h:863-876, of a name that is not empty. -/
def namelen (name : Str) : Nat :=
  if name.head? = some '-' then 1 + ((name.drop 1).takeWhile (· ≠ '=')).length else 1

/-- `Arg::None`, optionparser.h:956-961. -/
def checkNone : Str → Option Str → Status := fun _ _ => .none

/-- `Arg::Optional`, optionparser.h:964-976. -/
def checkOptional : Str → Option Str → Status := fun name arg =>
  if arg.isSome ∧ name.drop (namelen name) ≠ [] then .ok else .ignore

/-- `streq`, optionparser.h:1482-1494. -/
def streq : Str → Str → Bool
  | [], t => t.isEmpty || t.head? == some '='
  | _ :: _, [] => false
  | c :: s, d :: t => c == d && streq s t

/-- Loop of `streqabbr`, optionparser.h:1525-1530: the number of steps. -/
def common : Str → Str → Nat
  | c :: s, d :: t => if c = d then common s t + 1 else 0
  | _, _ => 0

/-- `streqabbr`, optionparser.h:1520-1533. -/
def streqabbr (s t : Str) (min : Int) : Bool :=
  (common s t == s.length || (decide (min > 0) && decide ((common s t : Int) ≥ min))) &&
    ((t.drop (common s t)).isEmpty || (t.drop (common s t)).head? == some '=')

/-- Search of a long option, optionparser.h:1846-1875: `none` stands for the last entry of the table. -/
def findLong (usage : List Desc) (name : Str) (min : Int) : Option Nat :=
  match usage.findIdx? fun d => streq d.long name with
  | some i => some i
  | none =>
    if min > 0 then
      match usage.findIdx? fun d => streqabbr d.long name min with
      | none => none
      | some i => if (usage.drop (i + 1)).any fun d => streqabbr d.long name min then none else some i
    else none

/-- Search of a short option, optionparser.h:1909-1913 (`instr`, 1541-1550). -/
def findShort (usage : List Desc) (c : Char) : Option Nat := usage.findIdx? fun d => d.short.contains c

/-- The descriptor for unknown options, optionparser.h:1928-1937. -/
def findDummy (usage : List Desc) : Option Nat := usage.findIdx? fun d => d.short.isEmpty && d.long.isEmpty

/-- `optarg`: none, within the argument, or the next argument. -/
inductive Potential
  | none
  | attached (s : Str)
  | detached (s : Str)
deriving DecidableEq

def Potential.text : Potential → Option Str
  | .none => Option.none
  | .attached s | .detached s => some s

/-- `have_more_args ? args[1] : 0`, optionparser.h:1897, 1917. -/
def detach : Option Str → Potential
  | none => .none
  | some s => .detached s

/-- `optarg` of a long option, optionparser.h:1885-1898. -/
def longArg (name : Str) (next : Option Str) : Potential :=
  match name.dropWhile (· ≠ '=') with
  | [] => detach next
  | _ :: s => .attached s

/-- What becomes of one argument: an error, options, or options the last of which takes the next argument. -/
inductive Fate
  | illegal
  | plain
  | took
deriving DecidableEq

/-- `check_arg` and its consequences, optionparser.h:1939-1972: the option stored, and whether it has got the argument. -/
def handle (usage : List Desc) (i : Nat) (name : Str) (a : Potential) : Option (Opt × Bool) :=
  match usage[i]? with
  | none => none
  | some d =>
    match d.check name a.text with
    | .illegal => none
    | .ok => some (⟨i, name, a.text⟩, true)
    | .none | .ignore => some (⟨i, name, none⟩, false)

/-- Whether the argument vector is advanced, optionparser.h:1948. -/
def Potential.fate : Potential → Fate
  | .detached _ => .took
  | _ => .plain

/-- A group of short options, optionparser.h:1839-1974. -/
def shorts (usage : List Desc) (next : Option Str) : Str → List Opt × Fate
  | [] => ([], .plain)
  | c :: r =>
    let a := if r = [] then detach next else .attached r
    match (findShort usage c).or (findDummy usage) with
    | none => shorts usage next r
    | some i =>
      match handle usage i (c :: r) a with
      | none => ([], .illegal)
      | some (o, true) => ([o], a.fate)
      | some (o, false) => (o :: (shorts usage next r).1, (shorts usage next r).2)

/-- A long option with this descriptor, optionparser.h:1839-1974. -/
def longs (usage : List Desc) (next : Option Str) (param name : Str) : Option Nat → List Opt × Fate
  | none => ([], .plain)
  | some i =>
    match handle usage i param (longArg name next) with
    | none => ([], .illegal)
    | some (o, true) => ([o], (longArg name next).fate)
    | some (o, false) => ([o], .plain)

/-- The arguments of the parser that stay the same: `gnu`, `usage`, `min_abbr_len`, `single_minus_longopt`. -/
structure Cfg where
  gnu : Bool
  usage : List Desc
  min : Int
  single : Bool

/-- One argument that begins with a minus, optionparser.h:1823-1974; `next`: the argument after it. -/
def one (c : Cfg) (param : Str) (next : Option Str) : List Opt × Fate :=
  if param.take 2 = c!"--" then
    longs c.usage next param (param.drop 2) ((findLong c.usage (param.drop 2) c.min).or (findDummy c.usage))
  else
    match if c.single then findLong c.usage (param.drop 1) c.min else none with
    | some i => longs c.usage next param (param.drop 1) (some i)
    | none => shorts c.usage next (param.drop 1)

/-- Exchange of two elements. -/
def swap (v : List Str) (i j : Nat) : List Str :=
  match v[i]?, v[j]? with
  | some a, some b => (v.set i b).set j a
  | _, _ => v

/-- `shift`, optionparser.h:1557-1567; `pos` is the place of `args[0]`. -/
def shift (v : List Str) (pos : Nat) : Nat → List Str
  | 0 => v
  | count + 1 => shift (swap v pos (pos - 1)) (pos - 1) count

/-- Variables of `workhorse`: the vector, the place of `args`, `nonops` and `numargs`. -/
structure St where
  vec : List Str
  pos : Nat
  nonops : Nat
  numargs : Nat

/-- What a call of `workhorse` does: the options given to the action, whether it fails, the vector after it, and if it does not fail, the
arguments of `finished`: how many arguments are left and where they begin. -/
structure Out where
  opts : List Opt
  err : Bool
  vec : List Str
  count : Nat
  start : Nat
deriving DecidableEq

/-- After the loop, optionparser.h:1985-2000. -/
def finish (s : St) (acc : List Opt) : Out :=
  ⟨acc, false, s.vec, (if s.vec[s.pos]? = none then 0 else s.numargs) + s.nonops, s.pos - s.nonops⟩

/-- "Advance": optionparser.h:1814-1819, 1950-1955, 1976-1981. -/
def St.advance (s : St) : St :=
  { s with vec := shift s.vec s.pos s.nonops, pos := s.pos + 1, numargs := s.numargs - 1 }

/-- Loop of `workhorse`, optionparser.h:1787-1983. -/
def work (c : Cfg) : Nat → St → List Opt → Out
  | 0, s, acc => finish s acc
  | fuel + 1, s, acc =>
    if s.numargs = 0 then finish s acc else
    match s.vec[s.pos]? with
    | none => finish s acc
    | some p =>
      if p.head? ≠ some '-' ∨ p.length = 1 then
        if c.gnu then work c fuel { s with nonops := s.nonops + 1, pos := s.pos + 1, numargs := s.numargs - 1 } acc
        else finish s acc
      else if p = c!"--" then finish s.advance acc
      else
        match one c p (if s.numargs > 1 then s.vec[s.pos + 1]? else none) with
        | (o, .illegal) => ⟨acc ++ o, true, s.vec, 0, 0⟩
        | (o, .plain) => work c fuel s.advance (acc ++ o)
        | (o, .took) => work c fuel s.advance.advance (acc ++ o)

/-- `workhorse`, optionparser.h:1769-2001.  `argc`: `none` is -1. -/
def workhorse (c : Cfg) (argc : Option Nat) (argv : List Str) : Out :=
  work c (argc.getD argv.length) ⟨argv, 0, 0, argc.getD argv.length⟩ []

/-! ### `Stats` -/

/-- `Stats`, optionparser.h:989-1022. -/
structure Stats where
  bufferMax : Nat := 1
  optionsMax : Nat := 1
deriving DecidableEq

/-- Loop over the table, optionparser.h:1755-1763. -/
def Stats.table (m : Nat) (usage : List Desc) : Nat := usage.foldl (fun m d => if d.index + 1 ≥ m then d.index + 1 + 1 else m) m

/-- `Stats::add`, optionparser.h:1745-1767: the object and the argument vector after it. -/
def Stats.add (s : Stats) (c : Cfg) (argc : Option Nat) (argv : List Str) : Stats × List Str :=
  let r := workhorse c argc argv
  (⟨s.bufferMax + r.opts.length, Stats.table s.optionsMax c.usage⟩, r.vec)

/-! ### Storing options -/

/-- A pointer to an `Option` of the arrays `options` or `buffer`. -/
inductive Ref
  | option (i : Nat)
  | buffer (i : Nat)
deriving DecidableEq

/-- An `Option` with its links, optionparser.h:445-515: `none` is an object whose `desc` is null; the flag of a link is the tag. -/
structure Cell where
  val : Option Opt
  next : Ref × Bool
  prev : Ref × Bool
deriving DecidableEq

/-- An object with its links as `init` leaves it, optionparser.h:853-877. -/
def fresh (r : Ref) (o : Option Opt) : Cell := ⟨o, (r, true), (r, true)⟩

structure Heap where
  options : List Cell
  buffer : List Cell
deriving DecidableEq

def Heap.get (h : Heap) : Ref → Option Cell
  | .option i => h.options[i]?
  | .buffer i => h.buffer[i]?

def Heap.set (h : Heap) (r : Ref) (x : Cell) : Heap :=
  match r with
  | .option i => { h with options := h.options.set i x }
  | .buffer i => { h with buffer := h.buffer.set i x }

/-- Arrays of default-constructed options, optionparser.h:795-803. -/
def Heap.new (options buffer : Nat) : Heap :=
  ⟨(List.range options).map fun i => fresh (.option i) none, (List.range buffer).map fun i => fresh (.buffer i) none⟩

/-- `first`, optionparser.h:613-621; `none`: an invalid pointer, or the loop does not end. -/
def first (h : Heap) : Nat → Ref → Option Ref
  | 0, _ => none
  | fuel + 1, r =>
    match h.get r with
    | none => none
    | some x => if x.prev.2 then some r else first h fuel x.prev.1

/-- Enough steps for any list. -/
def Heap.size (h : Heap) : Nat := h.options.length + h.buffer.length

/-- `last`, optionparser.h:647-650, 681-684. -/
def last (h : Heap) (r : Ref) : Option Ref :=
  match first h h.size r with
  | none => none
  | some f => (h.get f).map (·.prev.1)

/-- `next`, optionparser.h:702-705: outer `none` invalid, inner `none` null. -/
def next (h : Heap) (r : Ref) : Option (Option Ref) :=
  (h.get r).map fun x => if x.next.2 then none else some x.next.1

/-- `prev`, optionparser.h:668-671. -/
def prev (h : Heap) (r : Ref) : Option (Option Ref) :=
  (h.get r).map fun x => if x.prev.2 then none else some x.prev.1

/-- Loop of `count`, optionparser.h:568-572. -/
def countFrom (h : Heap) : Nat → Ref → Option Nat
  | 0, _ => none
  | fuel + 1, r =>
    match h.get r with
    | none => none
    | some x => if x.next.2 then some 0 else (countFrom h fuel x.next.1).map (· + 1)

/-- `count`, optionparser.h:564-574. -/
def count (h : Heap) (r : Ref) : Option Nat :=
  match h.get r, first h h.size r with
  | some x, some f => (countFrom h h.size f).map (· + if x.val.isNone then 0 else 1)
  | _, _ => none

def setNext (h : Heap) (r : Ref) (l : Ref × Bool) : Option Heap := (h.get r).map fun x => h.set r { x with next := l }
def setPrev (h : Heap) (r : Ref) (l : Ref × Bool) : Option Heap := (h.get r).map fun x => h.set r { x with prev := l }

/-- `append`, optionparser.h:738-747. -/
def append (h : Heap) (r new : Ref) : Option Heap := do
  let p ← last h r
  let f ← first h h.size r
  let h ← setNext h p (new, false)
  let h ← setPrev h new (p, false)
  let h ← setNext h new (f, true)
  setPrev h f (new, true)

/-- `StoreOptionAction::perform`, optionparser.h:1687-1710: the arrays and `op_count` after it; `none`: an access outside of the
arrays.  `bufmax`: `none` is -1. -/
def perform (usage : List Desc) (bufmax : Option Nat) (s : Heap × Nat) (o : Opt) : Option (Heap × Nat) :=
  if bufmax.any (· ≤ s.2) then some s
  else if s.1.buffer.length ≤ s.2 then none
  else
    let h := s.1.set (.buffer s.2) (fresh (.buffer s.2) (some o))
    match usage[o.desc]? with
    | none => none
    | some d =>
      match h.get (.option d.index) with
      | none => none
      | some x =>
        if x.val.isSome then (append h (.option d.index) (.buffer s.2)).map (·, s.2 + 1)
        else some (h.set (.option d.index) (fresh (.option d.index) (some o)), s.2 + 1)

/-- A sequence of options. -/
def performAll (usage : List Desc) (bufmax : Option Nat) : Heap × Nat → List Opt → Option (Heap × Nat)
  | s, [] => some s
  | s, o :: os =>
    match perform usage bufmax s o with
    | none => none
    | some s => performAll usage bufmax s os

/-- Constructor of `StoreOptionAction`, optionparser.h:1666-1685: the first unused place of the buffer; `none`: reads beyond it. -/
def firstFree (h : Heap) (bufmax : Option Nat) : Option Nat :=
  let n := (h.buffer.takeWhile fun x => x.val.isSome).length
  match bufmax with
  | none => if n < h.buffer.length then some n else none
  | some m => if m ≤ n then some m else if n < h.buffer.length then some n else none

/-- `Parser`, optionparser.h:1162-1180: `nonop_args` as the arguments it points to. -/
structure Parser where
  opCount : Nat := 0
  nonops : List Str := []
  err : Bool := false
deriving DecidableEq

/-- `Parser::parse`, optionparser.h:1730-1743, with `finished`, 1712-1726: object, arrays and argument vector after it; `none` is an access
outside of an array. -/
def parse (p : Parser) (h : Heap) (c : Cfg) (argc : Option Nat) (argv : List Str) (bufmax : Option Nat) :
    Option (Parser × Heap × List Str) :=
  match firstFree h bufmax with
  | none => none
  | some n =>
    let r := workhorse c argc argv
    match performAll c.usage bufmax (h, n) r.opts with
    | none => none
    | some (h', n') =>
      let left := if r.err = false ∧ r.count > 0 then (r.vec.drop r.start).take r.count else p.nonops
      some (⟨n', left, r.err⟩, h', r.vec)

end Verif.OptParse
