import Verif.Model.Usage
/-!
The writers of `printUsage` (`thirdparty/optionparser/optionparser.h`): what becomes of the pieces of text that
`PrintUsageImplementation::printUsage` hands to its `IStringWriter`.
-/
namespace Verif.Usage

/-- Where the text goes.

* `text`: what has arrived;
* `calls`: the arguments of the calls of a function or object of the user;
* `good`: `ostream::good()`;
* `error`: `ferror(stream)`. -/
structure Sink where
  text : Bytes
  calls : List Bytes
  good : Bool
  error : Bool
deriving DecidableEq, Repr

/-- A destination that nothing has been written to. -/
def Sink.fresh : Sink := { text := [], calls := [], good := true, error := false }

/-- The ways to call `printUsage`, optionparser.h:3219-3290. -/
inductive Writer
  | function
  | temporary
  | ostream
  | syscall
  | stream
deriving DecidableEq, Repr

/-- One call `write(str, size)` with the bytes `data`; the destination takes the first `room` of them.

* `FunctionWriter` and `TemporaryWriter`, optionparser.h:2031-2049, 2081-2099: the function of the user gets the
  bytes;
* `OStreamWriter`, optionparser.h:2056-2074: `ostream::write` does nothing when the stream is not `good()`, and
  sets `badbit` when the buffer does not take every byte;
* `SyscallWriter`, optionparser.h:2107-2128: the number that `write` returns is not read;
* `StreamWriter`, optionparser.h:2134-2155: `fwrite` sets the error indicator of the stream when it does not write
  every byte; what it returns is not read.

Simplification: a `FILE` without buffer, the bytes that `fwrite` reports as written have arrived. -/
def Writer.write (w : Writer) (s : Sink) (data : Bytes) (room : Nat) : Sink :=
  match w with
  | .function | .temporary => { s with calls := s.calls ++ [data] }
  | .ostream =>
    if s.good then { s with text := s.text ++ data.take room, good := decide (data.length ≤ room) } else s
  | .syscall => { s with text := s.text ++ data.take room }
  | .stream =>
    { s with text := s.text ++ data.take room, error := s.error || decide (room < data.length) }

/-- The calls of one `printUsage`, optionparser.h:2826-3021: `pieces`, each with the number of bytes that the
destination has room for at that moment. -/
def Writer.all (w : Writer) (s : Sink) : List (Bytes × Nat) → Sink
  | [] => s
  | p :: ps => w.all (w.write s p.1 p.2) ps

end Verif.Usage
