import Verif.Model.PyLog
/-!
`debug_function_decorator` and `debug_object_introspection` (`py_utils/py_utils/debugging/debug_utils.py`).

Simplified: names of keyword arguments and of attributes contain no quotes or special characters, so that their `repr` just puts them in
quotes; an exception is an opaque value `E`; writing a line does not fail.
-/
namespace Verif.PyDebug
open Verif.PyLog

/-- Everything a function can see and change: the logger, what was written, and the rest. -/
structure World (W : Type) where
  logger : Logger
  lines : List Line
  rest : W

/-- A callable object: `__name__`, if it has that attribute, and what a call with positional and keyword arguments does. -/
structure Fn (V E W : Type) where
  name : Option Str
  call : List V → List (Str × V) → World W → Except E V × World W

variable {V E W : Type}

/-- `logger.debug(text)`. -/
def debug (w : World W) (text : Str) : World W :=
  let r := log w.logger debugLevel text
  { w with logger := r.2, lines := w.lines ++ r.1 }

/-- `repr` of the elements, which may raise. -/
def reprs (repr : V → Except E Str) : List V → Except E (List Str)
  | [] => .ok []
  | v :: vs =>
    match repr v with
    | .error e => .error e
    | .ok s =>
      match reprs repr vs with
      | .error e => .error e
      | .ok ss => .ok (s :: ss)

/-- Texts with ", " between them. -/
def commas : List Str → Str
  | [] => []
  | [s] => s
  | s :: ss => s ++ c!", " ++ commas ss

/-- `str` of a tuple. -/
def tupleText : List Str → Str
  | [s] => c!"(" ++ s ++ c!",)"
  | ss => c!"(" ++ commas ss ++ c!")"

/-- `str` of a list, for texts. -/
def quoted (s : Str) : Str := c!"'" ++ s ++ c!"'"

/-- `str` of a dictionary. -/
def dictText (ks : List Str) (ss : List Str) : Str :=
  c!"{" ++ commas (List.zipWith (fun k s => quoted k ++ c!": " ++ s) ks ss) ++ c!"}"

/-- The first f-string, debug_utils.py:33. -/
def calledText (name : Str) (args kwargs : Str) : Str :=
  c!"Function <" ++ name ++ c!"> called with arguments: <" ++ args ++ c!">, <" ++ kwargs ++ c!">"

/-- The second f-string, debug_utils.py:35. -/
def finishedText (name : Str) : Str := c!"Function <" ++ name ++ c!"> finished"

/-- `debug_function_decorator`, debug_utils.py:29-38: the object it returns is called "wrapper".  `noName` is the `AttributeError`
of a callable without `__name__`.  The f-strings are evaluated whether or not debug messages are written. -/
def decorate (repr : V → Except E Str) (noName : E) (f : Fn V E W) : Fn V E W where
  name := some c!"wrapper"
  call args kwargs w :=
    match f.name with
    | none => (.error noName, w)
    | some name =>
      match reprs repr args with
      | .error e => (.error e, w)
      | .ok as =>
        match reprs repr (kwargs.map Prod.snd) with
        | .error e => (.error e, w)
        | .ok ks =>
          match f.call args kwargs (debug w (calledText name (tupleText as) (dictText (kwargs.map Prod.fst) ks))) with
          | (.error e, w') => (.error e, w')
          | (.ok v, w') => (.ok v, debug w' (finishedText name))

/-- An object, as seen by `debug_object_introspection`: the name of its class, what `dir` lists, and for each name whether the attribute is
callable, or the exception its access raises. -/
structure Obj (E : Type) where
  className : Str
  dir : List Str
  attr : Str → Except E Bool

/-- The list comprehension, debug_utils.py:25. -/
def methods (o : Obj E) : List Str → Except E (List Str)
  | [] => .ok []
  | n :: ns =>
    match o.attr n with
    | .error e => .error e
    | .ok b =>
      match methods o ns with
      | .error e => .error e
      | .ok ms => .ok (if b then n :: ms else ms)

/-- `debug_object_introspection`, debug_utils.py:22-26. -/
def introspect (o : Obj E) (w : World W) : Except E Unit × World W :=
  match methods o o.dir with
  | .error e => (.error e, w)
  | .ok ms =>
    (.ok (), debug w (c!"{Class: <" ++ o.className ++ c!"; Methods: [" ++ commas (ms.map quoted) ++ c!"]}"))

end Verif.PyDebug
