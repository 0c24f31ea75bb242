import Verif.Model.LogMacros
/-!
C163: the log macros of the library.
-/
namespace Verif.LogMacros
open Verif.LogConfig (Kind)

variable {W : Type}

/-- C163: `logDebug` queues one entry of kind Info that ends with the text of its message, having evaluated the message
once, or does nothing at all, not even evaluate the message. -/
theorem C163_debug (c : Config) (v : Kind) (msg : Msg W) (w : W) :
    (∃ pre, logDebug c v msg w = (⟨[(.info, pre ++ (msg w).1)], []⟩, (msg w).2)) ∨
    logDebug c v msg w = (⟨[], []⟩, w) := by
  unfold logDebug
  split
  · split
    · exact Or.inl ⟨_, rfl⟩
    · exact Or.inr rfl
  · exact Or.inr rfl

/-- C163: which of both: it is queued exactly if the verbosity is Info and the program is built with log of Info, that
is, without `HAVE_LOG_NO_INFO` and either with it enforced or as a debug build of an internal debug configuration. -/
theorem C163_when (c : Config) (v : Kind) (msg : Msg W) (w : W) :
    (logDebug c v msg w).1.queued ≠ [] ↔ v = .info ∧ c.noInfo = false ∧
      (c.enforce = true ∨ (c.internal = true ∧ (c.debug = true ∨ c.ndebug = false))) := by
  obtain ⟨a, b, d, e, f⟩ := c
  cases v <;> cases a <;> cases b <;> cases d <;> cases e <;> cases f <;> simp [logDebug, compiled, Kind.toNat]

/-- C163: a release build in which nothing is enforced contains none of it: the arguments of `logDebug` and
`logDevError` are never evaluated, so what they do to the program does not happen. -/
theorem C163_release (c : Config) (v : Kind) (msg : Msg W) (w : W) (he : c.enforce = false) (hn : c.ndebug = true)
    (hd : c.debug = false) :
    logDebug c v msg w = (⟨[], []⟩, w) ∧ logDevError c v msg w = (⟨[], []⟩, w) := by
  have : compiled c = false := by
    unfold compiled
    rw [he, hn, hd]
    cases c.noInfo <;> cases c.internal <;> rfl
  unfold logDebug logDevError
  rw [this]
  exact ⟨rfl, rfl⟩

/-- C163: `logUser` prints the text of its message and a newline, having evaluated the message once, whatever the build
and the verbosity; it queues nothing. -/
theorem C163_user (msg : Msg W) (w : W) :
    logUser msg w = (⟨[], (msg w).1 ++ ['\n']⟩, (msg w).2) := rfl

/-- C163, as far as it holds: `logDevError` queues in the same builds and at the same verbosity as `logDebug`, at which
it evaluates its message once.  (Missing: that the entry is of kind Info, see the negation.) -/
theorem C163_dev_partial (c : Config) (v : Kind) (msg : Msg W) (w : W) :
    ((logDevError c v msg w).1.queued ≠ [] ↔ (logDebug c v msg w).1.queued ≠ []) ∧
    (logDevError c v msg w).2 = (logDebug c v msg w).2 ∧
    ((∃ k pre, logDevError c v msg w = (⟨[(k, pre ++ (msg w).1)], []⟩, (msg w).2)) ∨
      logDevError c v msg w = (⟨[], []⟩, w)) := by
  unfold logDevError logDebug
  split
  · split
    · exact ⟨⟨nofun, nofun⟩, rfl, Or.inl ⟨_, _, rfl⟩⟩
    · exact ⟨Iff.rfl, rfl, Or.inr rfl⟩
  · exact ⟨Iff.rfl, rfl, Or.inr rfl⟩

/-- C163 does not hold: "it is used as Info level" (Log.hpp:47), but `logDevError` queues warnings: it does so at
verbosity Info only, and a handler of severe entries counts each as a warning. -/
theorem C163_negation : ∃ c : Config, ∀ (msg : Msg W) (w : W),
    (∃ pre, (logDevError c .info msg w).1.queued = [(.warning, pre ++ (msg w).1)]) ∧
    (logDevError c .warning msg w).1.queued = [] :=
  ⟨⟨false, true, false, false, true⟩, fun _ _ => ⟨⟨_, rfl⟩, rfl⟩⟩

/-- Non-trivial case: a message that counts how often it is evaluated. -/
example : logDebug ⟨false, true, false, false, true⟩ .info (fun n : Nat => (c!"x", n + 1)) 3 =
      (⟨[(.info, c!"DEBUG: x")], []⟩, 4) ∧
    logDebug ⟨false, false, true, false, true⟩ .info (fun n : Nat => (c!"x", n + 1)) 3 = (⟨[], []⟩, 3) ∧
    logDebug ⟨false, false, true, true, true⟩ .warning (fun n : Nat => (c!"x", n + 1)) 3 = (⟨[], []⟩, 3) ∧
    logUser (fun n : Nat => (c!"x", n + 1)) 3 = (⟨[], c!"x\n"⟩, 4) := ⟨rfl, rfl, rfl, rfl⟩

/-- Non-trivial case for `C163_release`: a release build with the internal debug option. -/
example : logDevError ⟨false, false, true, false, true⟩ .info (fun n : Nat => (c!"x", n + 1)) 3 =
    (⟨[], []⟩, 3) := by decide

end Verif.LogMacros
