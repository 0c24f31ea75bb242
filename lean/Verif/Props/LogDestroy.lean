import Verif.Model.LogDestroy
import Verif.Lemmas.Prog
/-!
C93: destroying a `LogEventHandler` while entries are logged.
-/
namespace Verif.LogDestroy
open Verif.Threads

/-- The thread has the shared lock. -/
def PC.inside : PC → Bool
  | .check | .push | .event | .unlock => true
  | _ => false

/-- The thread is executing the destructor. -/
def PC.drops : PC → Bool
  | .dropEntries | .dropWait | .dropConnection | .dropBase => true
  | _ => false

/-- Facts about one thread. -/
structure Loc (s : Sh) (i : Nat) (x : PC) : Prop where
  inside : x.inside = true ↔ i ∈ s.readers
  uses : x = .push ∨ x = .event → s.connection = true
  drops : x.drops = true → s.destroying = some i
  wait : x = .dropEntries ∨ x = .dropWait ∨ x = .dropConnection → s.connection = true ∧ s.base = true
  writer : x = .dropConnection → s.writer = true
  last : x = .dropBase → s.connection = false

/-- Facts about the handler. -/
structure Glob (s : Sh) : Prop where
  nodup : s.readers.Nodup
  base : s.base = false → s.connection = false
  fresh : s.destroying = none → s.connection = true ∧ s.base = true
  writer : s.writer = true → s.readers = []

/-- The branches of `run`. -/
inductive Ran (i : Nat) (s : Sh) : PC → Sh → PC → Prop
  | lock (h : s.writer = false) : Ran i s .lock { s with readers := i :: s.readers } .check
  | checked (h : s.connection = true) : Ran i s .check s .push
  | gone (h : s.connection = false) : Ran i s .check s .unlock
  | push : Ran i s .push s .event
  | event : Ran i s .event s .unlock
  | unlock : Ran i s .unlock { s with readers := s.readers.erase i } .idle
  | unset (h : s.destroying = none) : Ran i s .unset { s with destroying := some i } .dropEntries
  | dropEntries : Ran i s .dropEntries { s with entries := false } .dropWait
  | dropWait (h1 : s.writer = false) (h2 : s.readers = []) :
      Ran i s .dropWait { s with writer := true } .dropConnection
  | dropConnection : Ran i s .dropConnection { s with connection := false, writer := false } .dropBase
  | dropBase : Ran i s .dropBase { s with base := false } .idle

theorem run_ran {i : Nat} {s s' : Sh} {x y : PC} {b : Bool} (h : run i s x = some (s', y, b)) : Ran i s x s' y := by
  cases x with
  | idle => cases h
  | lock =>
    simp only [run] at h
    split at h
    · cases h
    · rename_i hw
      cases h
      exact .lock (by simpa using hw)
  | check =>
    simp only [run] at h
    split at h
    · rename_i hc; cases h; exact .checked hc
    · rename_i hc; cases h; exact .gone (by simpa using hc)
  | push => cases h; exact .push
  | event => cases h; exact .event
  | unlock => cases h; exact .unlock
  | unset =>
    simp only [run] at h
    split at h
    · cases h
    · rename_i hd
      cases h
      exact .unset (by simpa using hd)
  | dropEntries => cases h; exact .dropEntries
  | dropWait =>
    simp only [run] at h
    split at h
    · rename_i hw; cases h; exact .dropWait hw.1 hw.2
    · cases h
  | dropConnection => cases h; exact .dropConnection
  | dropBase => cases h; exact .dropBase

theorem local_ : prog.Local (fun _ => True) Glob Loc where
  start := by
    intro sh i x op y _ _ hx hy
    cases x with
    | idle =>
      cases op <;> cases hy
      · exact ⟨hx.inside, nofun, nofun, nofun, nofun, nofun⟩
      · exact ⟨hx.inside, nofun, nofun, nofun, nofun, nofun⟩
    | _ => cases op <;> cases hy
  shared := by
    intro sh i x sh' y b hg hx hr
    cases run_ran hr with
    | lock h =>
      refine ⟨List.nodup_cons.2 ⟨fun h => ?_, hg.nodup⟩, hg.base, hg.fresh, fun h' => ?_⟩
      · have := hx.inside.2 h
        cases this
      · rw [h] at h'; cases h'
    | unlock => exact ⟨hg.nodup.erase i, hg.base, hg.fresh, fun h => by rw [hg.writer h]; rfl⟩
    | unset h => exact ⟨hg.nodup, hg.base, nofun, hg.writer⟩
    | dropWait h1 h2 => exact ⟨hg.nodup, hg.base, hg.fresh, fun _ => h2⟩
    | dropConnection =>
      refine ⟨hg.nodup, fun _ => rfl, fun h => ?_, nofun⟩
      have := hx.drops rfl
      rw [show sh.destroying = none from h] at this
      cases this
    | dropBase =>
      refine ⟨hg.nodup, fun _ => hx.last rfl, fun h => ?_, hg.writer⟩
      have := hx.drops rfl
      rw [show sh.destroying = none from h] at this
      cases this
    | dropEntries => exact ⟨hg.nodup, hg.base, hg.fresh, hg.writer⟩
    | _ => exact hg
  run := by
    intro sh i x sh' y b hg hx hr
    cases run_ran hr with
    | lock h => exact ⟨⟨fun _ => List.mem_cons_self, fun _ => rfl⟩, nofun, nofun, nofun, nofun, nofun⟩
    | checked h => exact ⟨hx.inside, fun _ => h, nofun, nofun, nofun, nofun⟩
    | gone h => exact ⟨hx.inside, nofun, nofun, nofun, nofun, nofun⟩
    | push => exact ⟨hx.inside, fun _ => hx.uses (Or.inl rfl), nofun, nofun, nofun, nofun⟩
    | event => exact ⟨hx.inside, nofun, nofun, nofun, nofun, nofun⟩
    | unlock =>
      refine ⟨⟨nofun, fun h => ?_⟩, nofun, nofun, nofun, nofun, nofun⟩
      exact absurd h (fun h => hg.nodup.not_mem_erase h)
    | unset h => exact ⟨hx.inside, nofun, fun _ => rfl, fun _ => hg.fresh h, nofun, nofun⟩
    | dropEntries => exact ⟨hx.inside, nofun, fun _ => hx.drops rfl, fun _ => hx.wait (Or.inl rfl), nofun, nofun⟩
    | dropWait h1 h2 =>
      exact ⟨hx.inside, nofun, fun _ => hx.drops rfl, fun _ => hx.wait (Or.inr (Or.inl rfl)), fun _ => rfl, nofun⟩
    | dropConnection => exact ⟨hx.inside, nofun, fun _ => hx.drops rfl, nofun, nofun, fun _ => rfl⟩
    | dropBase => exact ⟨hx.inside, nofun, nofun, nofun, nofun, nofun⟩
  other := by
    intro sh i x sh' y b j z hg hx hr hj hz
    have lone : x.drops = true → z.drops = false := by
      intro h1
      cases h2 : z.drops with
      | false => rfl
      | true =>
        have e1 := hx.drops h1
        rw [hz.drops h2] at e1
        cases e1
        exact absurd rfl hj
    cases run_ran hr with
    | lock h =>
      refine ⟨⟨fun h => List.mem_cons_of_mem _ (hz.inside.1 h), fun h => hz.inside.2 ?_⟩, hz.uses, hz.drops, hz.wait,
        hz.writer, hz.last⟩
      exact (List.mem_cons.1 h).resolve_left hj
    | unlock =>
      refine ⟨⟨fun h => (List.mem_erase_of_ne hj).2 (hz.inside.1 h), fun h => hz.inside.2 ?_⟩, hz.uses, hz.drops,
        hz.wait, hz.writer, hz.last⟩
      exact (List.mem_erase_of_ne hj).1 h
    | unset h =>
      refine ⟨hz.inside, hz.uses, fun h' => ?_, hz.wait, hz.writer, hz.last⟩
      have := hz.drops h'
      rw [h] at this
      cases this
    | dropEntries => exact ⟨hz.inside, hz.uses, hz.drops, hz.wait, hz.writer, hz.last⟩
    | dropWait h1 h2 => exact ⟨hz.inside, hz.uses, hz.drops, hz.wait, fun _ => rfl, hz.last⟩
    | dropConnection =>
      have hd := lone rfl
      refine ⟨hz.inside, fun h => ?_, hz.drops, fun h => ?_, fun h => ?_, fun _ => rfl⟩
      · have := hz.inside.1 (by rcases h with rfl | rfl <;> rfl)
        rw [hg.writer (hx.writer rfl)] at this
        cases this
      · rcases h with rfl | rfl | rfl <;> cases hd
      · subst h
        cases hd
    | dropBase =>
      have hd := lone rfl
      refine ⟨hz.inside, hz.uses, hz.drops, fun h => ?_, hz.writer, hz.last⟩
      rcases h with rfl | rfl | rfl <;> cases hd
    | _ => exact hz
  woken := nofun
  late := nofun

theorem inv {n : Nat} {s : Conf prog} (h : prog.system.Reachable (init n) s) : prog.Inv Glob Loc s := by
  refine System.ReachableBy.invariant (S := prog.system) (fun s => prog.Inv Glob Loc s) ?_
    (fun s l s' hi hA hs => local_.step hi hA (Prog.step_stepped hs)) h
  refine ⟨⟨List.nodup_nil, nofun, fun _ => ⟨rfl, rfl⟩, nofun⟩, fun j x h => ?_⟩
  cases (Prog.init_get h : x = .idle)
  exact ⟨⟨nofun, nofun⟩, fun _ => rfl, nofun, fun _ => ⟨rfl, rfl⟩, nofun, nofun⟩

/-- C93, negation: the thread of the log is about to put an entry into `entries_consumed_`, which the destructor has
already destroyed. -/
theorem C93_negation : ∃ s, prog.system.Reachable (init 2) s ∧ s.pcs[0]? = some .push ∧ s.sh.entries = false :=
  ⟨_, prog.system.exec_reachable' ([.start 0 .consume, .run 0, .run 0, .start 1 .destroy, .run 1, .run 1] :
    List (Label Op)) rfl, rfl, rfl⟩

/-- C93, what holds: while a thread is inside `consume_`, the callback it was called through and the members of
`EventHandler` exist.  Missing: `entries_consumed_`, see `C93_negation`. -/
theorem C93_alive_partial {n : Nat} {s : Conf prog} (h : prog.system.Reachable (init n) s) {i : Nat}
    (hx : s.pcs[i]? = some .push ∨ s.pcs[i]? = some .event) : s.sh.connection = true ∧ s.sh.base = true := by
  have hi := inv h
  have hc : s.sh.connection = true := by
    rcases hx with hx | hx
    · exact (hi.loc i _ hx).uses (Or.inl rfl)
    · exact (hi.loc i _ hx).uses (Or.inr rfl)
  refine ⟨hc, ?_⟩
  cases hb : s.sh.base with
  | true => rfl
  | false =>
    have := hi.glob.base hb
    rw [hc] at this
    cases this

/-- C93, what holds: as long as no destructor has begun, everything an entry is handed to exists. -/
theorem C93_in_use_partial {n : Nat} {s : Conf prog} (h : prog.system.Reachable (init n) s)
    (hd : s.sh.destroying = none) : s.sh.entries = true ∧ s.sh.connection = true ∧ s.sh.base = true := by
  have key : prog.Inv Glob Loc s ∧ (s.sh.destroying = none → s.sh.entries = true) := by
    refine System.ReachableBy.invariant (S := prog.system)
      (fun s => prog.Inv Glob Loc s ∧ (s.sh.destroying = none → s.sh.entries = true)) ⟨inv .init, fun _ => rfl⟩ ?_ h
    intro s l s' ⟨hi, hc⟩ hA hs
    refine ⟨local_.step hi hA (Prog.step_stepped hs), ?_⟩
    rcases Prog.stepped_sh (Prog.step_stepped hs) with h | ⟨j, x, y, b, -, hx, h⟩
    · rw [h]; exact hc
    · have h := run_ran (i := j) (x := x) h
      have hl := (hi.loc j x hx).drops
      generalize s'.sh = sh at h ⊢
      cases h <;> first
        | exact hc
        | (intro hn; cases hn; done)
        | (intro hn; cases (hl rfl).symm.trans hn)
  exact ⟨key.2 hd, key.1.glob.fresh hd⟩

/-- An entry is handed over while the handler is in use. -/
example : ∃ s, prog.system.Reachable (init 2) s ∧ s.pcs = [.push, .idle] ∧ s.sh.destroying = none :=
  ⟨_, prog.system.exec_reachable' ([.start 0 .consume, .run 0, .run 0] : List (Label Op)) rfl, rfl, rfl⟩

/-- C93, what holds: once the destructor has returned, no entry reaches the handler any more. -/
theorem C93_silent_partial {n : Nat} {s s' : Conf prog} (h : prog.system.Reachable (init n) s)
    (hb : s.sh.base = false) {ls : List (Label Op)} (he : prog.system.exec s ls = some s') (i : Nat) :
    s'.pcs[i]? ≠ some .push ∧ s'.pcs[i]? ≠ some .event := by
  have key : ∀ (ls : List (Label Op)) (s : Conf prog), prog.system.exec s ls = some s' → s.sh.base = false →
      s'.sh.base = false := by
    intro ls
    induction ls with
    | nil => intro s he hb; cases he; exact hb
    | cons l ls ih =>
      intro s he hb
      obtain ⟨s1, h1, h2⟩ := System.exec_cons he
      refine ih s1 h2 ?_
      rcases Prog.stepped_sh (Prog.step_stepped h1) with h | ⟨j, x, y, b, -, -, h⟩
      · rw [h]; exact hb
      · have h := run_ran (i := j) (x := x) h
        generalize s1.sh = sh at h ⊢
        cases h <;> first | exact hb | rfl
  have hr : prog.system.Reachable (init n) s' := prog.system.exec_reachable ls (fun l _ => Label.allowed_true l) h he
  have hb' := key ls s he hb
  constructor
  · intro hx
    have := (C93_alive_partial hr (Or.inl hx)).2
    rw [hb'] at this
    cases this
  · intro hx
    have := (C93_alive_partial hr (Or.inr hx)).2
    rw [hb'] at this
    cases this

/-- C93_alive_partial: an entry is consumed while another thread waits in the destructor. -/
example : ∃ s, prog.system.Reachable (init 2) s ∧ s.pcs = [.event, .dropWait] :=
  ⟨_, prog.system.exec_reachable' ([.start 0 .consume, .run 0, .run 0, .start 1 .destroy, .run 1, .run 0, .run 1] :
    List (Label Op)) rfl, rfl⟩

/-- C93_silent_partial: an entry after the destructor. -/
example : ∃ s s', prog.system.Reachable (init 2) s ∧ s.sh.base = false ∧ prog.system.exec s
    ([.start 0 .consume, .run 0, .run 0] : List (Label Op)) = some s' ∧ s'.pcs[0]? = some .unlock :=
  ⟨_, _, prog.system.exec_reachable' ([.start 1 .destroy, .run 1, .run 1, .run 1, .run 1, .run 1] : List (Label Op)) rfl,
    rfl, rfl, rfl⟩

end Verif.LogDestroy
