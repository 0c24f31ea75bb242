import Verif.Model.EventHandler
import Verif.Lemmas.Prog
/-!
Invariants of the `EventHandler` program.
-/
namespace Verif.EventHandler
open Verif.Threads
open Verif.Spec.EventHandler (Call)

variable {C A : Type}

/-- State of the handler according to the calls that took effect. -/
def abs (s : Sh C A) : Spec.EventHandler.State C A := Spec.EventHandler.run (s.hist.map Prod.snd)

/-- Number of events that took effect. -/
def events (s : Sh C A) : Nat := s.hist.countP fun | (_, .event _) => true | _ => false

theorem run_append (h : List (Call C A)) (c : Call C A) :
    Spec.EventHandler.run (h ++ [c]) = Spec.EventHandler.step (Spec.EventHandler.run h) c := by
  simp [Spec.EventHandler.run]

/-- Holds `event_mutex_`. -/
def PC.holdsE : PC C A → Bool
  | .setInternal _ | .setFlag _ | .setStore _ | .setHook | .unsetTest | .unsetInternal | .unsetFlag
  | .unsetStore | .unsetHook | .unsetNotify | .unsetExit | .unsetRelease => true
  | _ => false

/-- Holds `internal_callback_mutex_`. -/
def PC.holdsI : PC C A → Bool
  | .setFlag _ | .setStore _ | .unsetFlag | .unsetStore | .evTest _ | .evIn _ | .evCount _ | .evNotify
  | .evRelease => true
  | _ => false

/-- Where the callback is known to be set. -/
def PC.on : PC C A → Bool
  | .setStore _ | .setHook | .unsetInternal | .unsetFlag | .evIn _ | .evCount _ => true
  | _ => false

/-- Where the callback is known not to be set. -/
def PC.off : PC C A → Bool
  | .unsetStore | .unsetHook | .unsetNotify | .unsetExit | .unsetRelease => true
  | _ => false

/-- Between `callback_ = DEFAULT_CALLBACK_` and the store of the flag. -/
def PC.mid : PC C A → Bool
  | .unsetStore => true
  | _ => false

/-- The event whose callback has been called and that has not been counted yet. -/
def PC.pend : PC C A → Option A
  | .evIn a | .evCount a => some a
  | _ => none

/-- In `wait`, counted in `threads_waiting_`. -/
def PC.inWait : PC C A → Bool
  | .asleep _ | .ready _ => true
  | _ => false

/-- What holds of one thread. -/
structure Loc (s : Sh C A) (j : Nat) (z : PC C A) : Prop where
  event : z.holdsE = true ↔ s.event = some j
  internal : z.holdsI = true ↔ s.internal = some j
  on : z.on = true → s.set = true
  off : z.off = true → s.set = false
  mid : z.mid = true → (abs s).callback = none
  calls : z.holdsI = true → s.calls = (abs s).calls.map (fun p => (some p.1, p.2)) ++
    (match z.pend with | some a => [((abs s).callback, a)] | none => [])

/-- What holds of the shared data. -/
structure Glob (s : Sh C A) : Prop where
  link : (s.callback = (abs s).callback ∧ s.set = (abs s).callback.isSome) ∨
    (s.event = s.internal ∧ s.event ≠ none)
  calls : s.internal = none → s.calls = (abs s).calls.map (fun p => (some p.1, p.2))
  le : (abs s).count ≤ events s
  count : events s < 4294967296 → s.count = (abs s).count

theorem abs_snoc (s : Sh C A) (h : List (Nat × Call C A)) (i : Nat) (c : Call C A)
    (e : s.hist = h ++ [(i, c)]) :
    abs s = Spec.EventHandler.step (Spec.EventHandler.run (h.map Prod.snd)) c := by
  simp only [abs, e, List.map_append, List.map_cons, List.map_nil, run_append]

theorem on_holds {z : PC C A} (h : z.on = true) : z.holdsE = true ∨ z.holdsI = true := by
  cases z <;> first | exact Or.inl rfl | exact Or.inr rfl | cases h

theorem off_holds {z : PC C A} (h : z.off = true) : z.holdsE = true := by
  cases z <;> first | rfl | cases h

theorem mid_holds {z : PC C A} (h : z.mid = true) : z.holdsI = true := by
  cases z <;> first | rfl | cases h

/-- A thread that does not move. -/
theorem Loc.other {s s' : Sh C A} {j : Nat} {z : PC C A} (h : Loc s j z)
    (he : s'.event = some j ↔ s.event = some j) (hi : s'.internal = some j ↔ s.internal = some j)
    (hs : z.holdsE = true ∨ z.holdsI = true → s'.set = s.set)
    (ha : z.holdsI = true → (abs s').callback = (abs s).callback ∧ (abs s').calls = (abs s).calls ∧
      s'.calls = s.calls) : Loc s' j z := by
  refine ⟨h.event.trans he.symm, h.internal.trans hi.symm, ?_, ?_, ?_, ?_⟩
  · intro e; rw [hs (on_holds e)]; exact h.on e
  · intro e; rw [hs (Or.inl (off_holds e))]; exact h.off e
  · intro e; rw [(ha (mid_holds e)).1]; exact h.mid e
  · intro e
    obtain ⟨h1, h2, h3⟩ := ha e
    rw [h1, h2, h3]
    exact h.calls e

/-- What a step of thread `i` has to keep. -/
def Keeps (s s' : Sh C A) (i : Nat) (y : PC C A) : Prop :=
  Glob s' ∧ Loc s' i y ∧ ∀ (j : Nat) (z : PC C A), j ≠ i → Loc s j z → Loc s' j z

/-- Steps that change at most `threads_waiting_`. -/
theorem keeps_move {s s' : Sh C A} {i : Nat} {x y : PC C A} (hg : Glob s) (hx : Loc s i x)
    (e : s' = { s with waiting := s'.waiting }) (hE : y.holdsE = x.holdsE) (hI : y.holdsI = x.holdsI)
    (hon : y.on = true → s.set = true) (hoff : y.off = true → s.set = false) (hm : y.mid = false)
    (hp : y.pend = x.pend) : Keeps s s' i y := by
  generalize s'.waiting = w at e
  subst e
  refine ⟨⟨hg.link, hg.calls, hg.le, hg.count⟩,
    ⟨by rw [hE]; exact hx.event, by rw [hI]; exact hx.internal, hon, hoff, by rw [hm]; nofun, ?_⟩, ?_⟩
  · intro e
    rw [hI] at e
    rw [hp]
    exact hx.calls e
  · intro j z _ h
    exact ⟨h.event, h.internal, h.on, h.off, h.mid, h.calls⟩

/-- `event_mutex_` is taken. -/
theorem keeps_event {s : Sh C A} {i : Nat} {x y : PC C A} (hg : Glob s) (hx : Loc s i x)
    (he : s.event = none) (hE : y.holdsE = true) (hI : y.holdsI = false) (hIx : x.holdsI = false)
    (hon : y.on = false) (hoff : y.off = false) (hm : y.mid = false) :
    Keeps s { s with event := some i } i y := by
  have hl : s.callback = (abs s).callback ∧ s.set = (abs s).callback.isSome := by
    rcases hg.link with h | h
    · exact h
    · exact absurd he h.2
  refine ⟨⟨Or.inl hl, hg.calls, hg.le, hg.count⟩, ⟨?_, ?_, ?_, ?_, ?_, ?_⟩, ?_⟩
  · rw [hE]; exact ⟨fun _ => rfl, fun _ => rfl⟩
  · rw [hI, ← hIx]; exact hx.internal
  · rw [hon]; nofun
  · rw [hoff]; nofun
  · rw [hm]; nofun
  · rw [hI]; nofun
  · intro j z hj h
    refine h.other ?_ Iff.rfl (fun _ => rfl) (fun _ => ⟨rfl, rfl, rfl⟩)
    rw [he]
    exact ⟨fun e => absurd (Option.some.inj e).symm hj, nofun⟩

/-- `internal_callback_mutex_` is taken. -/
theorem keeps_internal {s : Sh C A} {i : Nat} {x y : PC C A} (hg : Glob s) (hx : Loc s i x)
    (he : s.internal = none) (hE : y.holdsE = x.holdsE) (hI : y.holdsI = true)
    (hon : y.on = true → s.set = true) (hoff : y.off = false) (hm : y.mid = false) (hp : y.pend = none) :
    Keeps s { s with internal := some i } i y := by
  have hl : s.callback = (abs s).callback ∧ s.set = (abs s).callback.isSome := by
    rcases hg.link with h | h
    · exact h
    · exact absurd (h.1.trans he) h.2
  refine ⟨⟨Or.inl hl, nofun, hg.le, hg.count⟩, ⟨?_, ?_, hon, ?_, ?_, ?_⟩, ?_⟩
  · rw [hE]; exact hx.event
  · rw [hI]; exact ⟨fun _ => rfl, fun _ => rfl⟩
  · rw [hoff]; nofun
  · rw [hm]; nofun
  · intro _
    rw [hp, List.append_nil]
    exact hg.calls he
  · intro j z hj h
    refine h.other Iff.rfl ?_ (fun _ => rfl) (fun _ => ⟨rfl, rfl, rfl⟩)
    rw [he]
    exact ⟨fun e => absurd (Option.some.inj e).symm hj, nofun⟩

/-- Only one thread holds a mutex. -/
theorem not_event {s : Sh C A} {i j : Nat} {x z : PC C A} (hx : Loc s i x) (hz : Loc s j z)
    (hj : j ≠ i) (h : x.holdsE = true) : z.holdsE = false := by
  cases e : z.holdsE with
  | false => rfl
  | true =>
    have h1 := hx.event.1 h
    rw [hz.event.1 e] at h1
    exact absurd (Option.some.inj h1) hj

theorem not_internal {s : Sh C A} {i j : Nat} {x z : PC C A} (hx : Loc s i x) (hz : Loc s j z)
    (hj : j ≠ i) (h : x.holdsI = true) : z.holdsI = false := by
  cases e : z.holdsI with
  | false => rfl
  | true =>
    have h1 := hx.internal.1 h
    rw [hz.internal.1 e] at h1
    exact absurd (Option.some.inj h1) hj

theorem isSome_none {α : Type} {o : Option α} (h : ¬ o.isSome = true) : o = none := by
  cases o with
  | none => rfl
  | some a => exact absurd rfl h

/-- The link holds when a thread holds exactly one of the two mutexes. -/
theorem link_of {s : Sh C A} {i : Nat} {x : PC C A} (hg : Glob s) (hx : Loc s i x)
    (h : x.holdsE ≠ x.holdsI) : s.callback = (abs s).callback ∧ s.set = (abs s).callback.isSome := by
  rcases hg.link with hl | hl
  · exact hl
  · exfalso
    apply h
    have h1 := hx.event
    rw [hl.1, ← hx.internal] at h1
    cases e1 : x.holdsE <;> cases e2 : x.holdsI <;> simp [e1, e2] at h1 ⊢

theorem events_snoc (h : List (Nat × Call C A)) (i : Nat) (c : Call C A) :
    (h ++ [(i, c)]).countP (fun | (_, .event _) => true | _ => false) =
      h.countP (fun | (_, .event _) => true | _ => false) +
      (match c with | .event _ => 1 | _ => 0) := by
  rw [List.countP_append]
  cases c <;> rfl

theorem keeps_run {s s' : Sh C A} {i : Nat} {x y : PC C A} {b : Bool} (hg : Glob s) (hx : Loc s i x)
    (h : run i s x = some (s', y, b)) : Keeps s s' i y := by
  cases x with
  | idle r => cases h
  | asleep n => cases h
  | waitTest n =>
    simp only [run] at h
    cases h
    split <;> exact keeps_move hg hx rfl rfl rfl nofun nofun rfl rfl
  | waitLock n =>
    simp only [run] at h
    split at h <;> cases h <;> exact keeps_move hg hx rfl rfl rfl nofun nofun rfl rfl
  | ready n =>
    simp only [run] at h
    split at h <;> cases h <;> exact keeps_move hg hx rfl rfl rfl nofun nofun rfl rfl
  | waitRet n => cases h; exact keeps_move hg hx rfl rfl rfl nofun nofun rfl rfl
  | readCount => cases h; exact keeps_move hg hx rfl rfl rfl nofun nofun rfl rfl
  | setEvent c =>
    simp only [run] at h
    split at h
    · cases h
    · rename_i he
      cases h
      exact keeps_event hg hx (isSome_none he) rfl rfl rfl rfl rfl rfl
  | unsetEvent =>
    simp only [run] at h
    split at h
    · cases h
    · rename_i he
      cases h
      exact keeps_event hg hx (isSome_none he) rfl rfl rfl rfl rfl rfl
  | setInternal c =>
    simp only [run] at h
    split at h
    · cases h
    · rename_i he
      cases h
      exact keeps_internal hg hx (isSome_none he) rfl rfl nofun rfl rfl rfl
  | unsetInternal =>
    simp only [run] at h
    split at h
    · cases h
    · rename_i he
      cases h
      exact keeps_internal hg hx (isSome_none he) rfl rfl (fun _ => hx.on rfl) rfl rfl rfl
  | evInternal a =>
    simp only [run] at h
    split at h
    · cases h
    · rename_i he
      cases h
      exact keeps_internal hg hx (isSome_none he) rfl rfl nofun rfl rfl rfl
  | unsetHook => cases h; exact keeps_move hg hx rfl rfl rfl nofun (fun _ => hx.off rfl) rfl rfl
  | unsetNotify => cases h; exact keeps_move hg hx rfl rfl rfl nofun (fun _ => hx.off rfl) rfl rfl
  | unsetExit =>
    simp only [run] at h
    cases h
    split <;> exact keeps_move hg hx rfl rfl rfl nofun (fun _ => hx.off rfl) rfl rfl
  | evIn a => cases h; exact keeps_move hg hx rfl rfl rfl (fun _ => hx.on rfl) nofun rfl rfl
  | evNotify => cases h; exact keeps_move hg hx rfl rfl rfl nofun nofun rfl rfl
  | setFlag c =>
    cases h
    have h1 := hx.event.1 rfl
    have h2 := hx.internal.1 rfl
    refine ⟨⟨Or.inr ⟨h1.trans h2.symm, by rw [h1]; nofun⟩, hg.calls, hg.le, hg.count⟩,
      ⟨hx.event, hx.internal, fun _ => rfl, nofun, nofun, hx.calls⟩, ?_⟩
    intro j z hj hz
    have e1 := not_event hx hz hj rfl
    have e2 := not_internal hx hz hj rfl
    refine hz.other Iff.rfl Iff.rfl ?_ (fun _ => ⟨rfl, rfl, rfl⟩)
    rw [e1, e2]
    nofun
  | setStore c =>
    cases h
    have e : abs { s with callback := some c, internal := none, hist := s.hist ++ [(i, .set c)] } =
        { abs s with callback := some c } := abs_snoc _ s.hist i (.set c) rfl
    have hc := hx.calls rfl
    rw [show (PC.setStore c : PC C A).pend = none from rfl, List.append_nil] at hc
    refine ⟨⟨Or.inl ?_, ?_, ?_, ?_⟩, ⟨hx.event, ⟨nofun, nofun⟩, fun _ => hx.on rfl, nofun, nofun, nofun⟩, ?_⟩
    · rw [e]; exact ⟨rfl, hx.on rfl⟩
    · intro _; rw [e]; exact hc
    · rw [e]; simp only [events, events_snoc]; exact hg.le
    · rw [e]; simp only [events, events_snoc]; exact hg.count
    · intro j z hj hz
      have e2 := not_internal hx hz hj rfl
      refine hz.other Iff.rfl ?_ (fun _ => rfl) ?_
      · rw [hx.internal.1 rfl]
        exact ⟨nofun, fun e => absurd (Option.some.inj e).symm hj⟩
      · rw [e2]; nofun
  | setHook =>
    cases h
    have hl := link_of hg hx nofun
    refine ⟨⟨Or.inl hl, hg.calls, hg.le, hg.count⟩, ⟨⟨nofun, nofun⟩, hx.internal, nofun, nofun, nofun, nofun⟩, ?_⟩
    intro j z hj hz
    refine hz.other ?_ Iff.rfl (fun _ => rfl) (fun _ => ⟨rfl, rfl, rfl⟩)
    rw [hx.event.1 rfl]
    exact ⟨nofun, fun e => absurd (Option.some.inj e).symm hj⟩
  | unsetRelease =>
    cases h
    have hl := link_of hg hx nofun
    refine ⟨⟨Or.inl hl, hg.calls, hg.le, hg.count⟩, ⟨⟨nofun, nofun⟩, hx.internal, nofun, nofun, nofun, nofun⟩, ?_⟩
    intro j z hj hz
    refine hz.other ?_ Iff.rfl (fun _ => rfl) (fun _ => ⟨rfl, rfl, rfl⟩)
    rw [hx.event.1 rfl]
    exact ⟨nofun, fun e => absurd (Option.some.inj e).symm hj⟩
  | unsetTest =>
    simp only [run] at h
    split at h
    · rename_i hs
      cases h
      exact keeps_move hg hx rfl rfl rfl (fun _ => hs) nofun rfl rfl
    · rename_i hs
      cases h
      have hs : s.set = false := by simpa using hs
      have hl := link_of hg hx nofun
      have hn : (abs s).callback = none := by
        have := hl.2
        rw [hs] at this
        exact isSome_none (by rw [← this]; nofun)
      have e : abs { s with hist := s.hist ++ [(i, .unset)] } = abs s := by
        refine (abs_snoc _ s.hist i .unset rfl).trans ?_
        show { abs s with callback := none } = abs s
        rw [← hn]
      refine ⟨⟨Or.inl (by rw [e]; exact hl), by rw [e]; exact hg.calls, ?_, ?_⟩,
        ⟨hx.event, hx.internal, nofun, fun _ => hs, nofun, nofun⟩, ?_⟩
      · rw [e]; simp only [events, events_snoc]; exact hg.le
      · rw [e]; simp only [events, events_snoc]; exact hg.count
      · intro j z hj hz
        exact hz.other Iff.rfl Iff.rfl (fun _ => rfl) (fun _ => by rw [e]; exact ⟨rfl, rfl, rfl⟩)
  | unsetFlag =>
    cases h
    have h1 := hx.event.1 rfl
    have h2 := hx.internal.1 rfl
    have e : abs { s with set := false, hist := s.hist ++ [(i, .unset)] } =
        { abs s with callback := none } := abs_snoc _ s.hist i .unset rfl
    have hc := hx.calls rfl
    refine ⟨⟨Or.inr ⟨h1.trans h2.symm, by rw [h1]; nofun⟩, by rw [e]; exact hg.calls, ?_, ?_⟩,
      ⟨hx.event, hx.internal, nofun, fun _ => rfl, fun _ => by rw [e], fun _ => by rw [e]; exact hc⟩, ?_⟩
    · rw [e]; simp only [events, events_snoc]; exact hg.le
    · rw [e]; simp only [events, events_snoc]; exact hg.count
    · intro j z hj hz
      have e1 := not_event hx hz hj rfl
      have e2 := not_internal hx hz hj rfl
      refine hz.other Iff.rfl Iff.rfl ?_ ?_
      · rw [e1, e2]; nofun
      · rw [e2]; nofun
  | unsetStore =>
    cases h
    have hn := hx.mid rfl
    have hc := hx.calls rfl
    rw [show (PC.unsetStore : PC C A).pend = none from rfl, List.append_nil] at hc
    refine ⟨⟨Or.inl ⟨hn.symm, ?_⟩, fun _ => hc, hg.le, hg.count⟩,
      ⟨hx.event, ⟨nofun, nofun⟩, nofun, fun _ => hx.off rfl, nofun, nofun⟩, ?_⟩
    · show s.set = (abs s).callback.isSome
      rw [hn]; exact hx.off rfl
    · intro j z hj hz
      have e2 := not_internal hx hz hj rfl
      refine hz.other Iff.rfl ?_ (fun _ => rfl) ?_
      · rw [hx.internal.1 rfl]
        exact ⟨nofun, fun e => absurd (Option.some.inj e).symm hj⟩
      · rw [e2]; nofun
  | evTest a =>
    have hl := link_of hg hx nofun
    have hi := hx.internal.1 rfl
    have hc := hx.calls rfl
    rw [show (PC.evTest a : PC C A).pend = none from rfl, List.append_nil] at hc
    simp only [run] at h
    split at h
    · rename_i hs
      cases h
      refine ⟨⟨Or.inl hl, fun e => absurd (hi.symm.trans e) nofun, hg.le, hg.count⟩,
        ⟨hx.event, hx.internal, fun _ => hs, nofun, nofun, fun _ => ?_⟩, ?_⟩
      · show s.calls ++ [(s.callback, a)] = _ ++ [((abs s).callback, a)]
        rw [hc, hl.1]
        rfl
      · intro j z hj hz
        have e2 := not_internal hx hz hj rfl
        refine hz.other Iff.rfl Iff.rfl (fun _ => rfl) ?_
        rw [e2]; nofun
    · rename_i hs
      cases h
      have hs : s.set = false := by simpa using hs
      have hn : (abs s).callback = none := by
        have := hl.2
        rw [hs] at this
        exact isSome_none (by rw [← this]; nofun)
      have e : abs { s with hist := s.hist ++ [(i, .event a)] } = abs s := by
        refine (abs_snoc _ s.hist i (.event a) rfl).trans ?_
        show (match (abs s).callback with
          | some c => { abs s with count := (abs s).count + 1, calls := (abs s).calls ++ [(c, a)] }
          | none => abs s) = abs s
        rw [hn]
      refine ⟨⟨Or.inl (by rw [e]; exact hl), by rw [e]; exact hg.calls, ?_, ?_⟩,
        ⟨hx.event, hx.internal, nofun, nofun, nofun, fun _ => by rw [e]; exact hx.calls rfl⟩, ?_⟩
      · rw [e]
        have := hg.le
        simp only [events, events_snoc] at this ⊢
        omega
      · rw [e]
        have := hg.count
        simp only [events, events_snoc] at this ⊢
        intro h
        exact this (by omega)
      · intro j z hj hz
        exact hz.other Iff.rfl Iff.rfl (fun _ => rfl) (fun _ => by rw [e]; exact ⟨rfl, rfl, rfl⟩)
  | evCount a =>
    have hl := link_of hg hx nofun
    have hi := hx.internal.1 rfl
    have hc := hx.calls rfl
    have hs := hx.on rfl
    cases h
    obtain ⟨c, hn⟩ : ∃ c, (abs s).callback = some c := by
      have := hl.2
      rw [hs] at this
      exact Option.isSome_iff_exists.1 this.symm
    have e : abs { s with count := bump s.count, hist := s.hist ++ [(i, .event a)] } =
        { abs s with count := (abs s).count + 1, calls := (abs s).calls ++ [(c, a)] } := by
      refine (abs_snoc _ s.hist i (.event a) rfl).trans ?_
      show (match (abs s).callback with
        | some c => { abs s with count := (abs s).count + 1, calls := (abs s).calls ++ [(c, a)] }
        | none => abs s) = _
      rw [hn]
    have hc' : s.calls = ((abs s).calls ++ [(c, a)]).map (fun p => (some p.1, p.2)) := by
      rw [hc, List.map_append]
      show _ ++ [((abs s).callback, a)] = _
      rw [hn]
      rfl
    refine ⟨⟨Or.inl (by rw [e]; exact hl), fun e => absurd (hi.symm.trans e) nofun, ?_, ?_⟩,
      ⟨hx.event, hx.internal, nofun, nofun, nofun, fun _ => ?_⟩, ?_⟩
    · rw [e]
      have := hg.le
      simp only [events, events_snoc] at this ⊢
      omega
    · rw [e]
      have h1 := hg.count
      have h2 := hg.le
      simp only [events, events_snoc] at h1 h2 ⊢
      intro h
      rw [h1 (by omega)]
      show ((abs s).count + 1) % 4294967296 = (abs s).count + 1
      exact Nat.mod_eq_of_lt (by omega)
    · rw [e]
      exact hc'.trans (List.append_nil _).symm
    · intro j z hj hz
      have e2 := not_internal hx hz hj rfl
      refine hz.other Iff.rfl Iff.rfl (fun _ => rfl) ?_
      rw [e2]; nofun
  | evRelease =>
    cases h
    have hl := link_of hg hx nofun
    have hc := hx.calls rfl
    rw [show (PC.evRelease : PC C A).pend = none from rfl, List.append_nil] at hc
    refine ⟨⟨Or.inl hl, fun _ => hc, hg.le, hg.count⟩, ⟨hx.event, ⟨nofun, nofun⟩, nofun, nofun, nofun, nofun⟩, ?_⟩
    intro j z hj hz
    have e2 := not_internal hx hz hj rfl
    refine hz.other Iff.rfl ?_ (fun _ => rfl) (by rw [e2]; nofun)
    rw [hx.internal.1 rfl]
    exact ⟨nofun, fun e => absurd (Option.some.inj e).symm hj⟩
  | reset =>
    cases h
    have e : abs { s with count := 0, hist := s.hist ++ [(i, .reset)] } = { abs s with count := 0 } :=
      abs_snoc _ s.hist i .reset rfl
    refine ⟨⟨?_, ?_, ?_, ?_⟩, ⟨hx.event, hx.internal, nofun, nofun, nofun, nofun⟩, ?_⟩
    · rw [e]; exact hg.link
    · rw [e]; exact hg.calls
    · rw [e]; exact Nat.zero_le _
    · rw [e]; exact fun _ => rfl
    · intro j z hj hz
      exact hz.other Iff.rfl Iff.rfl (fun _ => rfl) (fun _ => by rw [e]; exact ⟨rfl, rfl, rfl⟩)
  | decrement =>
    cases h
    have e : abs { s with count := if s.count > 0 then s.count - 1 else s.count,
                          hist := s.hist ++ [(i, .decrement)] } =
        { abs s with count := (abs s).count - 1 } := abs_snoc _ s.hist i .decrement rfl
    refine ⟨⟨?_, ?_, ?_, ?_⟩, ⟨hx.event, hx.internal, nofun, nofun, nofun, nofun⟩, ?_⟩
    · rw [e]; exact hg.link
    · rw [e]; exact hg.calls
    · rw [e]
      have := hg.le
      simp only [events, events_snoc] at this ⊢
      omega
    · rw [e]
      have := hg.count
      simp only [events, events_snoc] at this ⊢
      intro h
      rw [this h]
      split <;> omega
    · intro j z hj hz
      exact hz.other Iff.rfl Iff.rfl (fun _ => rfl) (fun _ => by rw [e]; exact ⟨rfl, rfl, rfl⟩)

/-- Only threads outside any call start one. -/
theorem start_idle {x y : PC C A} {op : Op C A} (h : start x op = some y) :
    (∃ r, x = .idle r) ∧ y.holdsE = false ∧ y.holdsI = false ∧ y.inWait = false ∧ woken y = none := by
  cases x with
  | idle r => cases op <;> cases h <;> exact ⟨⟨r, rfl⟩, rfl, rfl, rfl, rfl⟩
  | _ => cases op <;> cases h

theorem quiet {y : PC C A} (h1 : y.holdsE = false) (h2 : y.holdsI = false) :
    y.on = false ∧ y.off = false ∧ y.mid = false := by
  cases y <;> first | exact ⟨rfl, rfl, rfl⟩ | (cases h1; done) | (cases h2; done)

theorem local_ (Al : Op C A → Prop) : (prog C A).Local Al Glob Loc where
  start := by
    intro s i x op y _ _ hx h
    obtain ⟨⟨r, rfl⟩, h1, h2, -, -⟩ := start_idle h
    obtain ⟨h3, h4, h5⟩ := quiet h1 h2
    refine ⟨?_, ?_, by rw [h3]; nofun, by rw [h4]; nofun, by rw [h5]; nofun, by rw [h2]; nofun⟩
    · rw [h1]; exact hx.event
    · rw [h2]; exact hx.internal
  shared := fun s i x s' y b hg hx h => (keeps_run hg hx h).1
  run := fun s i x s' y b hg hx h => (keeps_run hg hx h).2.1
  other := fun s i x s' y b j z hg hx h hj hz => (keeps_run hg hx h).2.2 j z hj hz
  woken := by
    intro s i x y hx h
    cases x with
    | asleep n => cases h; exact ⟨hx.event, hx.internal, nofun, nofun, nofun, nofun⟩
    | _ => cases h
  late := fun s i x y _ h => by cases h

/-- The invariant. -/
def Inv (s : Conf (prog C A)) : Prop := (prog C A).Inv Glob Loc s

theorem inv_init (n : Nat) : Inv (init C A n) := by
  refine ⟨⟨Or.inl ⟨rfl, rfl⟩, fun _ => rfl, Nat.le_refl _, fun _ => rfl⟩, ?_⟩
  intro j x h
  rw [Prog.init_get h]
  exact ⟨⟨nofun, nofun⟩, ⟨nofun, nofun⟩, nofun, nofun, nofun, nofun⟩

theorem inv_step {s s' : Conf (prog C A)} {l : Label (Op C A)} (h : Inv s)
    (hs : (prog C A).Stepped s l s') : Inv s' :=
  (local_ fun _ => True).step h (Label.allowed_true l) hs

theorem inv_reachable {n : Nat} {s : Conf (prog C A)} {Al : Op C A → Prop}
    (h : (prog C A).system.ReachableBy Al (init C A n) s) : Inv s :=
  (local_ Al).reachable (inv_init n) h

end Verif.EventHandler
