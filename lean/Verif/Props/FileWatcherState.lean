import Verif.Props.FileWatcherEnd
/-!
C113, C114: what is true of a `FileWatcherHandler` between calls.
-/
namespace Verif.FileWatcher
open Verif.Threads
open Verif.FileWatch

/-- Where threads are, from one state to the next. -/
theorem places {c : Cfg} (hc : c.callback = .plain) (ok : PC → Prop) {s s' : Conf (prog c)} {l : Label Op}
    (hs : (prog c).Stepped s l s') (hok : ∀ (i : Nat) (x : PC), s.pcs[i]? = some x → ok x)
    (hrun : ∀ (i : Nat) (x y : PC) (b : Bool), s.pcs[i]? = some x → ok x → Ran c i s.sh x s'.sh y b → ok y)
    (hstart : ∀ (i : Nat) (x : PC) (op : Op) (y : PC), l = .start i op → ok x → start x op = some y → ok y)
    (hwoken : ∀ x y, ok x → woken x = some y → ok y) (i : Nat) (y : PC) (hy : s'.pcs[i]? = some y) : ok y := by
  have hlt : i < s.pcs.length := by
    rw [← Prog.stepped_length hs]
    exact (List.getElem?_eq_some_iff.1 hy).1
  have hx : s.pcs[i]? = some _ := List.getElem?_eq_getElem hlt
  generalize s.pcs[i]'hlt = x at hx
  obtain ⟨y', hy', t⟩ := Prog.track hs hx
  rw [hy] at hy'
  cases hy'
  rcases t with ⟨op, h1, hst, -⟩ | ⟨-, b, hr⟩ | ⟨-, h | h | h, -⟩
  · exact hstart i x op y h1 (hok i x hx) hst
  · exact hrun i x y b hx (hok i x hx) (run_ran hc hr)
  · rw [h]; exact hok i x hx
  · exact hwoken x y (hok i x hx) h
  · cases h

theorem exec_stays {S : System} (R : S.State → Prop) (A : Label S.Op → Prop)
    (hstep : ∀ s l s', R s → A l → S.step s l = some s' → R s') {ls : List (Label S.Op)} :
    ∀ {s s' : S.State}, R s → (∀ l ∈ ls, A l) → S.exec s ls = some s' → R s' := by
  induction ls with
  | nil =>
    intro s s' h _ he
    cases he
    exact h
  | cons l ls ih =>
    intro s s' h ha he
    obtain ⟨t, h1, h2⟩ := System.exec_cons he
    exact ih (hstep s l t h (ha l List.mem_cons_self) h1) (fun l hl => ha l (List.mem_cons_of_mem _ hl)) h2

/-! ### C113 -/

/-- Places while no callback is set and no thread is in `set_callback`. -/
def PC.rests : PC → Bool
  | .idle | .fsChange _ | .fsPath _ | .fsGone | .unsetLock | .unsetTest | .unsetOut | .evLock false | .evTest false
  | .evRel false | .wOff | .cOff => true
  | _ => false

/-- No callback is set, there are no threads, and the callback has been called for `w`. -/
structure Rests {c : Cfg} (w : List Str) (s : Conf (prog c)) : Prop where
  set : s.sh.set = false
  wt : s.sh.wt = .none
  ct : s.sh.ct = .none
  called : s.sh.called = w
  rests : ∀ (i : Nat) (x : PC), s.pcs[i]? = some x → x.rests = true

theorem rests_step {c : Cfg} (hc : c.callback = .plain) {w : List Str} {s s' : Conf (prog c)} {l : Label Op}
    (h : Rests w s) (hl : ∀ i, l ≠ .start i .set) (hs : (prog c).Stepped s l s') : Rests w s' := by
  have key : ∀ (i : Nat) (x y : PC) (b : Bool) (t : Sh), x.rests = true → Ran c i s.sh x t y b →
      (t.set = false ∧ t.wt = .none ∧ t.ct = .none ∧ t.called = w) ∧ y.rests = true := by
    intro i x y b t hx hr
    have hh := h.set
    cases hker : x.kernel with
    | true =>
      have hcalm := (ran_kernel hr hker).1
      refine ⟨⟨hcalm.set.trans h.set, hcalm.wt.trans h.wt, hcalm.ct.trans h.ct, hcalm.called.trans h.called⟩, ?_⟩
      cases hr <;> first | rfl | (cases hker; done) | (cases hx; done)
    | false =>
      cases hr <;> first
        | (cases hker; done)
        | (cases hx; done)
        | exact ⟨⟨h.set, h.wt, h.ct, h.called⟩, rfl⟩
        | (rename_i t _; cases t <;> first | (cases hx; done) | exact ⟨⟨h.set, h.wt, h.ct, h.called⟩, rfl⟩ | (rename_i h'; exact absurd (h'.symm.trans hh) nofun))
        | (rename_i t; cases t <;> first | (cases hx; done) | exact ⟨⟨h.set, h.wt, h.ct, h.called⟩, rfl⟩)
        | (rename_i h'; exact absurd (h'.symm.trans hh) nofun)
        | (rename_i h'; exact absurd (h'.symm.trans h.wt) nofun)
        | (rename_i h'; exact absurd (h'.symm.trans h.ct) nofun)
  have hsh : s'.sh.set = false ∧ s'.sh.wt = .none ∧ s'.sh.ct = .none ∧ s'.sh.called = w := by
    rcases Prog.stepped_sh hs with e | ⟨i, x, y, b, -, hx, hr⟩
    · rw [e]; exact ⟨h.set, h.wt, h.ct, h.called⟩
    · exact (key i x y b _ (h.rests i x hx) (run_ran hc hr)).1
  refine ⟨hsh.1, hsh.2.1, hsh.2.2.1, hsh.2.2.2, places hc (fun x => x.rests = true) hs h.rests ?_ ?_ ?_⟩
  · intro i x y b _ hx hr
    exact (key i x y b _ hx hr).2
  · intro i x op y hlab hx hst
    subst hlab
    cases x <;> cases op <;> first | (cases hst; done) | (cases hst; rfl) | exact absurd rfl (hl i)
  · intro x y hx hw
    cases x <;> first | (cases hw; done) | cases hx

/-- C113: when no callback is set and no call is setting or unsetting one, as after `unset_callback`, both threads of the `FileWatch`
object have ended, and until `set_callback` is called again there is none, no callback is called or running, whatever
happens to the file. -/
theorem C113_unset {c : Cfg} (hc : c.callback = .plain) {path : Bool} {n : Nat} {s s' : Conf (prog c)}
    (h : (prog c).system.Reachable (init c path n) s) (hset : s.sh.set = false) (hevent : s.sh.event = none)
    (hno : ∀ i : Nat, s.pcs[i]? ≠ some .setLock) {ls : List (Label Op)} (hls : ∀ i, .start i .set ∉ ls)
    (he : (prog c).system.exec s ls = some s') :
    s'.sh.set = false ∧ s'.sh.wt = .none ∧ s'.sh.ct = .none ∧ s'.sh.called = s.sh.called ∧
      ∀ (i : Nat) (t : Bool), s'.pcs[i]? ≠ some (.evCall t) := by
  have hI := inv hc h
  obtain ⟨-, -, hw, hct⟩ := (hI.glob.cons hevent).2 hset
  have h0 : Rests s.sh.called s := by
    refine ⟨hset, hw, hct, rfl, ?_⟩
    intro i x hx
    have hl := hI.loc i x hx
    have h1 := hl.event
    have h2 := hl.wfact
    have h3 := hl.cfact
    have h4 := hl.ifact
    have h5 := hl.efact
    have hn := hno i
    rw [hevent] at h1
    have ev : x.hasEvent = true → False := fun h => by have := h1.1 h; cases this
    have nw : s.sh.wt = .running → False := fun h => by rw [hw] at h; cases h
    have nc : s.sh.ct = .running → False := fun h => by rw [hct] at h; cases h
    cases x <;> first
      | rfl
      | exact (ev rfl).elim
      | exact (nw h2.1).elim
      | exact (nc h3.1).elim
      | exact absurd hx hn
      | exact h5.elim
      | (exact absurd (h4.symm.trans hset) nofun)
      | (rename_i t; cases t <;> first | rfl | exact (nc h3.1).elim)
  have h1 : Rests s.sh.called s' := exec_stays (S := (prog c).system) (Rests s.sh.called)
    (fun l => ∀ i, l ≠ .start i .set) (fun t l t' h1 h2 h3 => rests_step hc h1 h2 (Prog.step_stepped h3)) h0
    (fun l hl i e => hls i (e ▸ hl)) he
  refine ⟨h1.set, h1.wt, h1.ct, h1.called, ?_⟩
  intro i t hx
  have := h1.rests i _ hx
  cases this

/-- The hypotheses of `C113_unset` are met: the callback is set, called, and unset; then `f` is written to. -/
example : ∃ s s' : Conf (prog (watched .plain)), (prog (watched .plain)).system.Reachable (init (watched .plain) true 1) s ∧
    s.sh.set = false ∧ s.sh.event = none ∧ (∀ i : Nat, s.pcs[i]? ≠ some .setLock) ∧ s.sh.called = [c!"f"] ∧
    (prog (watched .plain)).system.exec s [.start 2 (.change written), .run 2, .start 2 .event, .run 2, .run 2, .run 2] =
      some s' := by
  obtain ⟨s, hs, hq⟩ := some_of (o := (prog (watched .plain)).system.exec (init (watched .plain) true 1) whole)
    (fun (s : Conf (prog (watched .plain))) => decide (s.sh.set = false ∧ s.sh.event = none ∧
      s.pcs = [.wOff, .cOff, .idle] ∧ s.sh.called = [c!"f"]) &&
      ((prog (watched .plain)).system.exec s [.start 2 (.change written), .run 2, .start 2 .event, .run 2, .run 2, .run 2]).isSome)
    (by decide +kernel)
  rw [Bool.and_eq_true] at hq
  obtain ⟨h1, h2, h3, h4⟩ := of_decide_eq_true hq.1
  obtain ⟨s', hs'⟩ := Option.isSome_iff_exists.1 hq.2
  refine ⟨s, s', (prog (watched .plain)).system.exec_reachable' _ hs, h1, h2, ?_, h4, hs'⟩
  intro i hi
  rw [h3] at hi
  match i with
  | 0 => cases hi
  | 1 => cases hi
  | 2 => cases hi
  | i + 3 => cases hi

/-! ### C114 -/

/-- Places while a callback is set without anything being watched, and no thread is in `unset_callback`. -/
def PC.deaf : PC → Bool
  | .idle | .fsChange _ | .fsPath _ | .fsGone | .setLock | .setInternal | .setFlag | .setRel true | .setOut | .evLock false
  | .evTest false | .evCall false | .evRel false | .wOff | .cOff => true
  | _ => false

/-- A callback is set, nothing is watched, and the callback has been called for `w`. -/
structure Deaf {c : Cfg} (w : List Str) (s : Conf (prog c)) : Prop where
  set : s.sh.set = true
  present : s.sh.present = false
  wt : s.sh.wt = .none
  ct : s.sh.ct = .none
  called : s.sh.called = w
  deaf : ∀ (i : Nat) (x : PC), s.pcs[i]? = some x → x.deaf = true

theorem deaf_step {c : Cfg} (hc : c.callback = .plain) {w : List Str} {s s' : Conf (prog c)} {l : Label Op}
    (h : Deaf w s) (hl : ∀ i, l ≠ .start i .unset) (hs : (prog c).Stepped s l s') : Deaf w s' := by
  have key : ∀ (i : Nat) (x y : PC) (b : Bool) (t : Sh), x.deaf = true → Ran c i s.sh x t y b →
      (t.set = true ∧ t.present = false ∧ t.wt = .none ∧ t.ct = .none ∧ t.called = w) ∧ y.deaf = true := by
    intro i x y b t hx hr
    have hh := h.set
    have all : ∀ u : Sh, u.set = s.sh.set → u.present = s.sh.present → u.wt = s.sh.wt → u.ct = s.sh.ct →
        u.called = s.sh.called → u.set = true ∧ u.present = false ∧ u.wt = .none ∧ u.ct = .none ∧ u.called = w :=
      fun u h1 h2 h3 h4 h5 =>
        ⟨h1.trans h.set, h2.trans h.present, h3.trans h.wt, h4.trans h.ct, h5.trans h.called⟩
    cases hker : x.kernel with
    | true =>
      have hcalm := (ran_kernel hr hker).1
      refine ⟨all t hcalm.set hcalm.present hcalm.wt hcalm.ct hcalm.called, ?_⟩
      cases hr <;> first | rfl | (cases hker; done) | (cases hx; done)
    | false =>
      cases hr with
      | setFlag => exact ⟨⟨rfl, h.present, h.wt, h.ct, h.called⟩, by rw [hh]; rfl⟩
      | wOff h' => exact absurd (h'.symm.trans h.wt) nofun
      | cOff h' => exact absurd (h'.symm.trans h.ct) nofun
      | evNo t h' => exact absurd (h'.symm.trans hh) nofun
      | evCall t =>
        cases t with
        | true => cases hx
        | false => exact ⟨all _ rfl rfl rfl rfl rfl, rfl⟩
      | evLock t =>
        cases t with
        | true => cases hx
        | false => exact ⟨all _ rfl rfl rfl rfl rfl, rfl⟩
      | evYes t =>
        cases t with
        | true => cases hx
        | false => exact ⟨all _ rfl rfl rfl rfl rfl, rfl⟩
      | _ => first
        | (cases hker; done)
        | (cases hx; done)
        | exact ⟨all _ rfl rfl rfl rfl rfl, rfl⟩
  have hsh : s'.sh.set = true ∧ s'.sh.present = false ∧ s'.sh.wt = .none ∧ s'.sh.ct = .none ∧ s'.sh.called = w := by
    rcases Prog.stepped_sh hs with e | ⟨i, x, y, b, -, hx, hr⟩
    · rw [e]; exact ⟨h.set, h.present, h.wt, h.ct, h.called⟩
    · exact (key i x y b _ (h.deaf i x hx) (run_ran hc hr)).1
  refine ⟨hsh.1, hsh.2.1, hsh.2.2.1, hsh.2.2.2.1, hsh.2.2.2.2, places hc (fun x => x.deaf = true) hs h.deaf ?_ ?_ ?_⟩
  · intro i x y b _ hx hr
    exact (key i x y b _ hx hr).2
  · intro i x op y hlab hx hst
    subst hlab
    cases x <;> cases op <;> first | (cases hst; done) | (cases hst; rfl) | exact absurd rfl (hl i)
  · intro x y hx hw
    cases x <;> first | (cases hw; done) | cases hx

/-- What C114 excludes, once it is there, lasts: while a callback is set and nothing is watched, no call of `set_callback`
changes that, even if the path can be watched meanwhile; the callback is not called for any modification until
it is unset. -/
theorem C114_deaf {c : Cfg} (hc : c.callback = .plain) {path : Bool} {n : Nat} {s s' : Conf (prog c)}
    (h : (prog c).system.Reachable (init c path n) s) (hset : s.sh.set = true) (hevent : s.sh.event = none)
    (hpres : s.sh.present = false) (hno : ∀ i : Nat, s.pcs[i]? ≠ some .unsetLock) {ls : List (Label Op)}
    (hls : ∀ i, .start i .unset ∉ ls) (he : (prog c).system.exec s ls = some s') :
    s'.sh.set = true ∧ s'.sh.present = false ∧ s'.sh.called = s.sh.called := by
  have hI := inv hc h
  have hoff : Off s.sh := by
    rcases ((hI.glob.cons hevent).1 hset).2 with h | h
    · exact absurd (hpres.symm.trans h.1.1) nofun
    · exact h
  obtain ⟨-, hw, hct⟩ := hoff
  have h0 : Deaf s.sh.called s := by
    refine ⟨hset, hpres, hw, hct, rfl, ?_⟩
    intro i x hx
    have hl := hI.loc i x hx
    have h1 := hl.event
    have h2 := hl.wfact
    have h3 := hl.cfact
    have h5 := hl.efact
    have hn := hno i
    rw [hevent] at h1
    have ev : x.hasEvent = true → False := fun h => by have := h1.1 h; cases this
    have nw : s.sh.wt = .running → False := fun h => by rw [hw] at h; cases h
    have nc : s.sh.ct = .running → False := fun h => by rw [hct] at h; cases h
    cases x <;> first
      | rfl
      | exact (ev rfl).elim
      | exact (nw h2.1).elim
      | exact (nc h3.1).elim
      | exact absurd hx hn
      | exact h5.elim
      | (rename_i t; cases t <;> first | rfl | exact (nc h3.1).elim)
  have h1 : Deaf s.sh.called s' := exec_stays (S := (prog c).system) (Deaf s.sh.called)
    (fun l => ∀ i, l ≠ .start i .unset) (fun t l t' h1 h2 h3 => deaf_step hc h1 h2 (Prog.step_stepped h3)) h0
    (fun l hl i e => hls i (e ▸ hl)) he
  exact ⟨h1.set, h1.present, h1.called⟩

/-- Labels: `set_callback` while the path cannot be watched. -/
def setsBad : List (Label Op) := [.start 2 .set, .run 2, .run 2, .run 2, .run 2, .run 2, .run 2, .run 2, .run 2]

/-- Labels: the path can be watched now, the callback is set again, `f` is written to. -/
def better : List (Label Op) :=
  [.start 2 (.path true), .run 2, .start 2 .set, .run 2, .run 2, .run 2, .run 2, .run 2, .start 2 (.change written), .run 2]

/-- C114 does not hold: if the path cannot be watched, the constructor of `FileWatch` throws; `start_filewatcher_nts_` catches that,
makes another exception without throwing it, and `set_callback` returns as if all were well.  The callback is then set, nothing is
watched (and nothing will be, see `C114_deaf`, whose hypotheses are met here). -/
theorem C114_negation_swallowed : ∃ s s' : Conf (prog (watched .plain)),
    (prog (watched .plain)).system.Reachable (init (watched .plain) false 1) s ∧ s.pcs[2]? = some .idle ∧
    s.sh.set = true ∧ s.sh.event = none ∧ s.sh.present = false ∧ (∀ i : Nat, s.pcs[i]? ≠ some .unsetLock) ∧
    (prog (watched .plain)).system.exec s better = some s' ∧ s'.sh.path = true ∧ s'.sh.called = [] := by
  obtain ⟨s, hs, hq⟩ := some_of (o := (prog (watched .plain)).system.exec (init (watched .plain) false 1) setsBad)
    (fun (s : Conf (prog (watched .plain))) => decide (s.sh.set = true ∧ s.sh.event = none ∧ s.sh.present = false ∧
      s.pcs = [.wOff, .cOff, .idle]) &&
      ((prog (watched .plain)).system.exec s better).any fun (s' : Conf (prog (watched .plain))) =>
        decide (s'.sh.path = true ∧ s'.sh.called = []))
    (by decide +kernel)
  rw [Bool.and_eq_true] at hq
  obtain ⟨h1, h2, h3, h4⟩ := of_decide_eq_true hq.1
  obtain ⟨s', hs', hq'⟩ := some_of _ hq.2
  obtain ⟨h5, h6⟩ := of_decide_eq_true hq'
  refine ⟨s, s', (prog (watched .plain)).system.exec_reachable' _ hs, by rw [h4]; rfl, h1, h2, h3, ?_, hs', h5, h6⟩
  intro i hi
  rw [h4] at hi
  match i with
  | 0 => cases hi
  | 1 => cases hi
  | 2 => cases hi
  | i + 3 => cases hi

/-- What holds while the path can be watched. -/
structure Watched {c : Cfg} (s : Conf (prog c)) : Prop where
  path : s.sh.path = true
  held : (s.sh.started = true → s.sh.present = true) ∨ ∃ i : Nat, s.pcs[i]? = some .unsetStopped
  made : ∀ (i : Nat) (x : PC), s.pcs[i]? = some x → x ≠ .fsGone ∧ x ≠ .fsPath false ∧
    (x = .setStarted → s.sh.present = true)

/-- What happens to the file system while the path can be watched. -/
def Op.kind : Op → Prop
  | .gone => False
  | .path ok => ok = true
  | _ => True

theorem watched_step {c : Cfg} (hc : c.callback = .plain) {s s' : Conf (prog c)} {l : Label Op}
    (hI : (prog c).Inv (Glob c) Loc s) (h : Watched s) (hl : ∀ i op, l = .start i op → op.kind)
    (hs : (prog c).Stepped s l s') : Watched s' := by
  have same : ∀ (k : Nat) (x y : PC) (b : Bool) (t : Sh), s.pcs[k]? = some x → Ran c k s.sh x t y b →
      t.path = true ∧
      ((t.started = s.sh.started ∧ t.present = s.sh.present) ∨ (x = .setStarted ∧ t.present = true) ∨ x = .setMake ∨
       x = .dJoinC ∨ x = .unsetStopped) := by
    intro k x y b t hx hr
    obtain ⟨h1, h2, -⟩ := h.made k x hx
    have hp := h.path
    cases hr with
    | fsGone => exact absurd rfl h1
    | fsPath ok =>
      cases ok with
      | true => exact ⟨rfl, Or.inl ⟨rfl, rfl⟩⟩
      | false => exact absurd rfl h2
    | fsChange e =>
      have hcalm := feed_calm s.sh e
      refine ⟨?_, Or.inl ⟨hcalm.started, hcalm.present⟩⟩
      unfold Sh.feed
      split <;> exact hp
    | dRemove =>
      have hcalm := unwatch_calm s.sh
      refine ⟨?_, Or.inl ⟨hcalm.started, hcalm.present⟩⟩
      unfold Sh.unwatch Sh.feed
      split <;> exact hp
    | makeYes => exact ⟨hp, Or.inr (Or.inr (Or.inl rfl))⟩
    | makeNo h' => exact absurd (h'.symm.trans hp) nofun
    | setStarted => exact ⟨hp, Or.inr (Or.inl ⟨rfl, (h.made k _ hx).2.2 rfl⟩)⟩
    | dJoinC => exact ⟨hp, Or.inr (Or.inr (Or.inr (Or.inl rfl)))⟩
    | unsetStopped => exact ⟨hp, Or.inr (Or.inr (Or.inr (Or.inr rfl)))⟩
    | evNo t => cases t <;> exact ⟨hp, Or.inl ⟨rfl, rfl⟩⟩
    | evCall t => cases t <;> exact ⟨hp, Or.inl ⟨rfl, rfl⟩⟩
    | _ => exact ⟨hp, Or.inl ⟨rfl, rfl⟩⟩
  have stopped : ∀ i : Nat, s.pcs[i]? = some .unsetStopped →
      (s'.sh.started = true → s'.sh.present = true) ∨ ∃ i : Nat, s'.pcs[i]? = some .unsetStopped := by
    intro i hi
    rcases place_step hc rfl hi hs with h | ⟨y, b, hr, -⟩
    · exact Or.inr ⟨i, h⟩
    · left
      generalize s'.sh = t at hr
      cases hr
      exact fun h => absurd h nofun
  refine ⟨?_, ?_, ?_⟩
  · rcases Prog.stepped_sh hs with e | ⟨i, x, y, b, -, hx, hr⟩
    · rw [e]; exact h.path
    · exact (same i x y b _ hx (run_ran hc hr)).1
  · rcases h.held with hh | ⟨i, hi⟩
    · rcases Prog.stepped_sh hs with e | ⟨k, x, y, b, el, hx, hr⟩
      · rw [e]; exact Or.inl hh
      · have hr := run_ran hc (i := k) (x := x) hr
        rcases (same k x y b _ hx hr).2 with ⟨h1, h2⟩ | ⟨-, h2⟩ | h3 | h3 | h3
        · rw [h1, h2]; exact Or.inl hh
        · exact Or.inl fun _ => h2
        · subst h3
          left
          have hp := h.path
          generalize s'.sh = t at hr
          cases hr with
          | makeYes => exact fun _ => rfl
          | makeNo h' => exact absurd (h'.symm.trans hp) nofun
        · subst h3
          right
          subst el
          obtain ⟨sh, y', b', g1, g2, g3⟩ := Prog.stepped_run hs hx
          have hr' := run_ran hc (i := k) (x := .dJoinC) g1
          cases hr'
          exact ⟨k, g3⟩
        · exact stopped k (h3 ▸ hx)
    · exact stopped i hi
  · intro i y hy
    have hlt : i < s.pcs.length := by
      rw [← Prog.stepped_length hs]
      exact (List.getElem?_eq_some_iff.1 hy).1
    have hx : s.pcs[i]? = some _ := List.getElem?_eq_getElem hlt
    generalize s.pcs[i]'hlt = x at hx
    obtain ⟨y', hy', t⟩ := Prog.track hs hx
    rw [hy] at hy'
    cases hy'
    have ne : ∀ z : PC, z.kernel = false → z ≠ .fsGone ∧ z ≠ .fsPath false := by
      intro z hz
      constructor <;> (rintro rfl; cases hz)
    rcases t with ⟨op, h1, hst, -⟩ | ⟨-, b, hr⟩ | ⟨hne, hh | hh | hh, hsh⟩
    · have hk := hl i op h1
      cases x <;> cases op <;> first
        | (cases hst; done)
        | exact hk.elim
        | (rename_i ok; change ok = true at hk; subst hk; cases hst; exact ⟨nofun, nofun, nofun⟩)
        | (cases hst; exact ⟨nofun, nofun, nofun⟩)
    · have hr := run_ran hc (i := i) (x := x) hr
      have he := (hI.loc i x hx).efact
      have hp := h.path
      generalize s'.sh = u at hr ⊢
      cases hr <;> first
        | (rename_i h'; have := h'.symm.trans hp; cases this; done)
        | exact ⟨nofun, nofun, fun _ => he.2.2.1⟩
        | exact ⟨nofun, nofun, nofun⟩
    · subst hh
      obtain ⟨h1, h2, h3⟩ := h.made i _ hx
      refine ⟨h1, h2, ?_⟩
      intro hy
      subst hy
      rcases hsh with e | ⟨k, w, z, b, hk, -, hw, hr⟩
      · rw [e]; exact h3 rfl
      · have hr := run_ran hc (i := k) (x := w) hr
        have alone : w.hasEvent = true → False := by
          intro hv
          have e1 := (hI.loc k w hw).event.1 hv
          have e2 := (hI.loc i _ hx).event.1 rfl
          rw [e1] at e2
          cases e2
          exact hk rfl
        rcases (same k w z b _ hw hr).2 with ⟨-, g⟩ | ⟨g, -⟩ | g | g | g
        · rw [g]; exact h3 rfl
        · subst g; exact (alone rfl).elim
        · subst g; exact (alone rfl).elim
        · subst g; exact (alone rfl).elim
        · subst g; exact (alone rfl).elim
    · cases x <;> cases hh
      exact ⟨nofun, nofun, nofun⟩
    · cases hh

/-- C114, part: if the path can be watched all the time, then whenever a callback is set, and no call is setting or unsetting one, the
path is being watched: both threads were started and have not been told to end. -/
theorem C114_watched_partial {c : Cfg} (hc : c.callback = .plain) {n : Nat} {s : Conf (prog c)}
    (h : (prog c).system.ReachableBy Op.kind (init c true n) s) (hset : s.sh.set = true) (hevent : s.sh.event = none) :
    s.sh.present = true ∧ s.sh.destroy = false ∧ (s.sh.wt = .spawned ∨ s.sh.wt = .running) ∧
      (s.sh.ct = .spawned ∨ s.sh.ct = .running) := by
  have hboth : (prog c).Inv (Glob c) Loc s ∧ Watched s := by
    refine System.ReachableBy.invariant (S := (prog c).system)
      (fun s => (prog c).Inv (Glob c) Loc s ∧ Watched s) ?_ ?_ h
    · refine ⟨inv hc .init, rfl, Or.inl nofun, ?_⟩
      intro i x hx
      rcases init_at hx with ⟨-, h⟩ | ⟨-, h⟩ | ⟨-, -, h⟩ <;> subst h <;> exact ⟨nofun, nofun, nofun⟩
    · intro s l s' ⟨h1, h2⟩ hA hs
      refine ⟨?_, watched_step hc h1 h2 ?_ (Prog.step_stepped hs)⟩
      · exact (local_ hc).step h1 (Label.allowed_true _) (Prog.step_stepped hs)
      · intro i op e
        subst e
        exact hA
  obtain ⟨hI, hw⟩ := hboth
  obtain ⟨hst, ho⟩ := (hI.glob.cons hevent).1 hset
  have hp : s.sh.present = true := by
    rcases hw.held with h | ⟨i, hi⟩
    · exact h hst
    · have := (hI.loc i _ hi).event.1 rfl
      rw [hevent] at this
      cases this
  rcases ho with ⟨h, -⟩ | h
  · exact ⟨h.1, h.2.1, h.2.2.1, h.2.2.2⟩
  · exact absurd (h.1.symm.trans hp) nofun

/-- The hypotheses of `C114_watched_partial` are met after `set_callback`. -/
example : ∃ s : Conf (prog (watched .plain)),
    (prog (watched .plain)).system.ReachableBy Op.kind (init (watched .plain) true 1) s ∧ s.sh.set = true ∧
    s.sh.event = none := by
  obtain ⟨s, hs, hq⟩ := some_of (o := (prog (watched .plain)).system.exec (init (watched .plain) true 1) sets)
    (fun (s : Conf (prog (watched .plain))) => decide (s.sh.set = true ∧ s.sh.event = none)) (by decide +kernel)
  obtain ⟨h1, h2⟩ := of_decide_eq_true hq
  refine ⟨s, (prog (watched .plain)).system.exec_reachable sets ?_ .init hs, h1, h2⟩
  intro l hl
  simp only [sets, List.mem_cons, List.not_mem_nil, or_false] at hl
  rcases hl with rfl | rfl | rfl | rfl | rfl | rfl | rfl | rfl | rfl | rfl | rfl | rfl <;> exact trivial

end Verif.FileWatcher
