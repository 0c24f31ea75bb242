import Verif.Lemmas.Stdin
/-!
C165: `StdinEventHandler`, which lines are read and given to the callback; C167: how its calls can fail to return.
-/
namespace Verif.Stdin
open Verif.Threads

theorem size {c : Callback} {k : Int} {n : Nat} {s : Conf (prog c)}
    (h : (prog c).system.Reachable (init c k n) s) : s.pcs.length = n + 1 := by
  refine System.ReachableBy.invariant (S := (prog c).system) (fun s : Conf (prog c) => s.pcs.length = n + 1) ?_ ?_ h
  · simp [init]
  · intro s l s' hi _ hs
    exact (Prog.stepped_length (Prog.step_stepped hs)).trans hi

/-- The reading thread is somewhere. -/
theorem reader_at {c : Callback} {k : Int} {n : Nat} {s : Conf (prog c)}
    (h : (prog c).system.Reachable (init c k n) s) : ∃ x : PC, s.pcs[0]? = some x :=
  ⟨_, List.getElem?_eq_getElem (by rw [size h]; exact Nat.succ_pos n)⟩

/-- The shared data changes by a step of a thread only. -/
theorem ran_of_step {c : Callback} {s s' : Conf (prog c)} {l : Label Op} (hs : (prog c).system.step s l = some s') :
    s'.sh = s.sh ∨ ∃ (i : Nat) (x y : PC), l = .run i ∧ s.pcs[i]? = some x ∧ Ran c i s.sh x s'.sh y := by
  rcases Prog.stepped_sh (Prog.step_stepped hs) with h | ⟨i, x, y, b, hl, hx, hr⟩
  · exact Or.inl h
  · exact Or.inr ⟨i, x, y, hl, hx, run_ran hr⟩

/-! ### Lines -/

/-- C165: whatever the callback does, the lines are processed in the order in which they are typed, each once: what has
been typed is what has been processed, at most one line that is being processed, and what has not been read. -/
theorem C165_order {c : Callback} {k : Int} {n : Nat} {s : Conf (prog c)}
    (h : (prog c).system.Reachable (init c k n) s) :
    ∃ l : List Str, l.length ≤ 1 ∧ s.sh.typed = s.sh.log.map Prod.fst ++ l ++ s.sh.input := by
  obtain ⟨x, hx⟩ := reader_at h
  have hl := (linv h).loc 0 x hx
  refine ⟨x.line, ?_, hl.lines (hl.reader.2 rfl)⟩
  cases x <;> first | exact Nat.zero_le _ | exact Nat.le_refl _

theorem lines_const {c : Callback} {k : Int} {n : Nat} {s : Conf (prog c)}
    (h : (prog c).system.Reachable (init c k n) s) : s.sh.lines = k := by
  refine System.ReachableBy.invariant (S := (prog c).system) (fun s : Conf (prog c) => s.sh.lines = k) rfl ?_ h
  intro s l s' hi _ hs
  rcases ran_of_step hs with h | ⟨i, x, y, -, -, hr⟩
  · rw [h]; exact hi
  · generalize s'.sh = sh' at hr
    cases hr <;> exact hi

/-- C165: no more lines are processed than `lines_to_read` and the calls of `read_one_more_line` ask for (a negative
`lines_to_read` has to be made up for first). -/
theorem C165_count {c : Callback} {k : Int} {n : Nat} {s : Conf (prog c)}
    (h : (prog c).system.Reachable (init c k n) s) : (s.sh.log.length : Int) ≤ max 0 (k + s.sh.asked) := by
  obtain ⟨x, hx⟩ := reader_at h
  have hl := (linv h).loc 0 x hx
  have h1 := hl.taken (hl.reader.2 rfl)
  obtain ⟨h2, h3⟩ := (linv h).glob
  rw [lines_const h] at h2
  omega

/-- C165: a line is given to the callback exactly if a callback is set at that moment. -/
theorem C165_called {c : Callback} (hc : c = .plain ∨ c = .more ∨ c = .produce) {k : Int} {n : Nat}
    {s s' : Conf (prog c)} (h : (prog c).system.Reachable (init c k n) s) {l : Label Op}
    (hs : (prog c).system.step s l = some s') :
    s'.sh.log = s.sh.log ∨ ∃ t : Str, s'.sh.log = s.sh.log ++ [(t, s.sh.set)] := by
  have ht : c.tame = true := by rcases hc with rfl | rfl | rfl <;> rfl
  rcases ran_of_step hs with h' | ⟨i, x, y, -, hx, hr⟩
  · rw [h']; exact Or.inl rfl
  · have hl := ((inv ht h).loc i x hx).ifact
    generalize s'.sh = sh' at hr
    cases hr with
    | evNo t h => exact Or.inr ⟨t, by rw [h]⟩
    | callPlain t _ => exact Or.inr ⟨t, by rw [show s.sh.set = true from hl]⟩
    | callMore t _ => exact Or.inr ⟨t, by rw [show s.sh.set = true from hl]⟩
    | callProduce t _ => exact Or.inr ⟨t, by rw [show s.sh.set = true from hl]⟩
    | callBack t h => rcases h with rfl | rfl <;> cases ht
    | _ => exact Or.inl rfl

/-- C165: `set_callback` after `unset_callback` is possible again and again: no thread is assigned to a `std::thread`
that is still joinable (which would end the process), and the reading thread does not join itself. -/
theorem C165_one_thread {c : Callback} (hc : c = .plain ∨ c = .more ∨ c = .produce) {k : Int} {n : Nat}
    {s : Conf (prog c)} (h : (prog c).system.Reachable (init c k n) s) : s.sh.crashed = false :=
  (inv (by rcases hc with rfl | rfl | rfl <;> rfl) h).glob.crashed

/-- C165: when `set_callback` returns, the callback is set, the counter is enabled and the reading thread exists. -/
theorem C165_started {c : Callback} (hc : c = .plain ∨ c = .more ∨ c = .produce) {k : Int} {n : Nat}
    {s s' : Conf (prog c)} (h : (prog c).system.Reachable (init c k n) s) {i : Nat} (hx : s.pcs[i]? = some .setOut)
    (hs : (prog c).system.step s (.run i) = some s') :
    s'.pcs[i]? = some .idle ∧ s'.sh.set = true ∧ s'.sh.enabled = true ∧
      (s'.sh.thread = .spawned ∨ s'.sh.thread = .running) := by
  have ht : c.tame = true := by rcases hc with rfl | rfl | rfl <;> rfl
  have hl := ((inv ht h).loc i _ hx).efact
  obtain ⟨sh, y, b, hr, e1, hy⟩ := Prog.stepped_run (Prog.step_stepped hs) hx
  have hr := run_ran (c := c) (i := i) (x := .setOut) hr
  obtain ⟨⟨h1, -⟩, hset⟩ := hl
  have h2 := h1 hset
  cases hr
  exact ⟨hy, by rw [e1]; exact hset, by rw [e1]; exact h2.1, by rw [e1]; exact h2.2⟩

/-- C165: when `unset_callback` returns, no callback is set and the reading thread has ended. -/
theorem C165_stopped {c : Callback} (hc : c = .plain ∨ c = .more ∨ c = .produce) {k : Int} {n : Nat}
    {s s' : Conf (prog c)} (h : (prog c).system.Reachable (init c k n) s) {i : Nat} (hx : s.pcs[i]? = some .unsetOut)
    (hs : (prog c).system.step s (.run i) = some s') :
    s'.pcs[i]? = some .idle ∧ s'.sh.set = false ∧ s'.sh.enabled = false ∧ s'.sh.thread = .none ∧
      s'.pcs[0]? = some .off := by
  have ht : c.tame = true := by rcases hc with rfl | rfl | rfl <;> rfl
  have hl := ((inv ht h).loc i _ hx).efact
  obtain ⟨sh, y, b, hr, e1, hy⟩ := Prog.stepped_run (Prog.step_stepped hs) hx
  have hr := run_ran (c := c) (i := i) (x := .unsetOut) hr
  obtain ⟨⟨-, h1⟩, hset⟩ := hl
  have h2 := h1 hset
  have hR : (prog c).system.Reachable (init c k n) s' := h.step (Label.allowed_true _) hs
  cases hr
  have f2 : s'.sh.thread = .none := by rw [e1]; exact h2.2
  refine ⟨hy, by rw [e1]; exact hset, by rw [e1]; exact h2.1, f2, ?_⟩
  obtain ⟨x, hx⟩ := reader_at hR
  have hl := (inv ht hR).loc 0 x hx
  have h3 := hl.reader.2 rfl
  have h4 := hl.tfact
  have h5 := hl.efact
  rw [hx]
  cases x <;> first
    | rfl
    | (cases h3; done)
    | exact h5.elim
    | (have h4 : s'.sh.thread = .running := h4; rw [f2] at h4; cases h4; done)
    | (have h4 : s'.sh.thread = .running := h4.1; rw [f2] at h4; cases h4; done)

/-- The places of `set_callback`. -/
def PC.sets : PC → Bool
  | .setLock | .setInternal | .setFlag | .setRel _ | .setStart | .setSpawn | .setOut => true
  | _ => false

/-- C165: after `unset_callback` has returned, nothing is read, and nothing that is typed is lost, until a callback is
set again. -/
theorem C165_quiet {c : Callback} {s s' : Conf (prog c)} (hthread : s.sh.thread = .none) (h0 : s.pcs[0]? = some .off)
    (hno : ∀ (i : Nat) (x : PC), s.pcs[i]? = some x → x.sets = false ∧ (i ≠ 0 → x.reader = false))
    {ls : List (Label Op)} (hls : ∀ l ∈ ls, ∀ i, l ≠ .start i .set)
    (he : (prog c).system.exec s ls = some s') :
    s'.sh.log = s.sh.log ∧ ∃ more : List Str, s'.sh.input = s.sh.input ++ more ∧ s'.sh.typed = s.sh.typed ++ more := by
  induction ls generalizing s with
  | nil => cases he; exact ⟨rfl, [], by simp⟩
  | cons l ls ih =>
    obtain ⟨s1, h1, h2⟩ := System.exec_cons (S := (prog c).system) he
    have hs := Prog.step_stepped h1
    have hrd : ∀ (i : Nat) (x : PC), s.pcs[i]? = some x → x.reader = true → i = 0 ∧ x = .off := by
      intro i x hx hr
      by_cases hi : i = 0
      · subst hi; rw [h0] at hx; cases hx; exact ⟨rfl, rfl⟩
      · rw [(hno i x hx).2 hi] at hr; cases hr
    have key : s1.sh.thread = .none ∧ s1.sh.log = s.sh.log ∧
        ∃ more : List Str, s1.sh.input = s.sh.input ++ more ∧ s1.sh.typed = s.sh.typed ++ more := by
      rcases ran_of_step h1 with h | ⟨i, x, y, -, hx, hr⟩
      · rw [h]; exact ⟨hthread, rfl, [], by simp⟩
      · have hn := (hno i x hx).1
        have hq := hrd i x hx
        generalize s1.sh = sh' at hr
        cases hr with
        | typing t => exact ⟨hthread, rfl, [t], rfl, rfl⟩
        | setLock | setInternal | setFlag | setChanged | setNew | setStart | setSpawn | setOut => cases hn
        | off h => rw [hthread] at h; cases h
        | unsetJoin => exact ⟨rfl, rfl, [], by simp⟩
        | grant | stop | read | evLock | evYes | evNo | callPlain | callMore | callProduce | callBack | cbMore | cbLock
        | cbUnset | cbChange | cbStop | cbJoin | cbOut | evRel | finish => exact absurd (hq rfl).2 nofun
        | _ => exact ⟨hthread, rfl, [], by simp⟩
    have move : ∀ (i : Nat) (y : PC), s1.pcs[i]? = some y → ∃ x : PC, s.pcs[i]? = some x ∧
        ((∃ op : Op, l = .start i op ∧ start x op = some y) ∨ (l = .run i ∧ Ran c i s.sh x s1.sh y) ∨ y = x) := by
      intro i y hy
      have hlt : i < s.pcs.length := by
        rw [← Prog.stepped_length hs]; exact (List.getElem?_eq_some_iff.1 hy).1
      obtain ⟨x, hx⟩ : ∃ x, s.pcs[i]? = some x := ⟨_, List.getElem?_eq_getElem hlt⟩
      refine ⟨x, hx, ?_⟩
      obtain ⟨y', hy', ht⟩ := Prog.track hs hx
      rw [hy] at hy'
      cases hy'
      rcases ht with ⟨op, el, hst, -⟩ | ⟨el, b, hr⟩ | ⟨-, hk, -⟩
      · exact Or.inl ⟨op, el, hst⟩
      · exact Or.inr (Or.inl ⟨el, run_ran hr⟩)
      · rcases hk with h | h | h
        · exact Or.inr (Or.inr h)
        · cases h
        · cases h
    have h01 : s1.pcs[0]? = some .off := by
      obtain ⟨y, hy⟩ : ∃ y, s1.pcs[0]? = some y := ⟨_, List.getElem?_eq_getElem (by
        rw [Prog.stepped_length hs]; exact (List.getElem?_eq_some_iff.1 h0).1)⟩
      obtain ⟨x, hx, hm⟩ := move 0 y hy
      rw [h0] at hx
      cases hx
      rcases hm with ⟨op, -, hst⟩ | ⟨-, hr⟩ | rfl
      · cases start_started hst
      · generalize s1.sh = sh' at hr
        cases hr with
        | off h => rw [hthread] at h; cases h
      · exact hy
    have hno1 : ∀ (i : Nat) (x : PC), s1.pcs[i]? = some x → x.sets = false ∧ (i ≠ 0 → x.reader = false) := by
      intro i y hy
      obtain ⟨x, hx, hm⟩ := move i y hy
      obtain ⟨g1, g2⟩ := hno i x hx
      rcases hm with ⟨op, el, hst⟩ | ⟨-, hr⟩ | rfl
      · cases op with
        | set => exact absurd el (hls l (by simp) i)
        | _ =>
          cases x with
          | idle => cases hst; exact ⟨rfl, fun _ => rfl⟩
          | _ => cases hst
      · have hq := hrd i x hx
        generalize s1.sh = sh' at hr
        cases hr with
        | setLock | setInternal | setFlag | setChanged | setNew | setStart | setSpawn | setOut => cases g1
        | off h => rw [hthread] at h; cases h
        | grant | stop | read | evLock | evYes | evNo | callPlain | callMore | callProduce | callBack | cbMore | cbLock
        | cbUnset | cbChange | cbStop | cbJoin | cbOut | evRel | finish => exact absurd (hq rfl).2 nofun
        | _ => exact ⟨rfl, fun _ => rfl⟩
      · exact ⟨g1, g2⟩
    obtain ⟨k1, k2, more1, k3, k4⟩ := key
    obtain ⟨j1, more2, j2, j3⟩ := ih k1 h01 hno1 (fun l hl => hls l (by simp [hl])) h2
    exact ⟨j1.trans k2, more1 ++ more2, by rw [j2, k3, List.append_assoc], by rw [j3, k4, List.append_assoc]⟩

/-- The places of `unset_callback`. -/
def PC.unsets : PC → Bool
  | .unsetLock | .unsetTest | .unsetInternal | .unsetFlag | .unsetRel | .unsetStop | .unsetJoin | .unsetOut => true
  | _ => false

theorem never_unsets {c : Callback} {k : Int} {n : Nat} {s : Conf (prog c)}
    (h : (prog c).system.ReachableBy (fun op : Op => op ≠ .unset) (init c k n) s) (i : Nat) (x : PC)
    (hx : s.pcs[i]? = some x) : x.unsets = false := by
  have hloc : (prog c).Local (fun op : Op => op ≠ .unset) (fun _ => True) (fun _ _ x => x.unsets = false) := by
    refine ⟨?_, fun _ _ _ _ _ _ _ _ _ => trivial, ?_, fun _ _ _ _ _ _ _ _ _ _ _ _ h => h, ?_, ?_⟩
    · intro sh i x op y ha _ hx hy
      cases op with
      | unset => exact absurd rfl ha
      | _ =>
        cases x with
        | idle => cases hy; rfl
        | _ => cases hy
    · intro sh i x sh' y b _ hx hr
      have hr := run_ran hr
      cases hr <;> first | rfl | cases hx
    · intro sh i x y _ hy; cases hy
    · intro sh i x y _ hy; cases hy
  refine (Prog.Local.reachable hloc ⟨trivial, fun j x hx => ?_⟩ h).loc i x hx
  rcases init_at hx with ⟨rfl, rfl⟩ | ⟨hj, rfl⟩ <;> rfl

/-- Without `unset_callback`, a callback is set whenever the reading thread runs. -/
theorem running_set {c : Callback} (ht : c.tame = true) {k : Int} {n : Nat} {s : Conf (prog c)}
    (h : (prog c).system.ReachableBy (fun op : Op => op ≠ .unset) (init c k n) s) (hr : s.sh.thread = .running) :
    s.sh.set = true := by
  have hi := inv ht h.reachable
  suffices ¬ s.sh.set = false by
    cases hs : s.sh.set with
    | true => rfl
    | false => exact absurd hs this
  intro hs
  have no : ¬ Cons s.sh := by
    intro hc
    have := (hc.2 hs).2
    rw [hr] at this
    cases this
  cases he : s.sh.event with
  | none => exact no (hi.glob.cons he)
  | some j =>
    -- the owner of `event_mutex_` is a thread: it has been set by one
    have hown : ∃ x : PC, s.pcs[j]? = some x := by
      have : ∀ j, s.sh.event = some j → j < s.pcs.length := by
        refine System.ReachableBy.invariant (S := (prog c).system)
          (fun s : Conf (prog c) => ∀ j, s.sh.event = some j → j < s.pcs.length) (fun j hj => by cases hj) ?_ h
        intro s l s' hi _ hst j hj
        rw [Prog.stepped_length (Prog.step_stepped hst)]
        rcases ran_of_step hst with e | ⟨i, x, y, -, hx, hr⟩
        · rw [e] at hj; exact hi j hj
        · have hlt : i < s.pcs.length := (List.getElem?_eq_some_iff.1 hx).1
          generalize s'.sh = sh' at hr hj
          cases hr <;> first | exact hi j hj | (cases hj; exact hlt) | cases hj
      exact ⟨_, List.getElem?_eq_getElem (this j he)⟩
    obtain ⟨x, hx⟩ := hown
    have hl := hi.loc j x hx
    have h1 := hl.event.2 he
    have h2 := hl.efact
    have h3 := never_unsets h j x hx
    have yes : ∀ P : Prop, s.sh.set = true → P := fun P h => by rw [hs] at h; cases h
    cases x with
    | setInternal => exact no h2
    | setFlag => exact no h2
    | setRel was =>
      cases was with
      | true => exact no h2.1
      | false => exact yes _ h2.1
    | setStart => exact yes _ h2.1
    | setSpawn => exact yes _ h2.1
    | setOut => exact no h2.1
    | _ => first | (cases h1; done) | cases h3

/-- C165, the part that holds: if `unset_callback` is never called, every line that is read is given to the callback.
Missing: a line that is being waited for or processed when `unset_callback` is called may be read and dropped
(`C165_negation_lost`). -/
theorem C165_all_partial {c : Callback} (hc : c = .plain ∨ c = .more ∨ c = .produce) {k : Int} {n : Nat}
    {s : Conf (prog c)} (h : (prog c).system.ReachableBy (fun op : Op => op ≠ .unset) (init c k n) s) :
    ∀ p ∈ s.sh.log, p.2 = true := by
  have ht : c.tame = true := by rcases hc with rfl | rfl | rfl <;> rfl
  suffices (prog c).system.ReachableBy (fun op : Op => op ≠ .unset) (init c k n) s ∧ ∀ p ∈ s.sh.log, p.2 = true from this.2
  refine System.ReachableBy.invariant (S := (prog c).system) (fun s : Conf (prog c) =>
    (prog c).system.ReachableBy (fun op : Op => op ≠ .unset) (init c k n) s ∧ ∀ p ∈ s.sh.log, p.2 = true) ?_ ?_ h
  · exact ⟨.init, nofun⟩
  · intro s l s' ⟨hR, hi⟩ hA hs
    refine ⟨hR.step hA hs, ?_⟩
    have grow : ∀ t : Str, ∀ p ∈ s.sh.log ++ [(t, true)], p.2 = true := by
      intro t p hp
      rcases List.mem_append.1 hp with h | h
      · exact hi p h
      · rw [List.mem_singleton.1 h]
    rcases ran_of_step hs with e | ⟨i, x, y, -, hx, hr⟩
    · rw [e]; exact hi
    · have hl := (inv ht hR.reachable).loc i x hx
      have htf := hl.tfact
      generalize s'.sh = sh' at hr
      cases hr with
      | evNo t h => rw [running_set ht hR htf] at h; cases h
      | callPlain t _ => exact grow t
      | callMore t _ => exact grow t
      | callProduce t _ => exact grow t
      | callBack t _ => exact grow t
      | _ => exact hi

/-- Labels: client `i` sets the callback and the reading thread begins to wait. -/
def setup (i : Nat) : List (Label Op) :=
  [.start i .set, .run i, .run i, .run i, .run i, .run i, .run i, .run i, .run 0]

/-- Labels: client `i` types. -/
def types (i : Nat) (t : Str) : List (Label Op) := [.start i (.type t), .run i]

/-- Two lines are asked for, three are typed, two are given to the callback in order. -/
example : ((prog .plain).system.exec (init .plain 1 2) (setup 1 ++ types 2 c!"a" ++ types 2 c!"b" ++ types 2 c!"c" ++
    [.start 1 .more, .run 1] ++ [.run 0, .run 0, .run 0, .run 0, .run 0, .run 0, .run 0, .run 0, .run 0, .run 0, .run 0,
      .run 0])).map (fun s => (s.sh.log, s.sh.input, s.pcs)) =
    some ([(c!"a", true), (c!"b", true)], [c!"c"], [.wait, .idle, .idle]) := by decide

/-- A callback that asks for another line each time. -/
example : ((prog .more).system.exec (init .more 1 2) (setup 1 ++ types 2 c!"a" ++ types 2 c!"b" ++
    [.run 0, .run 0, .run 0, .run 0, .run 0, .run 0, .run 0, .run 0, .run 0, .run 0, .run 0,
      .run 0])).map (fun s => (s.sh.log, s.sh.input, s.sh.asked)) =
    some ([(c!"a", true), (c!"b", true)], [], 1) := by decide

/-- After `unset_callback` what is typed is kept for the next callback. -/
example : ((prog .plain).system.exec (init .plain 2 2) (setup 1 ++ [.start 1 .unset, .run 1, .run 1, .run 1, .run 1,
    .run 1, .run 1, .run 0, .run 0, .run 1, .run 1] ++ types 2 c!"a" ++ setup 1 ++
    [.run 0, .run 0, .run 0, .run 0, .run 0])).map (fun s => (s.sh.log, s.sh.input, s.pcs)) =
    some ([(c!"a", true)], [], [.evRel, .idle, .idle]) := by decide

/-- Labels: one line is asked for; while the reading thread waits for it, the callback is unset; the line comes; another
callback is set, and another line comes. -/
def lost : List (Label Op) :=
  setup 1 ++ [.run 0, .start 1 .unset, .run 1, .run 1, .run 1, .run 1, .run 1, .run 1] ++ types 2 c!"a" ++
    [.run 0, .run 0, .run 0, .run 0, .run 0, .run 0, .run 1, .run 1] ++ setup 1 ++ types 2 c!"b"

/-- C165, negation: in a fair execution a line is asked for, a callback is set in the end and two lines have been typed,
and no callback is ever called: the line that was being waited for when `unset_callback` was called was read and
dropped, and the next one is not read. -/
theorem C165_negation_lost : ∃ e : (prog .plain).system.Execution, e.Fair ∧ e.at_ 0 = init .plain 1 2 ∧
    (∃ m, ∀ j, m ≤ j → (e.at_ j).sh.set = true ∧ (e.at_ j).sh.typed = [c!"a", c!"b"]) ∧
    ∀ m, ∀ p ∈ (e.at_ m).sh.log, p.2 = false := by
  obtain ⟨s1, h1⟩ : ∃ s1, (prog .plain).system.exec (init .plain 1 2) lost = some s1 := ⟨_, rfl⟩
  obtain ⟨e, hf, h0, hat, -⟩ := (prog .plain).system.finite_fair' (init .plain 1 2) s1 lost h1 (by
    cases h1
    intro i
    match i with
    | 0 => rfl
    | 1 => rfl
    | 2 => rfl
    | i + 3 => rfl)
  have hend : ∀ j, lost.length ≤ j → e.at_ j = s1 := by
    intro j hj
    obtain ⟨s, h2, h3⟩ := hat j
    rw [List.take_of_length_le hj, h1] at h2
    rw [h3]
    exact (Option.some.inj h2).symm
  refine ⟨e, hf, h0, ⟨lost.length, fun j hj => ?_⟩, fun m => ?_⟩
  · rw [hend j hj]
    cases h1
    exact ⟨rfl, rfl⟩
  · obtain ⟨s, h2, h3⟩ := hat m
    by_cases hm : m < lost.length
    · have key : ∀ m, m < lost.length → (((prog .plain).system.exec (init .plain 1 2) (lost.take m)).map
          (fun s => s.sh.log.all (fun p => p.2 = false))) = some true := by decide
      have := key m hm
      rw [h2] at this
      have : s.sh.log.all (fun p => p.2 = false) = true := Option.some.inj this
      rw [h3]
      simpa using this
    · rw [hend m (Nat.le_of_not_lt hm)]
      cases h1
      decide

/-! ### Calls that do not return -/

/-- Labels: the callback is unset while the reading thread waits for a line. -/
def hangs : List (Label Op) := setup 1 ++ [.run 0, .start 1 .unset, .run 1, .run 1, .run 1, .run 1, .run 1, .run 1]

/-- C167, negation: `unset_callback`, and so the destructor, waits for a line to be typed: in a fair execution in which
nobody types it does not return.  (The header says that there is no way to stop a thread that waits for input.) -/
theorem C167_negation_input : ∃ e : (prog .plain).system.Execution, e.Fair ∧ e.at_ 0 = init .plain 1 1 ∧
    e.label 10 = some (.start 1 .unset) ∧ ∀ m, 11 ≤ m → (e.at_ m).pcs[1]? ≠ some .idle := by
  obtain ⟨s1, h1⟩ : ∃ s1, (prog .plain).system.exec (init .plain 1 1) hangs = some s1 := ⟨_, rfl⟩
  obtain ⟨e, hf, h0, hat, hlab⟩ := (prog .plain).system.finite_fair' (init .plain 1 1) s1 hangs h1 (by
    cases h1
    intro i
    match i with
    | 0 => rfl
    | 1 => rfl
    | i + 2 => rfl)
  refine ⟨e, hf, h0, hlab 10, fun m hm => ?_⟩
  obtain ⟨s, h2, h3⟩ := hat m
  rw [h3]
  by_cases hl : m < 17
  · obtain rfl | rfl | rfl | rfl | rfl | rfl : m = 11 ∨ m = 12 ∨ m = 13 ∨ m = 14 ∨ m = 15 ∨ m = 16 := by omega
    all_goals cases h2; decide
  · rw [List.take_of_length_le (show hangs.length ≤ m from Nat.le_of_not_lt hl)] at h2
    cases h2
    decide

/-- C167, negation: a callback that unsets its handler joins the reading thread from the reading thread itself: the
process is terminated (`std::system_error` in a `noexcept` function). -/
theorem C167_negation_self : ∃ s : Conf (prog .unset), (prog .unset).system.Reachable (init .unset 1 2) s ∧
    s.sh.crashed = true := by
  have h : ((prog .unset).system.exec (init .unset 1 2) (setup 1 ++ types 2 c!"a" ++
      [.run 0, .run 0, .run 0, .run 0, .run 0, .run 0, .run 0, .run 0, .run 0])).map (fun s => s.sh.crashed) =
    some true := by decide
  cases hs : (prog .unset).system.exec (init .unset 1 2) (setup 1 ++ types 2 c!"a" ++
      [.run 0, .run 0, .run 0, .run 0, .run 0, .run 0, .run 0, .run 0, .run 0]) with
  | none => rw [hs] at h; cases h
  | some s =>
    rw [hs] at h
    exact ⟨s, (prog .unset).system.exec_reachable' _ hs, Option.some.inj h⟩

/-- Labels: a line is read, its callback sets another callback, and a client unsets at that moment. -/
def crossing : List (Label Op) :=
  setup 1 ++ types 2 c!"a" ++ [.run 0, .run 0, .run 0, .run 0, .run 0, .start 1 .unset, .run 1, .run 1]

/-- C167, negation: a callback that sets another callback, and a client that calls `unset_callback` (or the destructor) at
that moment, wait for each other: in a fair execution neither call returns, whatever is typed. -/
theorem C167_negation_deadlock : ∃ e : (prog .change).system.Execution, e.Fair ∧ e.at_ 0 = init .change 1 2 ∧
    ∀ m, crossing.length ≤ m → (e.at_ m).pcs[0]? = some .cbLock ∧ (e.at_ m).pcs[1]? = some .unsetInternal ∧
      (e.at_ m).sh.event = some 1 ∧ (e.at_ m).sh.internal = some 0 := by
  obtain ⟨s1, h1⟩ : ∃ s1, (prog .change).system.exec (init .change 1 2) crossing = some s1 := ⟨_, rfl⟩
  obtain ⟨e, hf, h0, hat, hlab⟩ := (prog .change).system.finite_fair' (init .change 1 2) s1 crossing h1 (by
    cases h1
    intro i
    match i with
    | 0 => rfl
    | 1 => rfl
    | 2 => rfl
    | i + 3 => rfl)
  refine ⟨e, hf, h0, fun m hm => ?_⟩
  obtain ⟨s, h2, h3⟩ := hat m
  rw [h3]
  rw [List.take_of_length_le hm] at h2
  cases h2
  exact ⟨rfl, rfl, rfl, rfl⟩

end Verif.Stdin
