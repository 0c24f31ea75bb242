import Verif.Model.TSafeRandom
import Verif.Props.Random
import Verif.Lemmas.Prog
/-!
C156, C157: random numbers drawn by several threads.
-/
namespace Verif.TSafeRandom
open Verif.Threads
open Verif.Random (Engine Call nth)

variable {Seed Num : Type} {E : Engine Seed Num}

/-- Facts about one thread. -/
def Loc (s : Sh E) (i : Nat) : PC E → Prop
  | .busy .sequence .body | .busy .sequence .draw => s.stdMutex = some i
  | .busy .sequence (.store st) => s.stdMutex = some i ∧ st = s.std
  | .busy (.seed _) .body | .busy (.seed _) .draw | .busy (.seed _) (.store _) => s.stdMutex = some i
  | .busy (.seeded _) .body => s.seedMutex = some i
  | .busy (.seeded k) .draw => s.seedMutex = some i ∧ s.seedGen = E.seed k
  | .busy (.seeded k) (.store st) => s.seedMutex = some i ∧ st = E.seed k
  | _ => True

/-- The sequential history of a log. -/
def calls (l : List (Nat × Call Seed Num × Option Num)) : List (Call Seed Num) := l.map fun x => x.2.1

/-- Facts about the generators. -/
structure Glob (d : E.St) (original : Seed) (s : Sh E) : Prop where
  std : s.std = (Random.after E (Random.init E d original) (calls s.log)).std
  log : ∀ pre i c r post, s.log = pre ++ (i, c, r) :: post →
    r = (Random.step E (Random.after E (Random.init E d original) (calls pre)) c).2

theorem after_snoc (s : Random.State E) (cs : List (Call Seed Num)) (c : Call Seed Num) :
    Random.after E s (cs ++ [c]) = (Random.step E (Random.after E s cs) c).1 := by
  simp [Random.after, List.foldl_append]

/-- A new entry at the end of the log. -/
theorem snoc_log {d : E.St} {original : Seed} {l : List (Nat × Call Seed Num × Option Num)} {i : Nat}
    {c : Call Seed Num} {r : Option Num}
    (h : ∀ pre i c r post, l = pre ++ (i, c, r) :: post →
      r = (Random.step E (Random.after E (Random.init E d original) (calls pre)) c).2)
    (hr : r = (Random.step E (Random.after E (Random.init E d original) (calls l)) c).2) :
    ∀ pre i' c' r' post, l ++ [(i, c, r)] = pre ++ (i', c', r') :: post →
      r' = (Random.step E (Random.after E (Random.init E d original) (calls pre)) c').2 := by
  intro pre i' c' r' post e
  rcases List.append_eq_append_iff.1 e with ⟨a, e1, e2⟩ | ⟨a, e1, e2⟩
  · cases a with
    | nil =>
      rw [List.append_nil] at e1
      simp only [List.nil_append, List.cons.injEq, Prod.mk.injEq] at e2
      obtain ⟨⟨-, e3, e4⟩, -⟩ := e2
      rw [e1, ← e3, ← e4]
      exact hr
    | cons x a =>
      have := congrArg List.length e2
      simp at this
  · cases a with
    | nil =>
      rw [List.append_nil] at e1
      simp only [List.nil_append, List.cons.injEq, Prod.mk.injEq] at e2
      obtain ⟨⟨-, e3, e4⟩, -⟩ := e2
      rw [← e1, e3, e4]
      exact hr
    | cons x a =>
      simp only [List.cons_append, List.cons.injEq] at e2
      obtain ⟨e2, -⟩ := e2
      refine h pre i' c' r' a ?_
      rw [e1, ← e2]

theorem loc_local (d : E.St) (original : Seed) :
    (prog E).Local (fun _ => True) (Glob d original) Loc where
  start sh i x op y _ _ _ hy := by
    cases x with
    | idle r => cases hy; cases op <;> trivial
    | busy c p => cases hy
  shared sh i x sh' y b hg hl hr := by
    have hr : run E i sh x = some (sh', y, b) := hr
    have hl : Loc sh i x := hl
    have hlog : ∀ (s2 : Sh E) (c : Call Seed Num) (r : Option Num), s2.log = sh.log →
        s2.std = (Random.step E (Random.after E (Random.init E d original) (calls sh.log)) c).1.std →
        r = (Random.step E (Random.after E (Random.init E d original) (calls sh.log)) c).2 →
        Glob d original (s2.done i c r) := by
      intro s2 c r e1 e2 e3
      refine ⟨?_, ?_⟩
      · show s2.std = (Random.after E _ (calls (s2.log ++ [(i, c, r)]))).std
        rw [e1, calls, List.map_append, List.map_singleton, after_snoc]
        exact e2
      · show ∀ pre i' c' r' post, s2.log ++ [(i, c, r)] = pre ++ (i', c', r') :: post → _
        rw [e1]
        exact snoc_log hg.log e3
    cases x with
    | idle r => cases hr
    | busy c p =>
      cases c with
      | pure x => cases hr; exact hlog _ _ _ rfl hg.std rfl
      | sequence =>
        cases p with
        | lock =>
          simp only [run] at hr
          split at hr
          · cases hr
          · cases hr; exact ⟨hg.std, hg.log⟩
        | body => cases hr; exact hg
        | draw => cases hr; exact hg
        | store st =>
          cases hr
          have e : st = (Random.after E (Random.init E d original) (calls sh.log)).std := hl.2.trans hg.std
          refine hlog _ _ _ rfl ?_ ?_
          · show (E.next st).2 = _
            rw [e]; rfl
          · rw [e]; rfl
      | seed k =>
        cases p with
        | lock =>
          simp only [run] at hr
          split at hr
          · cases hr
          · cases hr; exact ⟨hg.std, hg.log⟩
        | body => cases hr; exact hlog _ _ _ rfl rfl rfl
        | draw => cases hr; exact hlog _ _ _ rfl rfl rfl
        | store st => cases hr; exact hlog _ _ _ rfl rfl rfl
      | seeded k =>
        cases p with
        | lock =>
          simp only [run] at hr
          split at hr
          · cases hr
          · cases hr; exact ⟨hg.std, hg.log⟩
        | body => cases hr; exact ⟨hg.std, hg.log⟩
        | draw => cases hr; exact hg
        | store st =>
          cases hr
          refine hlog _ _ _ rfl hg.std ?_
          rw [hl.2]; rfl
  run sh i x sh' y b hg hl hr := by
    have hr : run E i sh x = some (sh', y, b) := hr
    have hl : Loc sh i x := hl
    cases x with
    | idle r => cases hr
    | busy c p =>
      cases c with
      | pure x => cases hr; trivial
      | sequence =>
        cases p with
        | lock =>
          simp only [run] at hr
          split at hr
          · cases hr
          · cases hr; exact rfl
        | body => cases hr; exact ⟨hl, rfl⟩
        | draw => cases hr; exact ⟨hl, rfl⟩
        | store st => cases hr; trivial
      | seed k =>
        cases p with
        | lock =>
          simp only [run] at hr
          split at hr
          · cases hr
          · cases hr; exact rfl
        | body => cases hr; trivial
        | draw => cases hr; trivial
        | store st => cases hr; trivial
      | seeded k =>
        cases p with
        | lock =>
          simp only [run] at hr
          split at hr
          · cases hr
          · cases hr; exact rfl
        | body => cases hr; exact ⟨hl, rfl⟩
        | draw => cases hr; exact ⟨hl.1, hl.2⟩
        | store st => cases hr; trivial
  other sh i x sh' y b j z hg hl hr hne hz := by
    have hr : run E i sh x = some (sh', y, b) := hr
    have hl : Loc sh i x := hl
    have hz : Loc sh j z := hz
    show Loc sh' j z
    have hstd : sh'.seedMutex = sh.seedMutex → sh'.seedGen = sh.seedGen →
        (sh.stdMutex = none ∨ sh.stdMutex = some i) → Loc sh' j z := by
      intro e1 e2 hm
      have hno : sh.stdMutex ≠ some j := by
        rcases hm with hm | hm <;> rw [hm]
        · nofun
        · exact fun e => hne (Option.some.inj e).symm
      cases z with
      | idle r => trivial
      | busy c p =>
        cases c with
        | pure x => trivial
        | sequence =>
          cases p with
          | lock => trivial
          | store st => exact absurd hz.1 hno
          | _ => exact absurd hz hno
        | seed k =>
          cases p with
          | lock => trivial
          | _ => exact absurd hz hno
        | seeded k =>
          cases p with
          | lock => trivial
          | body => exact e1.trans hz
          | draw => exact ⟨e1.trans hz.1, e2.trans hz.2⟩
          | store st => exact ⟨e1.trans hz.1, hz.2⟩
    have hseed : sh'.stdMutex = sh.stdMutex → sh'.std = sh.std →
        (sh.seedMutex = none ∨ sh.seedMutex = some i) → Loc sh' j z := by
      intro e1 e2 hm
      have hno : sh.seedMutex ≠ some j := by
        rcases hm with hm | hm <;> rw [hm]
        · nofun
        · exact fun e => hne (Option.some.inj e).symm
      cases z with
      | idle r => trivial
      | busy c p =>
        cases c with
        | pure x => trivial
        | sequence =>
          cases p with
          | lock => trivial
          | store st => exact ⟨e1.trans hz.1, hz.2.trans e2.symm⟩
          | _ => exact e1.trans hz
        | seed k =>
          cases p with
          | lock => trivial
          | _ => exact e1.trans hz
        | seeded k =>
          cases p with
          | lock => trivial
          | body => exact absurd hz hno
          | draw => exact absurd hz.1 hno
          | store st => exact absurd hz.1 hno
    cases x with
    | idle r => cases hr
    | busy c p =>
      cases c with
      | pure x =>
        cases hr
        cases z with
        | idle r => trivial
        | busy c p => cases c <;> cases p <;> exact hz
      | sequence =>
        cases p with
        | lock =>
          simp only [run] at hr
          split at hr
          · cases hr
          · rename_i hm
            cases hr
            exact hstd rfl rfl (Or.inl (by simpa using hm))
        | body => cases hr; exact hz
        | draw => cases hr; exact hz
        | store st => cases hr; exact hstd rfl rfl (Or.inr hl.1)
      | seed k =>
        cases p with
        | lock =>
          simp only [run] at hr
          split at hr
          · cases hr
          · rename_i hm
            cases hr
            exact hstd rfl rfl (Or.inl (by simpa using hm))
        | _ => cases hr; exact hstd rfl rfl (Or.inr hl)
      | seeded k =>
        cases p with
        | lock =>
          simp only [run] at hr
          split at hr
          · cases hr
          · rename_i hm
            cases hr
            exact hseed rfl rfl (Or.inl (by simpa using hm))
        | body => cases hr; exact hseed rfl rfl (Or.inr hl)
        | draw => cases hr; exact hz
        | store st => cases hr; exact hseed rfl rfl (Or.inr hl.1)
  woken _ _ _ _ _ h := nomatch h
  late _ _ _ _ _ h := nomatch h

theorem inv_reachable {d : E.St} {original : Seed} {n : Nat} {s : Conf (prog E)}
    (hr : (prog E).system.Reachable (init E d original n) s) :
    (prog E).Inv (Glob d original) Loc s := by
  refine (loc_local d original).reachable ⟨⟨rfl, ?_⟩, ?_⟩ hr
  · intro pre i c r post h
    cases pre <;> cases h
  · intro j x hx
    rw [Prog.init_get hx]
    trivial

/-- C156: whatever any number of threads do with a `TSafeRandomManager`, the calls are completed in some order
in which each gives what a `RandomManager` used by one thread gives after the calls before. -/
theorem C156_linear (d : E.St) (original : Seed) (n : Nat) (s : Conf (prog E))
    (hr : (prog E).system.Reachable (init E d original n) s)
    (pre post : List (Nat × Call Seed Num × Option Num)) (i : Nat) (c : Call Seed Num) (r : Option Num)
    (h : Sh.log s.sh = pre ++ (i, c, r) :: post) :
    r = (Random.step E (Random.after E (Random.init E d original) (pre.map fun x => x.2.1)) c).2 :=
  (inv_reachable hr).glob.log pre i c r post h

/-- C156: without `seed`, the `sequence_rand` calls of all threads together give the numbers of the original
seed, one after the other: none is left out, none is given twice. -/
theorem C156_shared_sequence (d : E.St) (original : Seed) (n : Nat) (s : Conf (prog E))
    (hr : (prog E).system.Reachable (init E d original n) s)
    (pre post : List (Nat × Call Seed Num × Option Num)) (i : Nat) (r : Option Num)
    (h : Sh.log s.sh = pre ++ (i, .sequence, r) :: post) (hno : ∀ x ∈ pre, ∀ k, x.2.1 ≠ .seed k) :
    r = some (nth E (E.seed original)
      (pre.countP fun x => match x.2.1 with | .sequence => true | _ => false)) := by
  rw [C156_linear d original n s hr pre post i _ r h, Random.C40_construction]
  · rw [Random.sequences, List.countP_map]; rfl
  · intro k hk
    obtain ⟨x, hx, e⟩ := List.mem_map.1 hk
    exact hno x hx k e

/-- C156: after a `seed` the numbers are those of that seed, from the first one. -/
theorem C156_seeded_sequence (d : E.St) (original : Seed) (n : Nat) (s : Conf (prog E))
    (hr : (prog E).system.Reachable (init E d original n) s)
    (pre mid post : List (Nat × Call Seed Num × Option Num)) (i j : Nat) (k : Seed) (q r : Option Num)
    (h : Sh.log s.sh = pre ++ (j, .seed k, q) :: mid ++ (i, .sequence, r) :: post)
    (hno : ∀ x ∈ mid, ∀ k, x.2.1 ≠ .seed k) :
    r = some (nth E (E.seed k)
      (mid.countP fun x => match x.2.1 with | .sequence => true | _ => false)) := by
  rw [C156_linear d original n s hr _ post i _ r h, List.map_append, List.map_cons, Random.C40_sequence]
  · rw [Random.sequences, List.countP_map]; rfl
  · intro k hk
    obtain ⟨x, hx, e⟩ := List.mem_map.1 hk
    exact hno x hx k e

/-- C156: `seeded_rand(k)` gives the number of its seed, whatever the other threads do. -/
theorem C156_seeded (d : E.St) (original : Seed) (n : Nat) (s : Conf (prog E))
    (hr : (prog E).system.Reachable (init E d original n) s) (i : Nat) (k : Seed) (r : Option Num)
    (h : (i, Call.seeded k, r) ∈ Sh.log s.sh) : r = some (E.next (E.seed k)).1 := by
  obtain ⟨pre, post, e⟩ := List.append_of_mem h
  exact C156_linear d original n s hr pre post i _ r e

/-- C156: the order is that of the calls: a call is entered when it is started; each step of the thread leaves
it in the same call and the record unchanged, or completes the call, records it once, with the number that the
call gives. -/
theorem C156_recorded (s s' : Conf (prog E)) (l : Label (prog E).Op)
    (h : (prog E).system.step s l = some s') :
    (∃ i c r, l = .start i c ∧ s.pcs[i]? = some (.idle r : PC E) ∧ s'.pcs = s.pcs.set i (.busy c .lock : PC E) ∧
      Sh.log s'.sh = Sh.log s.sh) ∨
    (∃ i c p, l = .run i ∧ s.pcs[i]? = some (.busy c p : PC E) ∧
      ((∃ p', s'.pcs = s.pcs.set i (.busy c p' : PC E) ∧ Sh.log s'.sh = Sh.log s.sh) ∨
       (∃ r, s'.pcs = s.pcs.set i (.idle (some r) : PC E) ∧ Sh.log s'.sh = Sh.log s.sh ++ [(i, c, r)]))) := by
  cases Prog.step_stepped h with
  | start i c x y hx hy =>
    cases x with
    | busy c' p => cases hy
    | idle r => cases hy; exact Or.inl ⟨i, c, r, rfl, hx, rfl, rfl⟩
  | spurious i x y hx hy => cases hy
  | timeout i x y hx hy => cases hy
  | run i x y sh hx hy =>
    have hy : run E i s.sh x = some (sh, y, false) := hy
    cases x with
    | idle r => cases hy
    | busy c p =>
      refine Or.inr ⟨i, c, p, rfl, hx, ?_⟩
      cases c with
      | pure x => cases hy; exact Or.inr ⟨_, rfl, rfl⟩
      | sequence =>
        cases p with
        | lock =>
          simp only [run] at hy
          split at hy
          · cases hy
          · cases hy; exact Or.inl ⟨_, rfl, rfl⟩
        | body => cases hy; exact Or.inl ⟨_, rfl, rfl⟩
        | draw => cases hy; exact Or.inl ⟨_, rfl, rfl⟩
        | store st => cases hy; exact Or.inr ⟨_, rfl, rfl⟩
      | seed k =>
        cases p with
        | lock =>
          simp only [run] at hy
          split at hy
          · cases hy
          · cases hy; exact Or.inl ⟨_, rfl, rfl⟩
        | _ => cases hy; exact Or.inr ⟨_, rfl, rfl⟩
      | seeded k =>
        cases p with
        | lock =>
          simp only [run] at hy
          split at hy
          · cases hy
          · cases hy; exact Or.inl ⟨_, rfl, rfl⟩
        | body => cases hy; exact Or.inl ⟨_, rfl, rfl⟩
        | draw => cases hy; exact Or.inl ⟨_, rfl, rfl⟩
        | store st => cases hy; exact Or.inr ⟨_, rfl, rfl⟩
  | notify i x y sh hx hy =>
    have hy : run E i s.sh x = some (sh, y, true) := hy
    exfalso
    cases x with
    | idle r => cases hy
    | busy c p =>
      cases c <;> cases p <;> first | cases hy | (simp only [run] at hy; split at hy <;> cases hy)

/-- The engine of the examples: it adds seven. -/
def adds : Engine Nat Nat := ⟨Nat, fun s => 100 * s, fun g => (g + 7, g + 7)⟩

/-- Non-trivial case: two threads draw from the shared sequence at the same time, a third uses `seeded_rand`;
the second waits for the mutex until the first has written the state of the generator. -/
example : ∃ s, (prog adds).system.Reachable (init adds (0 : Nat) 1 3) s ∧
    Sh.log s.sh = [(2, .seeded 9, some 907), (1, .sequence, some 107), (0, .sequence, some 114)] :=
  ⟨_, (prog adds).system.exec_reachable' [.start 0 .sequence, .start 1 .sequence, .start 2 (.seeded 9), .run 1,
    .run 2, .run 1, .run 2, .run 2, .run 2, .run 1, .run 0, .run 0, .run 0] rfl, rfl⟩

/-- The second thread cannot draw in between. -/
example : ∃ s, (prog adds).system.exec (init adds (0 : Nat) 1 3) [.start 0 .sequence, .start 1 .sequence, .run 1]
    = some s ∧ (prog adds).system.step s (.run 0) = none :=
  ⟨_, rfl, rfl⟩

/-! ### C157: the calls return -/

/-- The mutex of the sequence (`true`) and that of the seeded numbers. -/
def mutex (b : Bool) (s : Sh E) : Option Nat := if b then s.stdMutex else s.seedMutex

/-- The mutex of a call. -/
def needs : Call Seed Num → Option Bool
  | .pure _ => none
  | .sequence | .seed _ => some true
  | .seeded _ => some false

/-- Places with mutex `b`. -/
def PC.holds (b : Bool) : PC E → Prop
  | .idle _ => False
  | .busy c p => needs c = some b ∧ p ≠ .lock

theorem run_mutex {i : Nat} {sh sh' : Sh E} {x y : PC E} {f : Bool} (h : run E i sh x = some (sh', y, f))
    (b : Bool) : (mutex b sh' = mutex b sh ∧ (y.holds b ↔ x.holds b)) ∨ (mutex b sh' = some i ∧ y.holds b) ∨
      mutex b sh' = none := by
  cases x with
  | idle r => cases h
  | busy c p =>
    cases c with
    | pure x => cases h; left; cases b <;> simp [mutex, Sh.done, PC.holds, needs]
    | sequence =>
      cases p with
      | lock =>
        simp only [run] at h
        split at h
        · cases h
        · cases h; cases b <;> simp [mutex, PC.holds, needs]
      | _ => cases h; cases b <;> simp [mutex, PC.holds, needs, Sh.done]
    | seed k =>
      cases p with
      | lock =>
        simp only [run] at h
        split at h
        · cases h
        · cases h; cases b <;> simp [mutex, PC.holds, needs]
      | _ => cases h; cases b <;> simp [mutex, PC.holds, needs, Sh.done]
    | seeded k =>
      cases p with
      | lock =>
        simp only [run] at h
        split at h
        · cases h
        · cases h; cases b <;> simp [mutex, PC.holds, needs]
      | _ => cases h; cases b <;> simp [mutex, PC.holds, needs, Sh.done]

/-- A mutex that is held is held by a thread that is inside. -/
def Held (s : Conf (prog E)) : Prop :=
  ∀ b j, mutex b (s.sh : Sh E) = some j → ∃ x : PC E, s.pcs[j]? = some x ∧ x.holds b

theorem held_step {s s' : Conf (prog E)} {l : Label (prog E).Op} (hh : Held s)
    (hs : (prog E).system.step s l = some s') : Held s' := by
  intro b j hj
  have hs := Prog.step_stepped hs
  have same : s'.sh = s.sh → (∀ i op, l = .start i op → j ≠ i ∨ ∀ x : PC E, s.pcs[j]? = some x → ¬ x.holds b) →
      l ≠ .run j → ∃ x : PC E, s'.pcs[j]? = some x ∧ x.holds b := by
    intro e hst hrn
    rw [e] at hj
    obtain ⟨x, hx, hb⟩ := hh b j hj
    refine ⟨x, Prog.frame_active hs hx ⟨?_, rfl, rfl⟩ hrn, hb⟩
    cases x with
    | idle r => exact hb.elim
    | busy c p => intro op; rfl
  cases hs with
  | start i op x y hx hy =>
    refine same rfl ?_ nofun
    rintro i' op' e
    cases e
    by_cases hji : j = i
    · right
      intro z hz
      subst hji
      have : some z = some x := hz.symm.trans hx
      cases this
      cases x with
      | idle r => exact fun h => h
      | busy c p => cases hy
    · exact Or.inl hji
  | spurious i x y hx hy => cases hy
  | timeout i x y hx hy => cases hy
  | run i x y sh hx hy =>
    have hj : mutex b sh = some j := hj
    show ∃ z : PC E, (s.pcs.set i y)[j]? = some z ∧ z.holds b
    rcases run_mutex hy b with ⟨e1, e2⟩ | ⟨e1, e2⟩ | e1
    · rw [e1] at hj
      obtain ⟨z, hz, hb⟩ := hh b j hj
      by_cases hji : j = i
      · subst hji
        have : some z = some x := hz.symm.trans hx
        cases this
        exact ⟨y, get_set_self hx, e2.2 hb⟩
      · exact ⟨z, by rw [get_set_ne hji]; exact hz, hb⟩
    · rw [e1] at hj
      cases hj
      exact ⟨y, get_set_self hx, e2⟩
    · rw [e1] at hj; cases hj
  | notify i x y sh hx hy =>
    exfalso
    have hy : run E i s.sh x = some (sh, y, true) := hy
    cases x with
    | idle r => cases hy
    | busy c p =>
      cases c <;> cases p <;> first | cases hy | (simp only [run] at hy; split at hy <;> cases hy)

theorem held_init (d : E.St) (original : Seed) (n : Nat) : Held (init E d original n) := by
  intro b j h
  cases b <;> cases h

theorem active (c : Call Seed Num) (p : Place E) : (prog E).Active (.busy c p : PC E) :=
  ⟨fun _ => rfl, rfl, rfl⟩

/-- A call of thread `i` is complete, and its mutex is free. -/
def Complete (i : Nat) (c : Call Seed Num) (s : Conf (prog E)) : Prop :=
  (∃ r, s.pcs[i]? = some (.idle (some r) : PC E) ∧ (Sh.log s.sh).getLast? = some (i, c, r)) ∧
    ∀ b, needs c = some b → mutex b (s.sh : Sh E) = none

section
variable (e : (prog E).system.Execution) (hf : e.Fair)
include hf

theorem hop (i : Nat) (c : Call Seed Num) (p : Place E) (Q : Conf (prog E) → Prop)
    (hable : ∀ s : Sh E, (run E i s (.busy c p)).isSome)
    (hdone : ∀ (s s' : Conf (prog E)) (sh : Sh E) (y : PC E) (b : Bool),
      run E i s.sh (.busy c p) = some (sh, y, b) → s'.sh = sh → s'.pcs[i]? = some y → Q s') :
    e.LeadsTo (fun s => s.pcs[i]? = some (.busy c p : PC E)) Q := by
  refine Prog.free_step e hf (fun _ => True) (fun _ => trivial) i _ (active c p) Q (fun s _ _ => hable s.sh) ?_
  intro s s' _ _ hx hs
  obtain ⟨sh, y, b, h1, h2, h3⟩ := Prog.stepped_run hs hx
  exact hdone s s' sh y b h1 h2 h3

/-- With the mutex a thread completes its call. -/
theorem inside_done (i : Nat) (c : Call Seed Num) (p : Place E) (hp : p ≠ .lock ∨ needs c = none) :
    e.LeadsTo (fun s => s.pcs[i]? = some (.busy c p : PC E)) (Complete i c) := by
  cases c with
  | pure x =>
    refine hop e hf i _ _ _ (fun _ => rfl) ?_
    intro s s' sh y b h1 h2 h3
    cases h1
    refine ⟨⟨_, h3, ?_⟩, nofun⟩
    rw [h2]
    simp [Sh.done]
  | sequence =>
    have last : ∀ st : E.St, e.LeadsTo (fun s => s.pcs[i]? = some (.busy .sequence (.store st) : PC E))
        (Complete i .sequence) := by
      intro st
      refine hop e hf i _ _ _ (fun _ => rfl) ?_
      intro s s' sh y b h1 h2 h3
      cases h1
      refine ⟨⟨_, h3, ?_⟩, ?_⟩
      · rw [h2]; simp [Sh.done]
      · intro b hb; cases hb; rw [h2]; rfl
    have first : ∀ q, (q = .body ∨ q = .draw) → e.LeadsTo (fun s => s.pcs[i]? = some (.busy .sequence q : PC E))
        (Complete i .sequence) := by
      intro q hq
      have h1 : e.LeadsTo (fun s => s.pcs[i]? = some (.busy .sequence q : PC E))
          (fun s => ∃ st, s.pcs[i]? = some (.busy .sequence (.store st) : PC E)) := by
        refine hop e hf i _ _ _ (fun _ => by rcases hq with rfl | rfl <;> rfl) ?_
        intro s s' sh y b h1 h2 h3
        refine ⟨_, h3.trans (?_ : some y = some (.busy .sequence (.store (Sh.std s.sh))))⟩
        rcases hq with rfl | rfl <;> (cases h1; rfl)
      exact h1.trans fun m ⟨st, h⟩ => last st m h
    cases p with
    | lock => exact absurd rfl (hp.resolve_right nofun)
    | body => exact first _ (Or.inl rfl)
    | draw => exact first _ (Or.inr rfl)
    | store st => exact last st
  | seed k =>
    have : p ≠ .lock := hp.resolve_right nofun
    refine hop e hf i _ _ _ (fun _ => by cases p <;> first | exact absurd rfl this | rfl) ?_
    intro s s' sh y b h1 h2 h3
    have h1 : some (({ s.sh with std := E.seed k, stdMutex := none } : Sh E).done i (.seed k) none,
        (.idle (some none) : PC E), false) = some (sh, y, b) := by
      cases p <;> first | exact absurd rfl this | exact h1
    cases h1
    refine ⟨⟨_, h3, ?_⟩, ?_⟩
    · rw [h2]; simp [Sh.done]
    · intro b hb; cases hb; rw [h2]; rfl
  | seeded k =>
    have last : ∀ st : E.St, e.LeadsTo (fun s => s.pcs[i]? = some (.busy (.seeded k) (.store st) : PC E))
        (Complete i (.seeded k)) := by
      intro st
      refine hop e hf i _ _ _ (fun _ => rfl) ?_
      intro s s' sh y b h1 h2 h3
      cases h1
      refine ⟨⟨_, h3, ?_⟩, ?_⟩
      · rw [h2]; simp [Sh.done]
      · intro b hb; cases hb; rw [h2]; rfl
    have draw : e.LeadsTo (fun s => s.pcs[i]? = some (.busy (.seeded k) .draw : PC E))
        (Complete i (.seeded k)) := by
      have h1 : e.LeadsTo (fun s => s.pcs[i]? = some (.busy (.seeded k) .draw : PC E))
          (fun s => ∃ st, s.pcs[i]? = some (.busy (.seeded k) (.store st) : PC E)) := by
        refine hop e hf i _ _ _ (fun _ => rfl) ?_
        intro s s' sh y b h1 h2 h3
        refine ⟨_, h3.trans (?_ : some y = some (.busy (.seeded k) (.store (Sh.seedGen s.sh))))⟩
        cases h1; rfl
      exact h1.trans fun m ⟨st, h⟩ => last st m h
    have body : e.LeadsTo (fun s => s.pcs[i]? = some (.busy (.seeded k) .body : PC E))
        (Complete i (.seeded k)) := by
      have h1 : e.LeadsTo (fun s => s.pcs[i]? = some (.busy (.seeded k) .body : PC E))
          (fun s => s.pcs[i]? = some (.busy (.seeded k) .draw : PC E)) := by
        refine hop e hf i _ _ _ (fun _ => rfl) ?_
        intro s s' sh y b h1 h2 h3
        refine h3.trans (?_ : some y = some (.busy (.seeded k) .draw))
        cases h1; rfl
      exact h1.trans draw
    cases p with
    | lock => exact absurd rfl (hp.resolve_right nofun)
    | body => exact body
    | draw => exact draw
    | store st => exact last st

/-- C157: with fair scheduling every call returns, and has then been recorded. -/
theorem C157_returns (d : E.St) (original : Seed) (n : Nat) (h0 : e.at_ 0 = init E d original n) (i : Nat)
    (c : Call Seed Num) : e.LeadsTo (fun s => ∃ p, s.pcs[i]? = some (.busy c p : PC E))
      (fun s => ∃ r, s.pcs[i]? = some (.idle (some r) : PC E) ∧ (Sh.log s.sh).getLast? = some (i, c, r)) := by
  have hH : ∀ m, Held (e.at_ m) := fun m =>
    e.always Held (by rw [h0]; exact held_init d original n) (fun _ _ _ h hs => held_step h hs) m
  have frees : ∀ b, e.LeadsTo (fun _ => True) (fun s => mutex b (s.sh : Sh E) = none) := by
    intro b m _
    cases hm : mutex b ((e.at_ m).sh : Sh E) with
    | none => exact ⟨m, Nat.le_refl m, hm⟩
    | some j =>
      obtain ⟨x, hx, hb⟩ := hH m b j hm
      cases x with
      | idle r => exact hb.elim
      | busy c p =>
        obtain ⟨k, hk, h⟩ := inside_done e hf j c p (Or.inl hb.2) m hx
        exact ⟨k, hk, h.2 b hb.1⟩
  intro m ⟨p, hp⟩
  have fin : ∀ (q : Place E) (k : Nat), m ≤ k → (q ≠ .lock ∨ needs c = none) →
      (e.at_ k).pcs[i]? = some (.busy c q : PC E) → ∃ k', m ≤ k' ∧
      ∃ r, (e.at_ k').pcs[i]? = some (.idle (some r) : PC E) ∧
        (Sh.log (e.at_ k').sh).getLast? = some (i, c, r) := by
    intro q k hk hq h
    obtain ⟨k', hk', h⟩ := inside_done e hf i c q hq k h
    exact ⟨k', Nat.le_trans hk hk', h.1⟩
  by_cases hl : p ≠ .lock ∨ needs c = none
  · exact fin p m (Nat.le_refl m) hl hp
  · have hl' : p = .lock := Classical.byContradiction fun h => hl (Or.inl h)
    subst hl'
    have hb : ∃ b, needs c = some b := by
      cases h : needs c with
      | none => exact absurd (Or.inr h) hl
      | some b => exact ⟨b, rfl⟩
    obtain ⟨b, hb⟩ := hb
    have acq : e.LeadsTo (fun s => s.pcs[i]? = some (.busy c .lock : PC E))
        (fun s => s.pcs[i]? = some (.busy c .body : PC E)) := by
      refine Prog.acquire e hf (fun _ => True) (fun _ => trivial) i _ (active c .lock) (fun _ => True)
        (fun sh => mutex b (sh : Sh E) = none) _ (fun _ _ _ => trivial) (fun k _ => frees b k trivial) ?_ ?_
      · intro s _ _ hm
        show (run E i s.sh (.busy c .lock)).isSome
        cases c with
        | pure x => cases hb
        | seeded k =>
          cases hb
          have hm : Sh.seedMutex s.sh = none := hm
          simp [run, hm]
        | _ =>
          cases hb
          have hm : Sh.stdMutex s.sh = none := hm
          simp [run, hm]
      · intro s s' _ _ hx hs
        obtain ⟨sh, y, f, h1, h2, h3⟩ := Prog.stepped_run hs hx
        have h1 : run E i s.sh (.busy c .lock) = some (sh, y, f) := h1
        refine h3.trans (?_ : some y = some (.busy c .body))
        cases c with
        | pure x => cases hb
        | _ =>
          simp only [run] at h1
          split at h1
          · cases h1
          · cases h1; rfl
    obtain ⟨k, hk, h⟩ := acq m hp
    exact fin .body k hk (Or.inl nofun) h

end

/-- Non-trivial case: an execution with two `sequence_rand` at the same time is fair, and both return. -/
example : ∃ e : (prog adds).system.Execution, e.Fair ∧ e.at_ 0 = init adds (0 : Nat) 1 2 ∧
    (∃ m, (e.at_ m).pcs[0]? = some (.busy .sequence .lock : PC adds)) := by
  obtain ⟨e, h1, h2, h3, -⟩ := (prog adds).system.finite_fair (init adds (0 : Nat) 1 2) _
    [.start 0 .sequence, .start 1 .sequence, .run 1, .run 1, .run 1, .run 0, .run 0, .run 0] rfl (by
      intro i
      match i with
      | 0 => rfl
      | 1 => rfl
      | i + 2 => rfl)
  obtain ⟨s, hs, h4⟩ := h3 1
  refine ⟨e, h1, h2, 1, ?_⟩
  rw [h4]
  cases hs
  rfl

end Verif.TSafeRandom
