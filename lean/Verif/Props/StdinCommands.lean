import Verif.Props.StdinLive
/-!
C169: `CommandReader`, lines on request.
-/
namespace Verif.Stdin
open Verif.Threads

/-! ### Order -/

/-- C169: the lines that calls of `read_next_command` take are the lines given to the callback, in that order, each
once; what has not been taken is in the queue. -/
theorem C169_order {k : Int} {n : Nat} {s : Conf (prog .produce)}
    (h : (prog .produce).system.Reachable (init .produce k n) s) :
    s.sh.results.map Prod.snd ++ s.sh.queue = (s.sh.log.filter fun p => p.2).map Prod.fst := by
  refine System.ReachableBy.invariant (S := (prog .produce).system) (fun s : Conf (prog .produce) =>
    s.sh.results.map Prod.snd ++ s.sh.queue = (s.sh.log.filter fun p => p.2).map Prod.fst) rfl ?_ h
  intro s l s' hi _ hs
  rcases ran_of_step hs with e | ⟨i, x, y, -, -, hr⟩
  · rw [e]; exact hi
  · generalize s'.sh = sh' at hr
    cases hr with
    | nextTake t rest hq =>
      rw [hq] at hi
      rw [← hi]
      simp
    | evNo t _ =>
      rw [List.filter_append, List.map_append, ← hi]
      simp
    | callProduce t _ =>
      rw [List.filter_append, List.map_append, ← hi]
      simp
    | callPlain t hc | callMore t hc => cases hc
    | callBack t hc => rcases hc with hc | hc <;> cases hc
    | _ => exact hi

/-- C169: while the reader exists (nobody unsets the callback), the lines taken are the first lines typed: what has been
typed is what has been taken, what is in the queue, at most one line that is being processed, and what has not been
read. -/
theorem C169_typed {k : Int} {n : Nat} {s : Conf (prog .produce)}
    (h : (prog .produce).system.ReachableBy (fun op : Op => op ≠ .unset) (init .produce k n) s) :
    ∃ l : List Str, l.length ≤ 1 ∧
      s.sh.typed = s.sh.results.map Prod.snd ++ s.sh.queue ++ l ++ s.sh.input := by
  obtain ⟨l, hl, ht⟩ := C165_order h.reachable
  refine ⟨l, hl, ?_⟩
  rw [C169_order h.reachable, ht]
  congr 3
  exact (List.filter_eq_self.2 (C165_all_partial (.inr (.inr rfl)) h)).symm

/-! ### Lines asked for -/

/-- Calls of `CommandReader`, and typing: nobody uses its handler otherwise. -/
def Op.reader : Op → Prop := fun op => op ≠ .unset ∧ op ≠ .more

theorem never_more {k : Int} {n : Nat} {s : Conf (prog .produce)}
    (h : (prog .produce).system.ReachableBy Op.reader (init .produce k n) s) (i : Nat) (x : PC)
    (hx : s.pcs[i]? = some x) : x ≠ .more ∧ x ≠ .cbMore := by
  have hloc : (prog .produce).Local Op.reader (fun _ => True) (fun _ _ x => x ≠ .more ∧ x ≠ .cbMore) := by
    refine ⟨?_, fun _ _ _ _ _ _ _ _ _ => trivial, ?_, fun _ _ _ _ _ _ _ _ _ _ _ _ h => h, ?_, ?_⟩
    · intro sh i x op y ha _ hx hy
      cases op with
      | more => exact absurd rfl ha.2
      | _ =>
        cases x with
        | idle => cases hy; exact ⟨nofun, nofun⟩
        | _ => cases hy
    · intro sh i x sh' y b _ hx hr
      have hr : Ran .produce i sh x sh' y := run_ran hr
      cases hr with
      | callMore t hc => cases hc
      | setFlag => exact ⟨nofun, nofun⟩
      | _ => exact ⟨nofun, nofun⟩
    · intro sh i x y _ hy; cases hy
    · intro sh i x y _ hy; cases hy
  refine (Prog.Local.reachable hloc ⟨trivial, fun j x hx => ?_⟩ h).loc i x hx
  rcases init_at hx with ⟨rfl, rfl⟩ | ⟨hj, rfl⟩ <;> exact ⟨nofun, nofun⟩

/-- The thread waits for its command. -/
def PC.takes : PC → Bool
  | .nextTake => true
  | _ => false

/-- One line is asked for by each call. -/
theorem asked_eq {k : Int} {n : Nat} {s : Conf (prog .produce)}
    (h : (prog .produce).system.ReachableBy Op.reader (init .produce k n) s) :
    s.sh.asked = s.sh.results.length + s.pcs.countP PC.takes := by
  suffices (prog .produce).system.ReachableBy Op.reader (init .produce k n) s ∧ s.sh.results.length ≤ s.sh.asked ∧
      s.sh.asked - s.sh.results.length = s.pcs.countP PC.takes by omega
  refine System.ReachableBy.invariant (S := (prog .produce).system) (fun s : Conf (prog .produce) =>
    (prog .produce).system.ReachableBy Op.reader (init .produce k n) s ∧ s.sh.results.length ≤ s.sh.asked ∧
      s.sh.asked - s.sh.results.length = s.pcs.countP PC.takes) ?_ ?_ h
  · refine ⟨.init, Nat.le_refl _, ?_⟩
    show 0 = (PC.off :: List.replicate n PC.idle).countP PC.takes
    simp [List.countP_cons, List.countP_replicate, PC.takes]
  · intro s l s' ⟨hR, hle, hi⟩ hA hs
    have pos : ∀ i : Nat, s.pcs[i]? = some PC.nextTake → s.sh.results.length < s.sh.asked := by
      intro i hx
      have := countP_pos_of_get PC.takes hx rfl
      omega
    refine ⟨hR.step hA hs, ?_, ?_⟩
    · rcases ran_of_step hs with e | ⟨i, x, y, -, hx, hr⟩
      · rw [e]; exact hle
      · generalize s'.sh = sh' at hr
        cases hr with
        | nextTake t rest hq =>
          have := pos i hx
          simp only [List.length_append, List.length_singleton]
          omega
        | more | nextMore | cbMore => exact Nat.le_succ_of_le hle
        | _ => exact hle
    · refine Prog.count_step (P := prog .produce) PC.takes (fun sh => sh.asked - sh.results.length) ?_ ?_ ?_ ?_ hi
        (Prog.step_stepped hs)
      · intro x op y hy
        have hy : start x op = some y := hy
        cases start_started hy <;> rfl
      · intro i x sh y b hx hr
        have hn := never_more hR i x hx
        have hr : Ran .produce i s.sh x sh y := run_ran hr
        cases hr with
        | nextTake t rest hq =>
          have := pos i hx
          simp only [List.length_append, List.length_singleton, PC.takes]
          simp
          omega
        | nextMore =>
          simp only [PC.takes]
          simp
          omega
        | more => exact absurd rfl hn.1
        | cbMore => exact absurd rfl hn.2
        | _ => rfl
      · intro x y hy; cases hy
      · intro x y hy; cases hy

/-- C169: lines are read on request: a line is taken from the input for a call of `read_next_command` only, so that when
no call is in progress the lines taken are exactly the lines read, none is kept back in the queue, the reading thread does
not read, and what is typed meanwhile stays in the input. -/
theorem C169_on_request {n : Nat} {s : Conf (prog .produce)}
    (h : (prog .produce).system.ReachableBy Op.reader (init .produce 0 n) s)
    (hno : ∀ i : Nat, s.pcs[i]? ≠ some .nextTake) :
    s.sh.queue = [] ∧ s.sh.typed = s.sh.results.map Prod.snd ++ s.sh.input ∧ s.pcs[0]? ≠ some .read := by
  have hR := h.reachable
  have hU : (prog .produce).system.ReachableBy (fun op : Op => op ≠ .unset) (init .produce 0 n) s :=
    h.mono fun op hop => hop.1
  have ha := asked_eq h
  have hz : s.pcs.countP PC.takes = 0 := by
    rw [List.countP_eq_zero]
    intro x hx ht
    obtain ⟨i, hi⟩ := List.mem_iff_getElem?.1 hx
    cases x with
    | nextTake => exact hno i hi
    | _ => cases ht
  obtain ⟨x, hx⟩ := reader_at hR
  have hl := (linv hR).loc 0 x hx
  have h1 := hl.taken (hl.reader.2 rfl)
  have h2 := hl.lines (hl.reader.2 rfl)
  obtain ⟨h3, h4⟩ := (linv hR).glob
  rw [lines_const hR] at h3
  have ho := C169_order hR
  rw [List.filter_eq_self.2 (C165_all_partial (.inr (.inr rfl)) hU)] at ho
  have h5 := congrArg List.length ho
  simp only [List.length_append, List.length_map] at h5
  have h6 : s.sh.queue.length = 0 ∧ x.pending = 0 := by omega
  have hq : s.sh.queue = [] := List.eq_nil_of_length_eq_zero h6.1
  have hline : x.line = [] := by
    cases x <;> first | rfl | cases h6.2
  refine ⟨hq, ?_, ?_⟩
  · rw [h2, hline, ← ho, hq]
    simp
  · rw [hx]
    intro e
    cases e
    cases h6.2

/-! ### Calls return -/

section
variable {n : Nat} (e : (prog .produce).system.Execution) (hf : e.Fair) (h0 : e.at_ 0 = init .produce 0 n)
  (hA : ∀ m l, e.label m = some l → Label.Allowed Op.reader l)
include h0 hA

theorem by_reader (m : Nat) : (prog .produce).system.ReachableBy Op.reader (init .produce 0 n) (e.at_ m) := by
  induction m with
  | zero => rw [h0]; exact .init
  | succ m ih =>
    rcases e.next m with ⟨-, h⟩ | ⟨l, hl, h⟩
    · rw [h]; exact ih
    · exact ih.step (hA m l hl) h

/-- The callback stays set. -/
theorem stays_set {m : Nat} (hm : (e.at_ m).sh.set = true) : ∀ j, m ≤ j → (e.at_ j).sh.set = true := by
  intro j hj
  induction hj with
  | refl => exact hm
  | step hj ih =>
    rename_i j
    rcases e.next j with ⟨-, h⟩ | ⟨l, hl, h⟩
    · rw [h]; exact ih
    · rcases ran_of_step h with h | ⟨i, x, y, -, hx, hr⟩
      · rw [h]; exact ih
      · have hu := never_unsets ((by_reader e h0 hA j).mono fun op hop => hop.1) i x hx
        generalize (e.at_ (j + 1)).sh = sh' at hr
        cases hr with
        | setFlag => rfl
        | unsetFlag => cases hu
        | cbUnset hc => cases hc
        | _ => exact ih

include hf

/-- C169: under fair scheduling, if a line is typed whenever more lines are asked for than have been processed, every
call of `read_next_command` returns, by whichever threads and however many at a time. -/
theorem C169_returns
    (htype : e.LeadsTo (fun s => s.sh.log.length < s.sh.asked) (fun s => s.sh.log.length < s.sh.typed.length))
    (i : Nat) : e.LeadsTo (fun s => (s.pcs[i]? = some .nextMore ∨ s.pcs[i]? = some .nextTake) ∧ s.sh.set = true)
      (fun s => s.pcs[i]? = some .idle) := by
  have ht : Callback.produce.tame = true := rfl
  have hR := by_reader e h0 hA
  have len : ∀ j, (e.at_ j).sh.results.length + (e.at_ j).sh.queue.length = (e.at_ j).sh.log.length := by
    intro j
    have ho := C169_order (hR j).reachable
    rw [List.filter_eq_self.2 (C165_all_partial (.inr (.inr rfl)) ((hR j).mono fun op hop => hop.1))] at ho
    have := congrArg List.length ho
    simpa only [List.length_append, List.length_map] using this
  have free : e.LeadsTo (fun s => s.pcs[i]? = some .nextTake ∧ s.sh.set = true) (fun s => s.sh.queue ≠ []) := by
    rintro m ⟨hx, hset⟩
    apply Classical.byContradiction
    intro hno
    have hq : ∀ j, m ≤ j → (e.at_ j).sh.queue = [] := fun j hj =>
      Classical.byContradiction fun h => hno ⟨j, hj, h⟩
    have hres : ∀ j, m ≤ j → (e.at_ j).sh.results.length = (e.at_ m).sh.results.length ∧
        (e.at_ m).sh.asked ≤ (e.at_ j).sh.asked := by
      intro j hj
      induction hj with
      | refl => exact ⟨rfl, Nat.le_refl _⟩
      | step hj ih =>
        rename_i j
        rcases e.next j with ⟨-, h⟩ | ⟨l, hl, h⟩
        · rw [h]; exact ih
        · rcases ran_of_step h with h | ⟨i, x, y, -, hx, hr⟩
          · rw [h]; exact ih
          · have hqj := hq j hj
            generalize (e.at_ (j + 1)).sh = sh' at hr
            cases hr with
            | nextTake t rest h => rw [hqj] at h; cases h
            | more | nextMore | cbMore => exact ⟨ih.1, Nat.le_succ_of_le ih.2⟩
            | _ => exact ih
    have hlog : ∀ j, m ≤ j → (e.at_ j).sh.log.length = (e.at_ m).sh.results.length := by
      intro j hj
      have h1 := len j
      rw [hq j hj, (hres j hj).1] at h1
      simpa using h1.symm
    have hask : (e.at_ m).sh.results.length < (e.at_ m).sh.asked := by
      have := asked_eq (hR m)
      have := countP_pos_of_get PC.takes hx rfl
      omega
    obtain ⟨j, hj, h1⟩ := htype m (by
      show (e.at_ m).sh.log.length < (e.at_ m).sh.asked
      rw [hlog m (Nat.le_refl m)]; exact hask)
    obtain ⟨j', hj', h2⟩ := C166_delivers e hf h0 (.inr (.inr rfl)) (e.at_ m).sh.results.length j
      ⟨stays_set e h0 hA hset j hj, Nat.le_of_eq (hlog j hj), by rw [← hlog j hj]; exact h1, by
        have := (hres j hj).2
        omega⟩
    rcases h2 with ⟨x, -, h2⟩ | h2
    · have := (List.getElem?_eq_some_iff.1 h2).1
      rw [hlog j' (Nat.le_trans hj hj')] at this
      exact Nat.lt_irrefl _ this
    · rw [stays_set e h0 hA hset j' (Nat.le_trans hj hj')] at h2
      cases h2
  have take : e.LeadsTo (fun s => s.pcs[i]? = some .nextTake ∧ s.sh.set = true) (fun s => s.pcs[i]? = some .idle) := by
    rintro m ⟨hx, hset⟩
    apply Classical.byContradiction
    intro hno
    -- it would stay there for ever
    have stay : ∀ j, m ≤ j → (e.at_ j).pcs[i]? = some .nextTake := by
      intro j hj
      induction hj with
      | refl => exact hx
      | step hj ih =>
        rename_i j
        rcases e.next j with ⟨-, h⟩ | ⟨l, -, h⟩
        · rw [h]; exact ih
        · by_cases hl : l = .run i
          · subst hl
            obtain ⟨sh, y, b, h1, h2, h3⟩ := Prog.stepped_run (Prog.step_stepped h) ih
            have hr : Ran .produce i (e.at_ j).sh .nextTake sh y := run_ran h1
            cases hr
            exact absurd ⟨j + 1, Nat.le_succ_of_le hj, h3⟩ hno
          · exact Prog.frame_active (Prog.step_stepped h) ih (active nofun) hl
    have h1 : e.LeadsTo (fun s => s.pcs[i]? = some .nextTake) (fun s => s.pcs[i]? = some .idle) := by
      refine takes ht e hf h0 (fun s => s.pcs[i]? = some .nextTake) (fun s => s.queue ≠ []) i .nextTake nofun
        (fun _ h => h) ?_ _ ?_ ?_
      · intro j hj
        by_cases hmj : m ≤ j
        · exact free j ⟨hj, stays_set e h0 hA hset j hmj⟩
        · have hmj : j ≤ m := Nat.le_of_lt (Nat.lt_of_not_le hmj)
          obtain ⟨k, hk, h⟩ := free m ⟨hx, hset⟩
          exact ⟨k, Nat.le_trans hmj hk, h⟩
      · intro s _ _ h
        cases hi : s.sh.queue with
        | nil => exact absurd hi h
        | cons t rest => simp only [run, hi]; rfl
      · intro s sh y _ _ hr s' _ _ h3
        cases hr
        exact h3
    exact hno (h1 m hx)
  rintro m ⟨hx | hx, hset⟩
  · obtain ⟨j, hj, h⟩ := moves ht e hf h0 i .nextMore nofun (fun s => s.pcs[i]? = some .nextTake) (fun _ _ _ => rfl)
      (fun s sh y _ _ hr s' _ _ h3 => by cases hr; exact h3) m hx
    obtain ⟨j', hj', h'⟩ := take j ⟨h, stays_set e h0 hA hset j hj⟩
    exact ⟨j', Nat.le_trans hj hj', h'⟩
  · exact take m ⟨hx, hset⟩

end

/-- Labels: two clients ask for a command, a third types two, the second client gets the first line. -/
def asks : List (Label Op) :=
  setup 1 ++ [.start 1 .next, .run 1, .start 2 .next, .run 2] ++ types 3 c!"start" ++ types 3 c!"stop" ++
    [.run 0, .run 0, .run 0, .run 0, .run 0, .run 0, .run 2, .run 0, .run 0, .run 0, .run 0, .run 0, .run 0, .run 1]

/-- Non-trivial case, of the safety theorems. -/
example : ((prog .produce).system.exec (init .produce 0 3) asks).map (fun s => (s.sh.results, s.sh.queue, s.pcs)) =
    some ([(2, c!"start"), (1, c!"stop")], [], [.wait, .idle, .idle, .idle]) := by decide

/-- Non-trivial case, of `C169_returns`. -/
example : ∃ e : (prog .produce).system.Execution, e.Fair ∧ e.at_ 0 = init .produce 0 3 ∧
    (∀ m l, e.label m = some l → Label.Allowed Op.reader l) ∧
    e.LeadsTo (fun s => s.sh.log.length < s.sh.asked) (fun s => s.sh.log.length < s.sh.typed.length) ∧
    ∃ m, (e.at_ m).pcs[1]? = some .nextTake ∧ (e.at_ m).sh.set = true := by
  obtain ⟨s1, h1⟩ : ∃ s1, (prog .produce).system.exec (init .produce 0 3) asks = some s1 := ⟨_, rfl⟩
  obtain ⟨e, hf, h0, hat, hlab⟩ := (prog .produce).system.finite_fair' (init .produce 0 3) s1 asks h1 (by
    cases h1
    intro i
    match i with
    | 0 => rfl
    | 1 => rfl
    | 2 => rfl
    | 3 => rfl
    | i + 4 => rfl)
  refine ⟨e, hf, h0, ?_, ?_, 11, ?_⟩
  · intro m l hl
    rw [hlab m] at hl
    have hmem := List.mem_of_getElem? hl
    have key : ∀ l ∈ asks, Label.Allowed Op.reader l := by
      simp [asks, setup, types, Label.Allowed, Op.reader]
    exact key l hmem
  · intro m hm
    obtain ⟨s, h2, h3⟩ := hat m
    rw [h3] at hm
    by_cases hl : m ≤ 15
    · obtain ⟨s', h2', h3'⟩ := hat 15
      refine ⟨15, hl, ?_⟩
      rw [h3']
      cases h2'
      decide
    · refine ⟨m, Nat.le_refl m, ?_⟩
      rw [h3]
      by_cases hl' : m < asks.length
      · have key : ∀ m, m < asks.length → 15 < m →
            (((prog .produce).system.exec (init .produce 0 3) (asks.take m)).map
            (fun s => decide (s.sh.log.length < s.sh.asked → s.sh.log.length < s.sh.typed.length))) = some true := by
          decide
        have := key m hl' (Nat.lt_of_not_le hl)
        rw [h2] at this
        exact of_decide_eq_true (Option.some.inj this) hm
      · rw [List.take_of_length_le (Nat.le_of_not_lt hl'), h1] at h2
        cases h2
        cases h1
        exact absurd hm (by decide)
  · obtain ⟨s, h2, h3⟩ := hat 11
    rw [h3]
    cases h2
    decide

end Verif.Stdin
