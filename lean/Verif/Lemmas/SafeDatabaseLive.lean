import Verif.Lemmas.SafeDatabase
/-!
Progress of the calls of `SafeDatabase`.
-/
namespace Verif.SafeDatabase
open Verif.Threads

variable {V : Type} {pref : Bool}

theorem active {x : PC V} (h : ∀ r, x ≠ .idle r) : (prog V pref).Active x := by
  refine ⟨?_, rfl, rfl⟩
  intro op
  cases x with
  | idle r => exact absurd rfl (h r)
  | _ => rfl

theorem stepped_of {s s' : Conf (prog V pref)} {l : Label (Op V)} (h : (prog V pref).Stepped s l s') :
    Stepped pref s l s' := step_stepped (Prog.stepped_step h)

/-- Who has or waits for the mutex; needs no assumption on the calls. -/
structure Owned (s : Conf (prog V pref)) : Prop where
  writer : ∀ (j : Nat) (x : PC V), s.pcs[j]? = some x → (x.excl = true ↔ s.sh.writer = some j)
  at_ : ∀ j : Nat, s.sh.writer = some j → ∃ x, s.pcs[j]? = some x
  drain : pref = false → ∀ (j : Nat) (op : Op V), s.pcs[j]? ≠ some (.wDrain op)

theorem wDrain_ran {i : Nat} {s sh : Sh V} {x y : PC V} {op : Op V} (hr : Ran pref i s x sh y)
    (h : y = .wDrain op) : pref = true := by
  cases hr with
  | wWait _ _ _ hp => exact hp
  | _ => cases h

theorem owned_step {s s' : Conf (prog V pref)} {l : Label (Op V)} (hi : Owned s) (hs : Stepped pref s l s') :
    Owned s' := by
  cases hs with
  | start i r op hx =>
    refine ⟨?_, ?_, ?_⟩
    · intro j z hz
      rcases set_get hz with ⟨rfl, rfl, -⟩ | ⟨-, hz⟩
      · rw [(entry_pc op).2.1]
        exact hi.writer j _ hx
      · exact hi.writer j z hz
    · intro j hj
      obtain ⟨x, h⟩ := hi.at_ j hj
      by_cases e : j = i
      · subst e
        exact ⟨_, get_set_self h⟩
      · exact ⟨x, (get_set_ne e).trans h⟩
    · intro hp j o hz
      rcases set_get hz with ⟨rfl, e, -⟩ | ⟨-, hz⟩
      · cases op <;> cases e
      · exact hi.drain hp j o hz
  | run i x y sh hx hr =>
    obtain ⟨w1, w2⟩ := writer_ran (hi.writer i x hx) hr
    refine ⟨?_, ?_, ?_⟩
    · intro j z hz
      rcases set_get hz with ⟨rfl, rfl, -⟩ | ⟨hj, hz⟩
      · exact w1
      · exact (hi.writer j z hz).trans (w2 j hj).symm
    · intro j hj
      by_cases e : j = i
      · subst e
        exact ⟨y, get_set_self hx⟩
      · obtain ⟨z, hz⟩ := hi.at_ j ((w2 j e).1 hj)
        exact ⟨z, (get_set_ne e).trans hz⟩
    · intro hp j o hz
      rcases set_get hz with ⟨rfl, e, -⟩ | ⟨-, hz⟩
      · have := wDrain_ran hr e.symm
        rw [hp] at this
        cases this
      · exact hi.drain hp j o hz

theorem owned_init (n : Nat) : Owned (init V pref n) := by
  refine ⟨(inv_init n).writer, (fun j h => by cases h), fun _ j op h => ?_⟩
  cases (Prog.init_get h : (PC.wDrain op : PC V) = .idle none)

theorem owned {A : Op V → Prop} {n : Nat} {s : Conf (prog V pref)}
    (h : (prog V pref).system.ReachableBy A (init V pref n) s) : Owned s :=
  System.ReachableBy.invariant (S := (prog V pref).system) Owned (owned_init n)
    (fun _ _ _ hi _ hs => owned_step hi (step_stepped hs)) h

/-- The states of an execution whose clients start only calls in `A`. -/
theorem at_reachable {A : Op V → Prop} {n : Nat} (e : (prog V pref).system.Execution)
    (h0 : e.at_ 0 = init V pref n) (hA : ∀ n l, e.label n = some l → l.Allowed A) (m : Nat) :
    (prog V pref).system.ReachableBy A (init V pref n) (e.at_ m) := by
  induction m with
  | zero => rw [h0]; exact .init
  | succ m ih =>
    rcases e.next m with ⟨-, h⟩ | ⟨l, hl, h⟩
    · rw [h]; exact ih
    · exact .step ih (hA m l hl) h

section
variable (e : (prog V pref).system.Execution) (hf : e.Fair)
include hf

/-- A thread that has the mutex exclusively releases it. -/
theorem crit_frees (j : Nat) :
    e.LeadsTo (fun s => ∃ x, s.pcs[j]? = some x ∧ x.crit = true) (fun s => s.sh.writer = none) := by
  have rel : ∀ r, e.LeadsTo (fun s => s.pcs[j]? = some (.wRel r)) (fun s => s.sh.writer = none) := by
    intro r
    refine Prog.free_step e hf (fun _ => True) (fun _ => trivial) j _ (active (by nofun)) _ (fun _ _ _ => by rfl) ?_
    intro s s' _ _ hx hs
    obtain ⟨sh, y, b, h, h2, -⟩ := Prog.stepped_run hs hx
    cases h
    rw [h2]
  have end_ : ∀ op p, e.LeadsTo (fun s => s.pcs[j]? = some (.wEnd op p)) (fun s => s.sh.writer = none) := by
    intro op p
    have : e.LeadsTo (fun s => s.pcs[j]? = some (.wEnd op p)) (fun s => ∃ r, s.pcs[j]? = some (.wRel r)) := by
      refine Prog.free_step e hf (fun _ => True) (fun _ => trivial) j _ (active (by nofun)) _ (fun _ _ _ => by rfl) ?_
      intro s s' _ _ hx hs
      obtain ⟨sh, y, b, h, -, h2⟩ := Prog.stepped_run hs hx
      cases h
      exact ⟨_, h2⟩
    exact this.trans fun n ⟨r, hr⟩ => rel r n hr
  have find : ∀ op, e.LeadsTo (fun s => s.pcs[j]? = some (.wFind op)) (fun s => s.sh.writer = none) := by
    intro op
    have : e.LeadsTo (fun s => s.pcs[j]? = some (.wFind op)) (fun s => ∃ p, s.pcs[j]? = some (.wEnd op p)) := by
      refine Prog.free_step e hf (fun _ => True) (fun _ => trivial) j _ (active (by nofun)) _ (fun _ _ _ => by rfl) ?_
      intro s s' _ _ hx hs
      obtain ⟨sh, y, b, h, -, h2⟩ := Prog.stepped_run hs hx
      cases h
      exact ⟨_, h2⟩
    exact this.trans fun n ⟨p, hp⟩ => end_ op p n hp
  intro n ⟨x, hx, hc⟩
  cases x with
  | wBeg op =>
    exact ((Prog.goto e hf (fun _ => True) (fun _ => trivial) j (.wBeg op) (.wFind op) (active nofun)
      (fun _ _ _ => ⟨_, _, rfl⟩)).trans (find op)) n hx
  | wFind op => exact find op n hx
  | wEnd op p => exact end_ op p n hx
  | wRel r => exact rel r n hx
  | _ => cases hc

/-- If the mutex is released again and again, a thread that needs it shared gets it. -/
theorem acquires (hfree : e.LeadsTo (fun _ => True) (fun s => s.sh.writer = none)) (i : Nat) (x : PC V)
    (hx : ∀ r, x ≠ .idle r) (Q : Conf (prog V pref) → Prop)
    (hable : ∀ s : Sh V, s.writer = none → (run pref i s x).isSome)
    (hdone : ∀ (s : Conf (prog V pref)) (sh : Sh V) (y : PC V), Ran pref i s.sh x sh y →
      ∀ s' : Conf (prog V pref), s'.sh = sh → s'.pcs[i]? = some y → Q s') :
    e.LeadsTo (fun s => s.pcs[i]? = some x) Q := by
  refine Prog.acquire e hf (fun _ => True) (fun _ => trivial) i x (active hx) (fun _ => True)
    (fun sh => sh.writer = none) Q (fun _ _ _ => trivial) (hfree.mono (fun _ _ => trivial) (fun _ h => h))
    (fun s _ _ h => hable s.sh h) ?_
  intro s s' _ _ hx hs
  obtain ⟨sh, y, b, h, h2, h3⟩ := Prog.stepped_run hs hx
  exact hdone s sh y (run_ran h).1 s' h2 h3

/-- A step without conditions. -/
theorem moves (i : Nat) (x : PC V) (hx : ∀ r, x ≠ .idle r) (Q : Conf (prog V pref) → Prop)
    (hable : ∀ s : Sh V, (run pref i s x).isSome)
    (hdone : ∀ (s : Conf (prog V pref)) (sh : Sh V) (y : PC V), Ran pref i s.sh x sh y →
      ∀ s' : Conf (prog V pref), s'.sh = sh → s'.pcs[i]? = some y → Q s') :
    e.LeadsTo (fun s => s.pcs[i]? = some x) Q := by
  refine Prog.free_step e hf (fun _ => True) (fun _ => trivial) i x (active hx) Q (fun s _ _ => hable s.sh) ?_
  intro s s' _ _ hx hs
  obtain ⟨sh, y, b, h, h2, h3⟩ := Prog.stepped_run hs hx
  exact hdone s sh y (run_ran h).1 s' h2 h3

/-- The thread has returned. -/
def Returned (i : Nat) (s : Conf (prog V pref)) : Prop := ∃ r, s.pcs[i]? = some (.idle r)

/-- If the mutex is released again and again, `find` returns an iterator. -/
theorem find_returns (hfree : e.LeadsTo (fun _ => True) (fun s => s.sh.writer = none)) (i k : Nat) :
    e.LeadsTo (fun s => s.pcs[i]? = some (.fAcq k)) (fun s => ∃ h, s.pcs[i]? = some (.idle (some (.iter h)))) := by
  have h1 : e.LeadsTo (fun s => s.pcs[i]? = some (.fAcq k)) (fun s => s.pcs[i]? = some (.fBeg k)) :=
    acquires e hf hfree i _ (by nofun) _ (fun s h => by simp [run, h]) (fun s sh y hr s' _ h => by cases hr; exact h)
  have h2 : e.LeadsTo (fun s => s.pcs[i]? = some (.fBeg k)) (fun s => s.pcs[i]? = some (.fEnd k)) :=
    moves e hf i _ (by nofun) _ (fun s => by rfl) (fun s sh y hr s' _ h => by cases hr; exact h)
  have h3 : e.LeadsTo (fun s => s.pcs[i]? = some (.fEnd k)) (fun s => ∃ p, s.pcs[i]? = some (.fLock p)) :=
    moves e hf i _ (by nofun) _ (fun s => by rfl) (fun s sh y hr s' _ h => by cases hr <;> exact ⟨_, h⟩)
  have h4 : e.LeadsTo (fun s => ∃ p, s.pcs[i]? = some (.fLock p)) (fun s => ∃ h, s.pcs[i]? = some (.fRel h)) :=
    fun n ⟨p, hp⟩ => acquires e hf hfree i (.fLock p) nofun (fun s => ∃ h, s.pcs[i]? = some (.fRel h))
      (fun s h => by simp [run, h]) (fun s sh y hr s' _ h => by cases hr; exact ⟨_, h⟩) n hp
  have h5 : e.LeadsTo (fun s => ∃ h, s.pcs[i]? = some (.fRel h))
      (fun s => ∃ h, s.pcs[i]? = some (.idle (some (.iter h)))) :=
    fun n ⟨p, hp⟩ => moves e hf i (.fRel p) nofun (fun s => ∃ h, s.pcs[i]? = some (.idle (some (.iter h))))
      (fun s => by rfl) (fun s sh y hr s' _ h => by cases hr; exact ⟨_, h⟩) n hp
  exact h1.trans (h2.trans (h3.trans (h4.trans h5)))

/-- If the mutex is released again and again, calls that do not write return. -/
theorem read_returns (hfree : e.LeadsTo (fun _ => True) (fun s => s.sh.writer = none)) (i : Nat) (op : Op V)
    (hop : ∀ o, entry op ≠ .wAcq o) : e.LeadsTo (fun s => s.pcs[i]? = some (entry op)) (Returned i) := by
  have rel : ∀ r, e.LeadsTo (fun s => s.pcs[i]? = some (.rRel r)) (Returned i) := fun r =>
    moves e hf i _ (by nofun) _ (fun s => by rfl) (fun s sh y hr s' _ h => by cases hr; exact ⟨_, h⟩)
  have rend : ∀ o, e.LeadsTo (fun s => s.pcs[i]? = some (.rEnd o)) (Returned i) := by
    intro o
    have : e.LeadsTo (fun s => s.pcs[i]? = some (.rEnd o)) (fun s => ∃ r, s.pcs[i]? = some (.rRel r)) :=
      moves e hf i _ (by nofun) _ (fun s => by rfl) (fun s sh y hr s' _ h => by cases hr; exact ⟨_, h⟩)
    exact this.trans fun n ⟨r, hr⟩ => rel r n hr
  have rbeg : ∀ o, e.LeadsTo (fun s => s.pcs[i]? = some (.rBeg o)) (Returned i) := by
    intro o
    have : e.LeadsTo (fun s => s.pcs[i]? = some (.rBeg o)) (fun s => s.pcs[i]? = some (.rEnd o)) :=
      moves e hf i _ (by nofun) _ (fun s => by rfl) (fun s sh y hr s' _ h => by cases hr; exact h)
    exact this.trans (rend o)
  have racq : ∀ o, e.LeadsTo (fun s => s.pcs[i]? = some (.rAcq o)) (Returned i) := by
    intro o
    have : e.LeadsTo (fun s => s.pcs[i]? = some (.rAcq o)) (fun s => s.pcs[i]? = some (.rBeg o)) :=
      acquires e hf hfree i _ (by nofun) _ (fun s h => by simp [run, h]) (fun s sh y hr s' _ h => by cases hr; exact h)
    exact this.trans (rbeg o)
  have block : ∀ p, e.LeadsTo (fun s => s.pcs[i]? = some (.bLock p)) (Returned i) := fun p =>
    acquires e hf hfree i _ (by nofun) _ (fun s h => by simp [run, h])
      (fun s sh y hr s' _ h => by cases hr; exact ⟨_, h⟩)
  have dend : ∀ h k, e.LeadsTo (fun s => s.pcs[i]? = some (.dEnd h k)) (Returned i) := fun h k =>
    moves e hf i _ (by nofun) _ (fun s => by simp only [run]; split <;> rfl)
      (fun s sh y hr s' _ h => by cases hr <;> exact ⟨_, h⟩)
  have aend : ∀ h k, e.LeadsTo (fun s => s.pcs[i]? = some (.aEnd h k)) (Returned i) := fun h k =>
    moves e hf i _ (by nofun) _ (fun s => by simp only [run]; split <;> rfl)
      (fun s sh y hr s' _ h => by cases hr <;> exact ⟨_, h⟩)
  cases op with
  | is k => exact racq _
  | «at» k => exact racq _
  | size => exact racq _
  | find k => exact (find_returns e hf hfree i k).mono (fun _ h => h) (fun s ⟨h, hh⟩ => ⟨_, hh⟩)
  | begin =>
    have h1 : e.LeadsTo (fun s => s.pcs[i]? = some .bBeg) (fun s => s.pcs[i]? = some .bEnd) :=
      moves e hf i _ (by nofun) _ (fun s => by rfl) (fun s sh y hr s' _ h => by cases hr; exact h)
    have h2 : e.LeadsTo (fun s => s.pcs[i]? = some .bEnd) (fun s => ∃ p, s.pcs[i]? = some (.bLock p)) :=
      moves e hf i _ (by nofun) _ (fun s => by rfl) (fun s sh y hr s' _ h => by cases hr; exact ⟨_, h⟩)
    exact h1.trans (h2.trans fun n ⟨p, hp⟩ => block p n hp)
  | end_ => exact block none
  | copy h =>
    exact moves e hf i (.copyIt h) (by nofun) _ (fun s => by simp only [run]; split <;> rfl)
      (fun s sh y hr s' _ h => by cases hr <;> exact ⟨_, h⟩)
  | destroy h =>
    exact moves e hf i (.destroyIt h) (by nofun) _ (fun s => by simp only [run]; split <;> rfl)
      (fun s sh y hr s' _ h => by cases hr <;> exact ⟨_, h⟩)
  | deref h =>
    have h1 : e.LeadsTo (fun s => s.pcs[i]? = some (.dBeg h))
        (fun s => Returned i s ∨ ∃ k, s.pcs[i]? = some (.dEnd h k)) :=
      moves e hf i _ (by nofun) _ (fun s => by simp only [run]; split <;> rfl)
        (fun s sh y hr s' _ h => by
          cases hr with
          | dNone _ _ => exact Or.inl ⟨_, h⟩
          | dBeg _ k _ => exact Or.inr ⟨k, h⟩)
    exact h1.trans (.or (.refl e fun _ h => h) fun n ⟨k, hk⟩ => dend h k n hk)
  | advance h =>
    have h1 : e.LeadsTo (fun s => s.pcs[i]? = some (.aBeg h))
        (fun s => Returned i s ∨ ∃ k, s.pcs[i]? = some (.aEnd h k)) :=
      moves e hf i _ (by nofun) _ (fun s => by simp only [run]; split <;> rfl)
        (fun s sh y hr s' _ h => by
          cases hr with
          | aNone _ _ => exact Or.inl ⟨_, h⟩
          | aBeg _ k _ => exact Or.inr ⟨k, h⟩)
    exact h1.trans (.or (.refl e fun _ h => h) fun n ⟨k, hk⟩ => aend h k n hk)
  | _ => exact absurd rfl (hop _)

end

/-- A writer that has the mutex returns. -/
theorem write_returns (e : (prog V pref).system.Execution) (hf : e.Fair) (i : Nat) (op : Op V) :
    e.LeadsTo (fun s => s.pcs[i]? = some (.wBeg op)) (Returned i) := by
  have h1 : e.LeadsTo (fun s => s.pcs[i]? = some (.wBeg op)) (fun s => s.pcs[i]? = some (.wFind op)) :=
    moves e hf i _ (by nofun) _ (fun s => by rfl) (fun s sh y hr s' _ h => by cases hr; exact h)
  have h2 : e.LeadsTo (fun s => s.pcs[i]? = some (.wFind op)) (fun s => ∃ p, s.pcs[i]? = some (.wEnd op p)) :=
    moves e hf i _ (by nofun) _ (fun s => by rfl) (fun s sh y hr s' _ h => by cases hr; exact ⟨_, h⟩)
  have h3 : e.LeadsTo (fun s => ∃ p, s.pcs[i]? = some (.wEnd op p)) (fun s => ∃ r, s.pcs[i]? = some (.wRel r)) :=
    fun n ⟨p, hp⟩ => moves e hf i (.wEnd op p) nofun (fun s => ∃ r, s.pcs[i]? = some (.wRel r))
      (fun s => by rfl) (fun s sh y hr s' _ h => by cases hr; exact ⟨_, h⟩) n hp
  have h4 : e.LeadsTo (fun s => ∃ r, s.pcs[i]? = some (.wRel r)) (Returned i) :=
    fun n ⟨r, hr⟩ => moves e hf i (.wRel r) nofun (Returned i)
      (fun s => by rfl) (fun s sh y hr s' _ h => by cases hr; exact ⟨_, h⟩) n hr
  exact h1.trans (h2.trans (h3.trans h4))

/-- Readers first: the mutex is always released again. -/
theorem frees_readers_first {n : Nat} (e : (prog V false).system.Execution) (hf : e.Fair)
    (h0 : e.at_ 0 = init V false n) : e.LeadsTo (fun _ => True) (fun s => s.sh.writer = none) := by
  intro m _
  have ho := owned (at_reachable (A := fun _ => True) e h0 (fun _ l _ => Label.allowed_true l) m)
  cases hw : (e.at_ m).sh.writer with
  | none => exact ⟨m, Nat.le_refl m, hw⟩
  | some j =>
    obtain ⟨x, hx⟩ := ho.at_ j hw
    refine crit_frees e hf j m ⟨x, hx, ?_⟩
    have hex := (ho.writer j x hx).2 hw
    cases x with
    | wDrain op => exact absurd hx (ho.drain rfl j op)
    | _ => first | rfl | cases hex

/-! ### Writers first -/

/-- Inside `find`. -/
def PC.isFind : PC V → Bool
  | .fAcq _ | .fBeg _ | .fEnd _ | .fLock _ | .fRel _ => true
  | _ => false

/-- No iterator is copied and `find` is not called. -/
def noFind : Op V → Prop
  | .copy _ => False
  | .find _ => False
  | _ => True

theorem noFind_noCopy {l : Label (Op V)} (h : l.Allowed noFind) : l.Allowed noCopy := by
  cases l with
  | start i op => cases op <;> first | exact trivial | exact h
  | _ => trivial

theorem isFind_ran {i : Nat} {s sh : Sh V} {x y : PC V} (h : x.isFind = false) (hr : Ran pref i s x sh y) :
    y.isFind = false := by
  cases hr <;> first | rfl | (cases h; done)

theorem notFind {n : Nat} {s : Conf (prog V pref)}
    (h : (prog V pref).system.ReachableBy noFind (init V pref n) s) :
    ∀ (j : Nat) (x : PC V), s.pcs[j]? = some x → x.isFind = false := by
  refine System.ReachableBy.invariant (S := (prog V pref).system)
    (fun s : Conf (prog V pref) => ∀ (j : Nat) (x : PC V), s.pcs[j]? = some x → x.isFind = false) ?_ ?_ h
  · intro j x hx
    rw [Prog.init_get hx]
    rfl
  · intro s l s' hi hl hs
    cases step_stepped hs with
    | start i r op hx =>
      intro j z hz
      rcases set_get hz with ⟨rfl, rfl, -⟩ | ⟨-, hz⟩
      · cases op <;> first | rfl | exact absurd hl id
      · exact hi j z hz
    | run i x y sh hx hr =>
      intro j z hz
      rcases set_get hz with ⟨rfl, rfl, -⟩ | ⟨-, hz⟩
      · exact isFind_ran (hi _ x hx) hr
      · exact hi j z hz

/-- Places whose thread still has to do something before it releases its shared lock. -/
def PC.two : PC V → Bool
  | .rBeg _ | .rEnd _ => true
  | _ => false

def PC.three : PC V → Bool
  | .rBeg _ => true
  | _ => false

/-- Steps to be done before all shared locks (except those of iterators) are released. -/
def work (s : Conf (prog V pref)) : Nat :=
  s.pcs.countP PC.shared + s.pcs.countP PC.two + s.pcs.countP PC.three

/-- While a writer waits, no new shared locks. -/
theorem work_ran {s : Conf (prog V pref)} {i : Nat} {x y : PC V} {sh : Sh V} (hx : s.pcs[i]? = some x)
    (hw : s.sh.writer ≠ none) (hfx : x.isFind = false) (hc : ∀ h, x ≠ .copyIt h) (hr : Ran pref i s.sh x sh y) :
    (s.sh.its = [] → sh.its = []) ∧ work (pref := pref) ⟨sh, s.pcs.set i y⟩ ≤ work s ∧
      (x.shared = true → work (pref := pref) ⟨sh, s.pcs.set i y⟩ < work s) := by
  have c1 := countP_set PC.shared y hx
  have c2 := countP_set PC.two y hx
  have c3 := countP_set PC.three y hx
  simp only [work]
  cases hr with
  | rAcq op h => exact absurd h hw
  | bLock op h => exact absurd h hw
  | copy h p hl => exact absurd rfl (hc h)
  | fAcq k h => cases hfx
  | fBeg k => cases hfx
  | fFound k h => cases hfx
  | fAbsent k h => cases hfx
  | fLock p h => cases hfx
  | fRel k => cases hfx
  | destroy h p hl =>
    simp only [PC.shared, PC.two, PC.three, Bool.false_eq_true, if_false, if_true] at c1 c2 c3
    refine ⟨fun e => ?_, by omega, nofun⟩
    show s.sh.its.filter _ = []
    rw [e]
    rfl
  | aEnd h p hl =>
    simp only [PC.shared, PC.two, PC.three, Bool.false_eq_true, if_false, if_true] at c1 c2 c3
    refine ⟨fun e => ?_, by omega, nofun⟩
    show s.sh.its.map _ = []
    rw [e]
    rfl
  | _ =>
    simp only [PC.shared, PC.two, PC.three, Bool.false_eq_true, if_false, if_true] at c1 c2 c3
    refine ⟨fun e => e, by omega, ?_⟩
    intro h
    first
    | omega
    | cases h

section
variable {n : Nat} (e : (prog V pref).system.Execution) (hf : e.Fair) (h0 : e.at_ 0 = init V pref n)
  (hA : ∀ m l, e.label m = some l → l.Allowed noFind)
  (hit : ∀ m, ∃ k, m ≤ k ∧ (e.at_ k).sh.its = [])

/-- What is known of all states of the execution. -/
structure Known (s : Conf (prog V pref)) : Prop where
  inv : Inv s
  owned : Owned s
  find : ∀ (j : Nat) (x : PC V), s.pcs[j]? = some x → x.isFind = false

include h0 hA in
theorem known (m : Nat) : Known (e.at_ m) := by
  have h := at_reachable e h0 hA m
  refine ⟨?_, owned h, notFind h⟩
  exact inv (at_reachable e h0 (fun n l hl => noFind_noCopy (hA n l hl)) m)

/-- The writer that waits goes on waiting or gets the mutex; meanwhile the shared locks get fewer. -/
theorem drain_step {s s' : Conf (prog V pref)} {l : Label (Op V)} (hk : Known s) {j : Nat} {op : Op V}
    (hj : s.pcs[j]? = some (.wDrain op)) (hs : Stepped pref s l s') :
    s'.pcs[j]? = some (.wBeg op) ∨
    (s'.pcs[j]? = some (.wDrain op) ∧ (s.sh.its = [] → s'.sh.its = []) ∧ work s' ≤ work s ∧
      (s.sh.readers = 0 → s'.sh.readers = 0) ∧
      ∀ t x, l = .run t → s.pcs[t]? = some x → x.shared = true → work s' < work s) := by
  have hw : s.sh.writer = some j := (hk.owned.writer j _ hj).1 rfl
  cases hs with
  | start i r o hx =>
    have hne : j ≠ i := by
      rintro rfl
      rw [hj] at hx
      cases hx
    refine Or.inr ⟨(get_set_ne hne).trans hj, fun h => h, ?_, fun h => h, nofun⟩
    have c1 := countP_set PC.shared (entry o) hx
    have c2 := countP_set PC.two (entry o) hx
    have c3 := countP_set PC.three (entry o) hx
    have e1 : (entry o).shared = false ∧ (entry o).two = false ∧ (entry o).three = false := by
      cases o <;> exact ⟨rfl, rfl, rfl⟩
    rw [e1.1] at c1
    rw [e1.2.1] at c2
    rw [e1.2.2] at c3
    simp only [PC.shared, PC.two, PC.three, Bool.false_eq_true, if_false] at c1 c2 c3
    simp only [work]
    omega
  | run i x y sh hx hr =>
    by_cases e : j = i
    · subst e
      rw [hj] at hx
      cases hx
      cases hr
      exact Or.inl (get_set_self hj)
    · right
      have hne : s.sh.writer ≠ none := by rw [hw]; nofun
      obtain ⟨a, b, c⟩ := work_ran hx hne (hk.find i x hx) (fun h e => hk.inv.noCopy i h (e ▸ hx)) hr
      refine ⟨(get_set_ne e).trans hj, a, b, ?_, ?_⟩
      · rcases (crit_ran (hk.inv.crit i x hx) hr).2 with h | h
        · exact absurd h hne
        · exact h
      · intro t z ht hz hsh
        cases ht
        rw [hx] at hz
        cases hz
        exact c hsh

include hf h0 hA hit in
theorem drains (j : Nat) (op : Op V) :
    e.LeadsTo (fun s => s.pcs[j]? = some (.wDrain op)) (fun s => s.pcs[j]? = some (.wBeg op)) := by
  have hK := known e h0 hA
  -- the iterators are destroyed
  have l1 : e.LeadsTo (fun s => s.pcs[j]? = some (.wDrain op))
      (fun s => (s.pcs[j]? = some (.wDrain op) ∧ s.sh.its = []) ∨ s.pcs[j]? = some (.wBeg op)) := by
    intro m hm
    obtain ⟨k, hk, hi⟩ := hit m
    have := e.until_ (fun s => s.pcs[j]? = some (.wDrain op)) (fun s => s.pcs[j]? = some (.wBeg op)) (by
      intro s l s' hx hs
      cases step_stepped hs with
      | start i r o hx' =>
        have hne : j ≠ i := by
          rintro rfl
          rw [hx] at hx'
          cases hx'
        exact Or.inl ((get_set_ne hne).trans hx)
      | run i x y sh hx' hr =>
        by_cases e : j = i
        · subst e
          rw [hx] at hx'
          cases hx'
          cases hr
          exact Or.inr (get_set_self hx)
        · exact Or.inl ((get_set_ne e).trans hx)) m hm k hk
    rcases this with h | ⟨k', hk', h⟩
    · exact ⟨k, hk, Or.inl ⟨h, hi⟩⟩
    · exact ⟨k', hk', Or.inr h⟩
  -- the readers leave
  have l2 : e.LeadsTo (fun s => s.pcs[j]? = some (.wDrain op) ∧ s.sh.its = [])
      (fun s => (s.pcs[j]? = some (.wDrain op) ∧ s.sh.readers = 0) ∨ s.pcs[j]? = some (.wBeg op)) := by
    refine e.leadsTo_measure _ _ work ?_
    intro k m ⟨⟨hj, hi⟩, hk⟩
    by_cases hc : (e.at_ m).pcs.countP PC.shared = 0
    · refine ⟨m, Nat.le_refl m, Or.inr (Or.inl ⟨hj, ?_⟩)⟩
      have := (hK m).inv.readers
      rw [this, hc, hi]
      rfl
    · obtain ⟨t, x, hx, hsh⟩ := exists_of_countP_pos _ (Nat.pos_of_ne_zero hc)
      refine Prog.runs' e hf Known hK t x (active ?_)
        (fun s => (s.pcs[j]? = some (.wDrain op) ∧ s.sh.its = []) ∧ work s = k)
        (fun s => (s.pcs[j]? = some (.wDrain op) ∧ s.sh.its = []) ∧ work s < k ∨
          s.pcs[j]? = some (.wDrain op) ∧ s.sh.readers = 0 ∨ s.pcs[j]? = some (.wBeg op)) ?_ ?_ ?_ m
        ⟨hx, ⟨hj, hi⟩, hk⟩
      · rintro r rfl
        cases hsh
      · intro s l s' hs hs' hx ⟨⟨hj, hi⟩, hw⟩ hst hne
        obtain ⟨l, h⟩ : ∃ l, Stepped pref s l s' := ⟨l, stepped_of hst⟩
        rcases drain_step hs hj h with h | ⟨h1, h2, h3, -, -⟩
        · exact Or.inr (Or.inr (Or.inr h))
        · by_cases hlt : work s' < k
          · exact Or.inr (Or.inl ⟨⟨h1, h2 hi⟩, hlt⟩)
          · exact Or.inl ⟨⟨h1, h2 hi⟩, by omega⟩
      · intro s hs hx _
        have hnf := hs.find t x hx
        cases x with
        | rBeg o => rfl
        | rEnd o => rfl
        | rRel r => rfl
        | _ => first | (cases hnf; done) | (cases hsh; done)
      · intro s s' hs hs' hx ⟨⟨hj, hi⟩, hw⟩ hst
        rcases drain_step hs hj (stepped_of hst) with h | ⟨h1, h2, h3, -, h5⟩
        · exact Or.inr (Or.inr h)
        · exact Or.inl ⟨⟨h1, h2 hi⟩, hw ▸ h5 t x rfl hx hsh⟩
  -- the writer goes on
  have l3 : e.LeadsTo (fun s => s.pcs[j]? = some (.wDrain op) ∧ s.sh.readers = 0)
      (fun s => s.pcs[j]? = some (.wBeg op)) := by
    refine Prog.runs' e hf Known hK j (.wDrain op) (active nofun) (fun s => s.sh.readers = 0) _ ?_ ?_ ?_
    · intro s l s' hs hs' hx hr hst hne
      rcases drain_step hs hx (stepped_of hst) with h | ⟨-, -, -, h, -⟩
      · exact Or.inr h
      · exact Or.inl (h hr)
    · intro s hs hx hr
      show (run pref j s.sh (.wDrain op)).isSome
      simp [run, hr]
    · intro s s' hs hs' hx hr hst
      obtain ⟨sh, y, b, h, -, h2⟩ := Prog.stepped_run hst hx
      have h : run pref j s.sh (.wDrain op) = some (sh, y, b) := h
      cases (run_ran h).1
      exact h2
  exact l1.trans (.or (l2.trans (.or l3 (.refl e fun _ h => h))) (.refl e fun _ h => h))

include hf h0 hA hit in
/-- Without `find`, and if there is no iterator again and again, the mutex is always released again. -/
theorem frees : e.LeadsTo (fun _ => True) (fun s => s.sh.writer = none) := by
  intro m _
  have ho := (known e h0 hA m).owned
  cases hw : (e.at_ m).sh.writer with
  | none => exact ⟨m, Nat.le_refl m, hw⟩
  | some j =>
    obtain ⟨x, hx⟩ := ho.at_ j hw
    have hex := (ho.writer j x hx).2 hw
    have hc := crit_frees e hf j
    cases x with
    | wDrain op =>
      obtain ⟨k, hk, h⟩ := drains e hf h0 hA hit j op m hx
      obtain ⟨k', hk', h⟩ := hc k ⟨_, h, rfl⟩
      exact ⟨k', Nat.le_trans hk hk', h⟩
    | _ => first | exact hc m ⟨_, hx, rfl⟩ | cases hex

end

end Verif.SafeDatabase
