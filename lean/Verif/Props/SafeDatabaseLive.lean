import Verif.Lemmas.SafeDatabaseLive
/-!
C86, C87: the calls of `SafeDatabase` return.
-/
namespace Verif.SafeDatabase
open Verif.Threads

variable {V : Type} {pref : Bool}

/-- A call that was started is at its first step. -/
theorem started {e : (prog V pref).system.Execution} {n i : Nat} {op : Op V}
    (h : e.label n = some (.start i op)) : (e.at_ (n + 1)).pcs[i]? = some (entry op) := by
  rcases e.next n with ⟨hn, -⟩ | ⟨l, hl, hs⟩
  · rw [h] at hn
    cases hn
  · rw [h] at hl
    cases hl
    have hs := step_stepped hs
    generalize e.at_ (n + 1) = s' at hs
    cases hs with
    | start _ r _ hx => exact get_set_self hx

/-- C86 is false with a mutex that lets waiting writers go first: `find` takes its lock, a writer comes,
and the constructor of the iterator, in the same thread, waits for a second lock; nothing can happen any
more. -/
theorem C86_negation : ∃ s : Conf (prog Nat true),
    (prog Nat true).system.ReachableBy (fun op => op = .find 1 ∨ op = .erase 1) (init Nat true 2) s ∧
      (∀ (i : Nat) (r : Option (Ret Nat)), s.pcs[i]? ≠ some (.idle r)) ∧ ∀ l, (prog Nat true).system.step s l = none := by
  refine ⟨⟨⟨[], some 1, 1, [], 0, 0, 0, false, [(0, .find 1, .pos none)]⟩, [.fLock none, .wDrain (.erase 1)]⟩,
    (prog Nat true).system.exec_reachable
      [.start 0 (.find 1), .run 0, .start 1 (.erase 1), .run 1, .run 0, .run 0] ?_ .init rfl, ?_, ?_⟩
  · simp [Label.Allowed]
  · intro i r h
    match i with
    | 0 => cases h
    | 1 => cases h
    | i + 2 => cases h
  · intro l
    cases l with
    | start i op =>
      match i with
      | 0 => rfl
      | 1 => rfl
      | i + 2 => rfl
    | run i =>
      match i with
      | 0 => rfl
      | 1 => rfl
      | i + 2 => rfl
    | spurious i =>
      match i with
      | 0 => rfl
      | 1 => rfl
      | i + 2 => rfl
    | timeout i =>
      match i with
      | 0 => rfl
      | 1 => rfl
      | i + 2 => rfl

/-- C86, what holds: with a mutex that lets readers in while writers wait, `find` returns an iterator,
whatever other threads do.  Missing: other mutexes, see `C86_negation`. -/
theorem C86_find_partial {n : Nat} (e : (prog V false).system.Execution) (hf : e.Fair)
    (h0 : e.at_ 0 = init V false n) {m i k : Nat} (hs : e.label m = some (.start i (.find k))) :
    ∃ m', m < m' ∧ ∃ h, (e.at_ m').pcs[i]? = some (.idle (some (.iter h))) := by
  obtain ⟨m', hm, h⟩ := find_returns e hf (frees_readers_first e hf h0) i k (m + 1) (started hs)
  exact ⟨m', hm, h⟩

/-- C87 for the calls that do not write: with a mutex that lets readers in while writers wait they
return. -/
theorem C87_readers {n : Nat} (e : (prog V false).system.Execution) (hf : e.Fair)
    (h0 : e.at_ 0 = init V false n) {m i : Nat} {op : Op V} (hs : e.label m = some (.start i op))
    (hop : (∀ k v, op ≠ .add k v) ∧ (∀ k v, op ≠ .modify k v) ∧ (∀ k v, op ≠ .addOrModify k v) ∧
      ∀ k, op ≠ .erase k) :
    ∃ m', m < m' ∧ ∃ r, (e.at_ m').pcs[i]? = some (.idle r) := by
  obtain ⟨m', hm, h⟩ := read_returns e hf (frees_readers_first e hf h0) i op (by
    intro o h
    cases op with
    | add k v => exact hop.1 k v rfl
    | modify k v => exact hop.2.1 k v rfl
    | addOrModify k v => exact hop.2.2.1 k v rfl
    | erase k => exact hop.2.2.2 k rfl
    | _ => cases h) (m + 1) (started hs)
  exact ⟨m', hm, h⟩

/-- C87: with a mutex that lets waiting writers go first every call returns, writers included, as long as
`find` is not used (`C86_negation`) nor iterators copied, and clients destroy their iterators: again and
again there is a moment without iterators. -/
theorem C87_all {n : Nat} (e : (prog V true).system.Execution) (hf : e.Fair)
    (h0 : e.at_ 0 = init V true n)
    (hA : ∀ m i op, e.label m = some (.start i op) → (∀ k, op ≠ .find k) ∧ ∀ h, op ≠ .copy h)
    (hit : ∀ m, ∃ k, m ≤ k ∧ (e.at_ k).sh.its = []) {m i : Nat} {op : Op V}
    (hs : e.label m = some (.start i op)) : ∃ m', m < m' ∧ ∃ r, (e.at_ m').pcs[i]? = some (.idle r) := by
  have hA' : ∀ m l, e.label m = some l → l.Allowed noFind := by
    intro m l hl
    cases l with
    | start i op =>
      have := hA m i op hl
      cases op with
      | find k => exact this.1 k rfl
      | copy h => exact this.2 h rfl
      | _ => trivial
    | _ => trivial
  have hfree := frees e hf h0 hA' hit
  suffices h : e.LeadsTo (fun s => s.pcs[i]? = some (entry op)) (Returned i) by
    obtain ⟨m', hm, h⟩ := h (m + 1) (started hs)
    exact ⟨m', hm, h⟩
  by_cases hop : ∃ o, entry op = .wAcq o
  · obtain ⟨o, ho⟩ := hop
    have h1 : e.LeadsTo (fun s => s.pcs[i]? = some (.wAcq o))
        (fun s => s.pcs[i]? = some (.wBeg o) ∨ s.pcs[i]? = some (.wDrain o)) :=
      acquires e hf hfree i _ (by nofun) _ (fun s h => by
          simp only [run, h, Option.isSome_none, Bool.false_eq_true, if_false, if_true]
          split <;> rfl)
        (fun s sh y hr s' _ h => by
          cases hr with
          | wAcq _ _ _ => exact Or.inl h
          | wWait _ _ _ _ => exact Or.inr h)
    rw [ho]
    exact h1.trans (.or (write_returns e hf i o)
      ((drains e hf h0 hA' hit i o).trans (write_returns e hf i o)))
  · exact read_returns e hf hfree i op (fun o h => hop ⟨o, h⟩)

/-- Thread 0 finds 1 while thread 1 wants to erase it. -/
def overlap : List (Label (Op Nat)) :=
  [.start 0 (.find 1), .run 0, .start 1 (.erase 1), .run 0, .run 0, .run 0, .run 0]

/-- Non-trivial case for `C86_find_partial` and `C87_readers`: a fair execution in which a writer waits
while thread 0, inside `find`, already has its first lock; the writer waits for ever as the iterator is
not destroyed. -/
example : ∃ e : (prog Nat false).system.Execution, e.Fair ∧ e.at_ 0 = init Nat false 2 ∧
    e.label 0 = some (.start 0 (.find 1)) ∧
    (e.at_ 3).pcs = [.fBeg 1, .wAcq (.erase 1)] ∧ (e.at_ 7).pcs = [.idle (some (.iter 0)), .wAcq (.erase 1)] := by
  have h1 : (prog Nat false).system.exec (init Nat false 2) overlap =
      some ⟨⟨[], none, 1, [(0, 0, none)], 1, 0, 0, false, [(0, .find 1, .pos none)]⟩,
        [.idle (some (.iter 0)), .wAcq (.erase 1)]⟩ := rfl
  obtain ⟨e, hf, e0, hst, hlab⟩ := (prog Nat false).system.finite_fair' _ _ overlap h1 (by
    intro i
    match i with
    | 0 => rfl
    | 1 => rfl
    | i + 2 => rfl)
  refine ⟨e, hf, e0, hlab 0, ?_, ?_⟩
  · obtain ⟨s, hs, he⟩ := hst 3
    rw [he]
    cases hs
    rfl
  · obtain ⟨s, hs, he⟩ := hst 7
    rw [he]
    cases hs
    rfl

/-- Thread 0 asks for the size while thread 1 wants to add an element. -/
def overlap' : List (Label (Op Nat)) :=
  [.start 0 .size, .run 0, .start 1 (.add 1 5), .run 1, .run 0, .run 0, .run 0, .run 1, .run 1, .run 1, .run 1,
   .run 1]

/-- Non-trivial case for `C87_all`: the writer waits for the reader. -/
example : ∃ e : (prog Nat true).system.Execution, e.Fair ∧ e.at_ 0 = init Nat true 2 ∧
    (∀ m i op, e.label m = some (.start i op) → (∀ k, op ≠ .find k) ∧ ∀ h, op ≠ .copy h) ∧
    (∀ m, ∃ k, m ≤ k ∧ (e.at_ k).sh.its = []) ∧ e.label 2 = some (.start 1 (.add 1 5)) ∧
    (e.at_ 4).pcs = [.rBeg .size, .wDrain (.add 1 5)] ∧
    (e.at_ 12).pcs = [.idle (some (.num 0)), .idle (some (.bool true))] := by
  have h1 : (prog Nat true).system.exec (init Nat true 2) overlap' =
      some ⟨⟨[(1, 5)], none, 0, [], 0, 0, 0, false, [(0, .size, .num 0), (1, .add 1 5, .bool true)]⟩,
        [.idle (some (.num 0)), .idle (some (.bool true))]⟩ := rfl
  obtain ⟨e, hf, e0, hst, hlab⟩ := (prog Nat true).system.finite_fair' _ _ overlap' h1 (by
    intro i
    match i with
    | 0 => rfl
    | 1 => rfl
    | i + 2 => rfl)
  refine ⟨e, hf, e0, ?_, ?_, hlab 2, ?_, ?_⟩
  · intro m i op h
    have key : ∀ l : Label (Op Nat), l ∈ overlap' →
        ∀ i op, l = .start i op → (∀ k, op ≠ .find k) ∧ ∀ h, op ≠ .copy h := by
      simp [overlap']
    exact key _ (List.mem_of_getElem? ((hlab m).symm.trans h)) i op rfl
  · intro m
    obtain ⟨s', hs', he'⟩ := hst (m + 12)
    have ht : overlap'.take (m + 12) = overlap' := List.take_of_length_le (by show 12 ≤ _; omega)
    have := h1.symm.trans ((congrArg _ ht).symm.trans hs')
    refine ⟨m + 12, by omega, ?_⟩
    rw [he', ← Option.some.inj this]
  · obtain ⟨s, hs, he⟩ := hst 4
    rw [he]
    cases hs
    rfl
  · obtain ⟨s, hs, he⟩ := hst 12
    rw [he]
    cases hs
    rfl

end Verif.SafeDatabase
