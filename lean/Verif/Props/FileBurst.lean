import Verif.Model.FileBurst
import Verif.Props.FileWatch
import Mathlib.Data.List.Chain
/-!
C183: bursts of changes.
-/
namespace Verif.FileBurst
open Verif.FileWatch

/-- The file `n` is modified. -/
def written (n : Str) : Ev := ⟨some n, false, false, true⟩

/-- The events that occur, in order. -/
def occurred : List In → List Ev
  | [] => []
  | .event e :: is => e :: occurred is
  | .read _ :: is => occurred is

theorem notes_append (f : Filter) (a b : List Ev) : notes f (a ++ b) = notes f a ++ notes f b := by
  simp [notes]

theorem push_sublist (limit : Nat) (f : Filter) (q : List Item) (e : Ev) :
    (notes f ((push limit q e).map Item.event)).Sublist (notes f (q.map Item.event ++ [e])) := by
  rw [notes_append]
  unfold push
  split
  · split
    · exact List.sublist_append_left _ _
    · rw [List.map_append, notes_append]
      exact List.Sublist.append_left (by
        have : notes f ([Item.overflow].map Item.event) = [] := rfl
        rw [this]; exact List.nil_sublist _) _
  · split
    · exact List.sublist_append_left _ _
    · rw [List.map_append, notes_append]; exact List.Sublist.refl _

/-- C183: whatever happens, what is noted are events that occurred, each at most once, in the order in which they
occurred. -/
theorem C183_order (limit : Nat) (f : Filter) (q : List Item) (is : List In) :
    ((run limit f q is).2 ++ notes f ((run limit f q is).1.map Item.event)).Sublist
      (notes f (q.map Item.event ++ occurred is)) := by
  induction is generalizing q with
  | nil => simp [run, occurred]
  | cons i is ih =>
    cases i with
    | event e =>
      simp only [run, occurred]
      refine (ih (push limit q e)).trans ?_
      rw [notes_append, show q.map Item.event ++ e :: occurred is = (q.map Item.event ++ [e]) ++ occurred is by simp,
        notes_append]
      exact List.Sublist.append (push_sublist limit f q e) (List.Sublist.refl _)
    | read k =>
      simp only [run, occurred]
      rw [List.append_assoc]
      have h : notes f (q.map Item.event ++ occurred is) =
          notes f ((q.take k).map Item.event) ++ notes f ((q.drop k).map Item.event ++ occurred is) := by
        rw [← notes_append, ← List.append_assoc, ← List.map_append, List.take_append_drop]
      rw [h]
      exact List.Sublist.append_left (ih (q.drop k)) _

theorem push_room {limit : Nat} {q : List Item} (e : Ev) (h : q.length < limit) : Item.ev e ∈ push limit q e := by
  unfold push
  rw [if_neg (Nat.not_le.2 h)]
  split
  · rename_i h1; exact List.mem_of_getLast? h1
  · simp

theorem push_keeps {limit : Nat} {q : List Item} (e : Ev) {x : Item} (h : x ∈ q) : x ∈ push limit q e := by
  unfold push
  split
  · split
    · exact h
    · exact List.mem_append_left _ h
  · split
    · exact h
    · exact List.mem_append_left _ h

theorem note_written (n : Str) (h : '/' ∉ n) : note (.file n) (written n) = some (n, .modified) := by
  have : (split n).2 = n := by rw [plain_split n h]
  simp [note, written, pass, this]

/-- What is in the queue is noted when it is read. -/
theorem queued (limit : Nat) (n : Str) (hn : '/' ∉ n) (q : List Item) (is : List In) (h : Item.ev (written n) ∈ q)
    (he : (run limit (.file n) q is).1 = []) : (n, Change.modified) ∈ (run limit (.file n) q is).2 := by
  induction is generalizing q with
  | nil => simp only [run] at he; subst he; cases h
  | cons i is ih =>
    cases i with
    | event e => exact ih _ (push_keeps e h) he
    | read k =>
      simp only [run] at he ⊢
      rw [← List.take_append_drop k q] at h
      rcases List.mem_append.1 h with h | h
      · refine List.mem_append_left _ ?_
        exact List.mem_filterMap.2 ⟨written n, List.mem_map.2 ⟨_, h, rfl⟩, note_written n hn⟩
      · exact List.mem_append_right _ (ih _ h he)

/-- The last part of a history. -/
theorem run_append (limit : Nat) (f : Filter) (q : List Item) (a b : List In) :
    run limit f q (a ++ b) =
      ((run limit f (run limit f q a).1 b).1, (run limit f q a).2 ++ (run limit f (run limit f q a).1 b).2) := by
  induction a generalizing q with
  | nil => simp [run]
  | cons i a ih =>
    cases i with
    | event e => simp only [List.cons_append, run]; rw [ih]
    | read k => simp only [List.cons_append, run]; rw [ih]; simp

/-- C183, what holds: if the queue has room when the file is modified, then the modification is noted afterwards, once
all has been read, whatever occurs and however events are merged: a reader of the file that is called then sees it.
Missing: modifications when the queue is full (`C183_negation_overflow`). -/
theorem C183_noted_partial (limit : Nat) (n : Str) (hn : '/' ∉ n) (before after : List In)
    (hr : (run limit (.file n) [] before).1.length < limit)
    (he : (run limit (.file n) [] (before ++ .event (written n) :: after)).1 = []) :
    ∃ r : List (Str × Change), (run limit (.file n) [] (before ++ .event (written n) :: after)).2 =
      (run limit (.file n) [] before).2 ++ r ∧ (n, Change.modified) ∈ r := by
  rw [run_append] at he ⊢
  refine ⟨_, rfl, ?_⟩
  simp only [run] at he ⊢
  exact queued limit n hn _ after (push_room _ hr) he

theorem single (limit : Nat) (h2 : 2 ≤ limit) (f : Filter) (e : Ev) (is : List In) (q : List Item)
    (hq : q = [] ∨ q = [.ev e]) (hs : ∀ x ∈ occurred is, x = e) :
    (run limit f q is).1 = [] ∨ (run limit f q is).1 = [.ev e] := by
  induction is generalizing q with
  | nil => exact hq
  | cons i is ih =>
    cases i with
    | event x =>
      have hx : x = e := hs x (by simp [occurred])
      subst hx
      have h1 : push limit q x = [.ev x] := by
        rcases hq with rfl | rfl
        · simp [push]; omega
        · simp [push]; omega
      exact ih (push limit q x) (Or.inr h1) (fun y hy => hs y (by simp [occurred, hy]))
    | read k =>
      refine ih (q.drop k) ?_ (fun y hy => hs y hy)
      rcases hq with rfl | rfl
      · simp
      · cases k with
        | zero => simp
        | succ k => simp

/-- C183: a file that is modified any number of times, while nothing else happens in its directory, never fills the
queue: equal events are merged, and whatever the number of modifications, the last one is noted. -/
theorem C183_alone (limit : Nat) (h2 : 2 ≤ limit) (n : Str) (hn : '/' ∉ n) (before after : List In)
    (ho : ∀ x ∈ occurred (before ++ .event (written n) :: after), x = written n)
    (he : (run limit (.file n) [] (before ++ .event (written n) :: after)).1 = []) :
    ∃ r : List (Str × Change), (run limit (.file n) [] (before ++ .event (written n) :: after)).2 =
      (run limit (.file n) [] before).2 ++ r ∧ (n, Change.modified) ∈ r := by
  refine C183_noted_partial limit n hn before after ?_ he
  have occurred_append : ∀ a b : List In, occurred (a ++ b) = occurred a ++ occurred b := by
    intro a b
    induction a with
    | nil => rfl
    | cons i a ih => cases i <;> simp [occurred, ih]
  have := (single limit h2 (.file n) (written n) before [] (Or.inl rfl)
    (fun x hx => ho x (by rw [occurred_append]; exact List.mem_append_left _ hx)))
  rcases this with h | h <;> rw [h] <;> simp <;> omega

theorem full_push {limit : Nat} {q : List Item} (e : Ev) (h : limit ≤ q.length) :
    push limit q e = q ∨ push limit q e = q ++ [.overflow] := by
  unfold push
  rw [if_pos h]
  split
  · exact Or.inl rfl
  · exact Or.inr rfl

theorem full_burst (limit : Nat) (f : Filter) (es : List Ev) (q : List Item) (h : limit ≤ q.length) :
    ∃ k : Nat, (run limit f q (es.map .event)).1 = q ++ List.replicate k .overflow ∧
      (run limit f q (es.map .event)).2 = [] := by
  induction es generalizing q with
  | nil => exact ⟨0, by simp [run]⟩
  | cons e es ih =>
    simp only [List.map_cons, run]
    rcases full_push e h with h1 | h1
    · rw [h1]; exact ih q h
    · rw [h1]
      obtain ⟨k, hk, hk'⟩ := ih (q ++ [.overflow]) (by simp; omega)
      exact ⟨k + 1, by rw [hk, List.append_assoc]; rfl, hk'⟩

theorem fill (limit : Nat) (f : Filter) (es : List Ev) (q : List Item)
    (hd : (q ++ es.map Item.ev).IsChain (· ≠ ·)) (hl : q.length + es.length ≤ limit) :
    run limit f q (es.map .event) = (q ++ es.map Item.ev, []) := by
  induction es generalizing q with
  | nil => simp [run]
  | cons e es ih =>
    simp only [List.map_cons, run]
    have hp : push limit q e = q ++ [.ev e] := by
      unfold push
      rw [if_neg (by simp at hl; omega), if_neg]
      intro hx
      obtain ⟨ys, rfl⟩ := List.getLast?_eq_some_iff.1 hx
      have := (List.isChain_append.1 hd).2.2 (.ev e) (by simp) (.ev e) (by simp)
      exact this rfl
    have := ih (q ++ [Item.ev e]) (by simpa using hd) (by simp at hl ⊢; omega)
    rw [hp, this]
    simp

/-- C183 fails when the queue is full: whatever the limit is, as many changes of other files of the directory, no two
equal ones after each other, fill it before the watch reads; the file may be modified any number of times then, and
nothing is noted, however often the watch reads afterwards: the `IN_Q_OVERFLOW` that the kernel sends is not looked at
(it has no name). -/
theorem C183_negation_overflow (limit : Nat) (n : Str) (others : List Ev)
    (hd : others.IsChain (· ≠ ·)) (hl : others.length = limit) (ho : ∀ e ∈ others, note (.file n) e = none)
    (times k : Nat) :
    (run limit (.file n) []
      (others.map .event ++ (List.replicate times (written n)).map .event ++ [.read k])).2 = [] := by
  have h1 : run limit (.file n) [] (others.map .event) = (others.map Item.ev, []) := by
    have := fill limit (.file n) others [] (by
      simp only [List.nil_append]
      rw [List.isChain_map]
      exact hd.imp (fun a b h c => h (by cases c; rfl))) (by simp; omega)
    simpa using this
  obtain ⟨m, hm, hm'⟩ := full_burst limit (.file n) (List.replicate times (written n)) (others.map Item.ev)
    (by simp; omega)
  rw [run_append, run_append, h1]
  simp only [hm, hm', List.append_nil, List.nil_append, run]
  unfold notes
  rw [List.filterMap_eq_nil_iff]
  intro e he
  obtain ⟨x, hx, rfl⟩ := List.mem_map.1 he
  rcases List.mem_append.1 (List.mem_of_mem_take hx) with hx | hx
  · obtain ⟨y, hy, rfl⟩ := List.mem_map.1 hx
    exact ho y hy
  · rw [(List.mem_replicate.1 hx).2]; rfl

/-- Two other files, written to by turns. -/
def turns (n : Str) : Nat → Bool → List Ev
  | 0, _ => []
  | k + 1, b => written (if b then 'x' :: n else 'y' :: n) :: turns n k (!b)

theorem turns_length (n : Str) (k : Nat) (b : Bool) : (turns n k b).length = k := by
  induction k generalizing b with
  | zero => rfl
  | succ k ih => simp [turns, ih]

theorem turns_chain (n : Str) (k : Nat) (b : Bool) : (turns n k b).IsChain (· ≠ ·) := by
  induction k generalizing b with
  | zero => exact .nil
  | succ k ih =>
    cases k with
    | zero => exact .singleton _
    | succ k =>
      refine List.IsChain.cons_cons ?_ (ih (!b))
      cases b <;> simp [written]

/-- C183 fails for every file and every limit of the queue: writing to two other files by turns, `limit` times in all,
hides any number of modifications of the file. -/
theorem C183_negation_any (limit : Nat) (n : Str) (hn : '/' ∉ n) :
    ∃ others : List Ev, others.length = limit ∧ (∀ e ∈ others, ∃ m : Str, m ≠ n ∧ '/' ∉ m ∧ e = written m) ∧
      ∀ times k : Nat, (run limit (.file n) []
        (others.map .event ++ (List.replicate times (written n)).map .event ++ [.read k])).2 = [] := by
  have hm : ∀ (k : Nat) (b : Bool), ∀ e ∈ turns n k b, ∃ m : Str, m ≠ n ∧ '/' ∉ m ∧ e = written m := by
    intro k
    induction k with
    | zero => intro b e he; cases he
    | succ k ih =>
      intro b e he
      rcases List.mem_cons.1 he with rfl | he
      · cases b
        · exact ⟨'y' :: n, by simp, by simp [hn], rfl⟩
        · exact ⟨'x' :: n, by simp, by simp [hn], rfl⟩
      · exact ih _ e he
  refine ⟨turns n limit true, turns_length n limit true, hm limit true, fun times k => ?_⟩
  refine C183_negation_overflow limit n _ (turns_chain n limit true) (turns_length n limit true) ?_ times k
  intro e he
  obtain ⟨m, h1, h2, rfl⟩ := hm limit true e he
  have : (split m).2 = m := by rw [plain_split m h2]
  simp [note, written, pass, this, h1]

/-- Non-trivial case for `C183_noted_partial` and `C183_alone`: modifications are merged, and the last is noted. -/
example :
    run 3 (.file c!"a") [] [.event (written c!"a"), .event (written c!"a"), .event (written c!"b"), .read 1,
      .event (written c!"a"), .read 5] = ([], [(c!"a", .modified), (c!"a", .modified)]) ∧
    run 2 (.file c!"a") [] ([.event (written c!"a"), .read 1, .event (written c!"a"), .event (written c!"a"),
      .event (written c!"a"), .read 1]) = ([], [(c!"a", .modified), (c!"a", .modified)]) := by
  decide

/-- Non-trivial case for `C183_negation_overflow`: two other files are written to by turns; this can be done for any
limit. -/
example : [written c!"x", written c!"y", written c!"x"].IsChain (· ≠ ·) ∧
    (∀ e ∈ [written c!"x", written c!"y", written c!"x"], note (.file c!"a") e = none) ∧
    (run 3 (.file c!"a") [] ([written c!"x", written c!"y", written c!"x", written c!"a"].map .event)).1.getLast? =
      some .overflow := by
  decide

end Verif.FileBurst
