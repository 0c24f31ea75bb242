import Verif.Model.CommandReader
import Verif.Lemmas.Strings
/-!
C45: quoted arguments.
-/
namespace Verif.CommandReader
open Verif.Spec Verif.Strings

/-- Cutting a line at its spaces. -/
def words : Str → List Str
  | [] => [[]]
  | c :: s =>
    if c = ' ' then [] :: words s
    else match words s with
      | [] => [[c]]
      | w :: ws => (c :: w) :: ws

theorem words_ne_nil (s : Str) : words s ≠ [] := by
  cases s with
  | nil => simp [words]
  | cons c s =>
    unfold words
    split
    · simp
    · split <;> simp

theorem words_append (s t : Str) : words (s ++ ' ' :: t) = words s ++ words t := by
  induction s with
  | nil => simp [words]
  | cons c s ih =>
    simp only [List.cons_append, words, ih]
    by_cases h : c = ' '
    · simp [h]
    · simp only [h, if_false]
      cases hw : words s with
      | nil => exact absurd hw (words_ne_nil s)
      | cons w ws => simp

theorem words_free (s : Str) (h : ' ' ∉ s) : words s = [s] := by
  induction s with
  | nil => rfl
  | cons c s ih =>
    simp only [List.mem_cons, not_or] at h
    have : c ≠ ' ' := fun e => h.1 e.symm
    simp [words, this, ih h.2]

theorem cut_at_space (s : Str) : ' ' ∉ s ∨ ∃ p q, s = p ++ ' ' :: q ∧ ' ' ∉ p := by
  induction s with
  | nil => simp
  | cons c s ih =>
    by_cases h : c = ' '
    · right
      exact ⟨[], s, by simp [h], by simp⟩
    · rcases ih with h' | ⟨p, q, e, hp⟩
      · left
        simp only [List.mem_cons, not_or]
        exact ⟨fun e => h e.symm, h'⟩
      · right
        refine ⟨c :: p, q, by rw [e]; rfl, ?_⟩
        simp only [List.mem_cons, not_or]
        exact ⟨fun e => h e.symm, hp⟩

theorem words_cut (s : Str) : LeftmostCut [' '] s (words s) := by
  suffices H : ∀ n (s : Str), s.length = n → LeftmostCut [' '] s (words s) from H _ s rfl
  intro n
  induction n using Nat.strongRecOn with
  | _ n ih =>
    intro s hs
    rcases cut_at_space s with h | ⟨p, q, rfl, hp⟩
    · rw [words_free s h]
      exact .last (by rwa [contains_singleton])
    · rw [words_append, words_free p hp]
      refine .cut ⟨by simp, ?_⟩ (ih q.length (by simp at hs; omega) q rfl)
      rintro j hj ⟨a, b, e, rfl⟩
      apply hp
      have h1 : (p ++ ' ' :: q)[a.length]? = some ' ' := by rw [e]; simp
      rw [List.getElem?_append_left hj] at h1
      exact List.mem_of_getElem? h1

theorem arguments_eq (line : Str) : arguments line = some (joinLoop none (words line)) := by
  obtain ⟨ps, h1, h2⟩ := split_spec (s := line) (d := [' ']) (by simp)
  rw [leftmostCut_unique h2 (words_cut line)] at h1
  simp [arguments, h1]

/-- An argument as the user types it. -/
inductive Typed
  | plain (w : Str)
  | quoted (q : Str)

/-- Words have no space and do not start with a quote; quoted phrases contain no quote and do not start
with a space. -/
def Typed.Ok : Typed → Prop
  | .plain w => ' ' ∉ w ∧ w.head? ≠ some '"'
  | .quoted q => '"' ∉ q ∧ q.head? ≠ some ' '

def Typed.text : Typed → Str
  | .plain w => w
  | .quoted q => '"' :: (q ++ ['"'])

def Typed.value : Typed → Str
  | .plain w => w
  | .quoted q => q

theorem emit_quoted (q : Str) (h : q.length + 2 < 18446744073709551616) :
    emit ('"' :: (q ++ ['"'])) = q := by
  have hl : ('"' :: (q ++ ['"'])).getLast? = some '"' := by
    rw [← List.cons_append, List.getLast?_append]; rfl
  unfold emit
  simp only [hl, if_true]
  have e : (('"' :: (q ++ ['"'])).length + (18446744073709551616 - 2)) % 18446744073709551616 =
      q.length := by
    simp only [List.length_cons, List.length_append, List.length_nil]
    omega
  rw [e]
  simp

theorem emit_open (q : Str) (h : q.length + 1 < 18446744073709551616)
    (hq : ('"' :: q).getLast? ≠ some '"') : emit ('"' :: q) = q := by
  unfold emit
  simp only [hq, if_false]
  have e : (('"' :: q).length + (18446744073709551616 - 1)) % 18446744073709551616 = q.length := by
    simp only [List.length_cons]
    omega
  rw [e]
  simp

theorem last_space (j p : Str) (hp : '"' ∉ p) : (j ++ ' ' :: p).getLast? ≠ some '"' := by
  intro h
  rw [List.getLast?_append] at h
  cases hl : (' ' :: p).getLast? with
  | none => simp at hl
  | some c =>
    rw [hl] at h
    simp only [Option.some_or, Option.some.injEq] at h
    subst h
    have := List.mem_of_getLast? hl
    simp [hp] at this

/-- Joining goes on to the closing quote. -/
theorem join_closed (x : Str) (hx : '"' ∉ x) (j : Str) (rest : List Str) :
    joinLoop (some j) (words (x ++ ['"']) ++ rest) =
      emit (j ++ ' ' :: (x ++ ['"'])) :: joinLoop none rest := by
  suffices H : ∀ n (x : Str), x.length = n → '"' ∉ x → ∀ j, joinLoop (some j)
      (words (x ++ ['"']) ++ rest) = emit (j ++ ' ' :: (x ++ ['"'])) :: joinLoop none rest from
    H _ x rfl hx j
  intro n
  induction n using Nat.strongRecOn with
  | _ n ih =>
    intro x hn hx j
    rcases cut_at_space x with h | ⟨p, q, rfl, hp⟩
    · rw [words_free _ (by simp [h])]
      have hl : (j ++ ' ' :: (x ++ ['"'])).getLast? = some '"' := by
        have : j ++ ' ' :: (x ++ ['"']) = (j ++ ' ' :: x) ++ ['"'] := by simp
        rw [this, List.getLast?_append]; rfl
      simp [joinLoop, hl]
    · have hp' : '"' ∉ p := fun hm => hx (by simp [hm])
      have hq' : '"' ∉ q := fun hm => hx (by simp [hm])
      have e : p ++ ' ' :: q ++ ['"'] = p ++ ' ' :: (q ++ ['"']) := by simp
      rw [e, words_append, words_free p hp]
      have hl := last_space j p hp'
      simp only [List.cons_append, List.nil_append, joinLoop, hl, if_false]
      rw [ih q.length (by simp at hn; omega) q rfl hq']
      simp

/-- Joining goes on to the end of the line when the quote is not closed. -/
theorem join_open (x : Str) (hx : '"' ∉ x) (j : Str) :
    joinLoop (some j) (words x) = [emit (j ++ ' ' :: x)] := by
  suffices H : ∀ n (x : Str), x.length = n → '"' ∉ x → ∀ j, joinLoop (some j) (words x) =
      [emit (j ++ ' ' :: x)] from H _ x rfl hx j
  intro n
  induction n using Nat.strongRecOn with
  | _ n ih =>
    intro x hn hx j
    rcases cut_at_space x with h | ⟨p, q, rfl, hp⟩
    · rw [words_free _ h]
      have hl := last_space j x hx
      simp [joinLoop, hl]
    · have hp' : '"' ∉ p := fun hm => hx (by simp [hm])
      have hq' : '"' ∉ q := fun hm => hx (by simp [hm])
      rw [words_append, words_free p hp]
      have hl := last_space j p hp'
      simp only [List.cons_append, List.nil_append, joinLoop, hl, if_false]
      rw [ih q.length (by simp at hn; omega) q rfl hq']
      simp

theorem last_quote_free (p : Str) (hp : '"' ∉ p) (hne : p ≠ []) : ('"' :: p).getLast? ≠ some '"' := by
  intro h
  rw [List.getLast?_cons_of_ne_nil hne] at h
  exact hp (List.mem_of_getLast? h)

theorem join_one (a : Typed) (ha : a.Ok) (hlen : a.text.length < 18446744073709551616)
    (rest : List Str) :
    joinLoop none (words a.text ++ rest) = a.value :: joinLoop none rest := by
  cases a with
  | plain w =>
    obtain ⟨h1, h2⟩ := ha
    simp [Typed.text, Typed.value, words_free w h1, joinLoop, h2]
  | quoted q =>
    obtain ⟨h1, h2⟩ := ha
    have hl : q.length + 2 < 18446744073709551616 := by simpa [Typed.text] using hlen
    simp only [Typed.text, Typed.value]
    rcases cut_at_space q with h | ⟨p, r, rfl, hp⟩
    · rw [words_free _ (by simp [h])]
      have hl' : ('"' :: (q ++ ['"'])).getLast? = some '"' := by
        rw [← List.cons_append, List.getLast?_append]; rfl
      simp only [List.cons_append, List.nil_append, joinLoop, List.head?_cons, if_true]
      simp only [hl', if_true]
      rw [emit_quoted q hl]
    · have hne : p ≠ [] := by
        rintro rfl
        exact h2 rfl
      have hp' : '"' ∉ p := fun hm => h1 (by simp [hm])
      have hr' : '"' ∉ r := fun hm => h1 (by simp [hm])
      have e : '"' :: (p ++ ' ' :: r ++ ['"']) = ('"' :: p) ++ ' ' :: (r ++ ['"']) := by simp
      have e' : '"' :: p ++ ' ' :: (r ++ ['"']) = '"' :: (p ++ ' ' :: r ++ ['"']) := by simp
      rw [e, words_append, words_free ('"' :: p) (by simp [hp])]
      have hl' := last_quote_free p hp' hne
      simp only [List.cons_append, List.nil_append, joinLoop, List.head?_cons, if_true, hl', if_false]
      rw [join_closed r hr']
      rw [e', emit_quoted _ hl]

/-- The line typed for some arguments: separated by one space. -/
def lineOf : List Typed → Str
  | [] => []
  | [a] => a.text
  | a :: b :: rest => a.text ++ ' ' :: lineOf (b :: rest)

/-- C45: typing arguments, each a word or a quoted phrase, gives back exactly those arguments.  Missing
for the full property: quoted phrases that start with a space (see `C45_negation`). -/
theorem C45_roundtrip_partial (args : List Typed) (hne : args ≠ []) (hok : ∀ a ∈ args, a.Ok)
    (hlen : (lineOf args).length < 18446744073709551616) :
    arguments (lineOf args) = some (args.map Typed.value) := by
  rw [arguments_eq]
  congr 1
  induction args with
  | nil => exact absurd rfl hne
  | cons a rest ih =>
    cases rest with
    | nil =>
      have := join_one a (hok a (by simp)) hlen []
      simpa [lineOf, joinLoop] using this
    | cons b rest =>
      simp only [lineOf, List.length_append, List.length_cons] at hlen
      simp only [lineOf]
      rw [words_append, join_one a (hok a (by simp)) (by omega),
        ih (by simp) (fun x hx => hok x (by simp [hx])) (by omega)]
      rfl

/-- C45: a phrase whose quote is not closed takes the rest of the line. -/
theorem C45_open (args : List Typed) (hok : ∀ a ∈ args, a.Ok) (q : Str) (hq : '"' ∉ q)
    (h0 : q.head? ≠ some ' ') (hlen : (lineOf args).length + q.length + 2 < 18446744073709551616)
    (hne : args ≠ []) :
    arguments (lineOf args ++ ' ' :: '"' :: q) = some (args.map Typed.value ++ [q]) := by
  have tail : joinLoop none (words ('"' :: q)) = [q] := by
    by_cases hq0 : q = []
    · subst hq0; decide
    · rcases cut_at_space q with h | ⟨p, r, rfl, hp⟩
      · have hl := last_quote_free q hq hq0
        rw [words_free _ (by simp [h])]
        simp only [joinLoop, List.head?_cons, if_true, hl, if_false]
        rw [emit_open q (by omega) hl]
      · have hne' : p ≠ [] := by rintro rfl; exact h0 rfl
        have hp' : '"' ∉ p := fun hm => hq (by simp [hm])
        have hr' : '"' ∉ r := fun hm => hq (by simp [hm])
        have hl := last_quote_free p hp' hne'
        have e : '"' :: (p ++ ' ' :: r) = ('"' :: p) ++ ' ' :: r := by simp
        have hl2 := last_quote_free (p ++ ' ' :: r) hq (by simp)
        rw [e, words_append, words_free ('"' :: p) (by simp [hp])]
        simp only [List.cons_append, List.nil_append, joinLoop, List.head?_cons, if_true, hl, if_false]
        rw [join_open r hr', List.cons_append, emit_open _ (by omega) hl2]
  rw [arguments_eq]
  congr 1
  induction args with
  | nil => exact absurd rfl hne
  | cons a rest ih =>
    cases rest with
    | nil =>
      simp only [lineOf] at hlen ⊢
      rw [words_append, join_one a (hok a (by simp)) (by omega), tail]
      rfl
    | cons b rest =>
      simp only [lineOf, List.length_append, List.length_cons] at hlen
      have e : lineOf (a :: b :: rest) ++ ' ' :: '"' :: q =
          a.text ++ ' ' :: (lineOf (b :: rest) ++ ' ' :: '"' :: q) := by simp [lineOf]
      rw [e, words_append, join_one a (hok a (by simp)) (by omega),
        ih (fun x hx => hok x (by simp [hx])) (by omega) (by simp)]
      rfl

/-- C45: every line gives at least one argument, so that the command word can be read; a line without
quotes is just cut at its spaces. -/
theorem C45_nonempty (line : Str) :
    (∃ a as, arguments line = some (a :: as)) ∧
    ('"' ∉ line → ∃ ws, SplitReturns line [' '] ws ∧ arguments line = some ws) := by
  rw [arguments_eq]
  have some_ne : ∀ ts j, joinLoop (some j) ts ≠ [] := by
    intro ts
    induction ts with
    | nil => intro j; simp [joinLoop]
    | cons t ts ih =>
      intro j
      simp only [joinLoop]
      split
      · simp
      · exact ih _
  constructor
  · have : joinLoop none (words line) ≠ [] := by
      cases hw : words line with
      | nil => exact absurd hw (words_ne_nil line)
      | cons t ts =>
        simp only [joinLoop]
        split
        · split
          · simp
          · exact some_ne _ _
        · simp
    cases hj : joinLoop none (words line) with
    | nil => exact absurd hj this
    | cons a as => exact ⟨a, as, rfl⟩
  · intro hq
    refine ⟨words line, ?_, ?_⟩
    · obtain ⟨ps, h1, h2⟩ := split_spec (s := line) (d := [' ']) (by simp)
      rw [leftmostCut_unique h2 (words_cut line)] at h1
      exact (splitReturns_iff_split (by simp)).2 h1
    · congr 1
      have hin : ∀ w ∈ words line, '"' ∉ w := by
        intro w hw hm
        exact hq ((leftmostCut_infix (words_cut line) w hw).subset hm)
      generalize words line = ws at hin
      induction ws with
      | nil => rfl
      | cons w ws ih =>
        have hw : w.head? ≠ some '"' := by
          intro h
          exact hin w (by simp) (List.mem_of_head? h)
        simp only [joinLoop, hw, if_false]
        rw [ih (fun x hx => hin x (by simp [hx]))]

/-- C45 fails for a quoted phrase that starts with a space: the opening quote alone is taken for a
complete (empty) phrase. -/
theorem C45_negation : arguments c!"say \" a b\"" = some [c!"say", [], c!"a", c!"b\""] := by decide

/-- Non-trivial case. -/
example : arguments c!"send \"hello big world\" now \"\"" =
    some [c!"send", c!"hello big world", c!"now", []] := by decide

end Verif.CommandReader
