import Verif.Model.File
import Verif.Props.Strings
/-!
C20: reading files.
-/
namespace Verif.File
open Verif.Strings

/-- Specification: the text made of the given lines, each ended by a newline. -/
def unlines (ls : List Str) : Str := (ls.map (· ++ ['\n'])).flatten

/-- Specification: the lines of a text.  Every line is free of newlines and the lines,
each ended by a newline, give the text back up to a missing newline at its end. -/
def LinesOf (content : Str) (ls : List Str) : Prop :=
  (∀ l ∈ ls, '\n' ∉ l) ∧
  (unlines ls = content ∨ (unlines ls = content ++ ['\n'] ∧ content ≠ [] ∧ content.getLast? ≠ some '\n'))

theorem getLines_spec (cs : Str) : ∀ (cur : Str) (started : Bool), '\n' ∉ cur →
    (started = false → cur = []) → (started = true → cur ≠ []) →
    LinesOf (cur ++ cs) (getLines cs cur started) := by
  induction cs with
  | nil =>
    intro cur st hc h1 h2
    unfold getLines
    cases st with
    | false => simp [h1 rfl, LinesOf, unlines]
    | true =>
      refine ⟨by simpa using hc, .inr ⟨by simp [unlines], by simpa using h2 rfl, ?_⟩⟩
      intro h
      have := List.mem_of_getLast? h
      simp at this; exact hc this
  | cons c cs ih =>
    intro cur st hc h1 h2
    unfold getLines
    by_cases h : c = '\n'
    · subst h
      obtain ⟨ha, hb⟩ := ih [] false (by simp) (by simp) (by simp)
      simp only [if_true]
      refine ⟨?_, ?_⟩
      · intro l hl
        rcases List.mem_cons.1 hl with rfl | hl
        · exact hc
        · exact ha l hl
      · rcases hb with hb | ⟨hb, hne, hlast⟩
        · left
          simp [unlines] at hb ⊢
          exact hb
        · right
          refine ⟨?_, by simp, ?_⟩
          · simp [unlines] at hb ⊢; exact hb
          · simp at hne hlast ⊢
            obtain ⟨x, xs, rfl⟩ := List.exists_cons_of_ne_nil hne
            simpa [List.getLast?_cons] using hlast
    · simp only [h, if_false]
      have := ih (cur ++ [c]) true (by simp [hc]; exact fun e => h e.symm) (by simp) (by simp)
      simpa using this

theorem linesOf_unique (content : Str) (ls ms : List Str) (h : LinesOf content ls)
    (h' : LinesOf content ms) : ls = ms := by
  have H : ∀ (ls ms : List Str), (∀ l ∈ ls, '\n' ∉ l) → (∀ l ∈ ms, '\n' ∉ l) →
      unlines ls = unlines ms → ls = ms := by
    intro ls
    induction ls with
    | nil =>
      intro ms _ _ he
      cases ms with
      | nil => rfl
      | cons m ms => simp [unlines] at he
    | cons l ls ih =>
      intro ms h1 h2 he
      cases ms with
      | nil => simp [unlines] at he
      | cons m ms =>
        simp only [unlines, List.map_cons, List.flatten_cons, List.append_assoc] at he
        have key : ∀ (l m a b : Str), '\n' ∉ l → '\n' ∉ m → l ++ ('\n' :: a) = m ++ ('\n' :: b) →
            l = m ∧ a = b := by
          intro l
          induction l with
          | nil =>
            intro m a b _ hm he
            cases m with
            | nil => simpa using he
            | cons x m => simp at he hm; exact absurd he.1 hm.1
          | cons y l ih =>
            intro m a b hl hm he
            cases m with
            | nil => simp at he hl; exact absurd he.1.symm hl.1
            | cons x m =>
              simp at he hl hm
              obtain ⟨h1, h2⟩ := ih m a b hl.2 hm.2 he.2
              exact ⟨by rw [he.1, h1], h2⟩
        obtain ⟨e1, e2⟩ := key l m _ _ (h1 l (by simp)) (h2 m (by simp)) he
        rw [e1, ih ms (fun x hx => h1 x (by simp [hx])) (fun x hx => h2 x (by simp [hx])) e2]
  obtain ⟨a1, a2⟩ := h
  obtain ⟨b1, b2⟩ := h'
  have lastu : ∀ ls : List Str, unlines ls = [] ∨ (unlines ls).getLast? = some '\n' := by
    intro ls
    rcases List.eq_nil_or_concat ls with rfl | ⟨a, b, rfl⟩
    · left; rfl
    · right; simp [unlines, List.getLast?_append]
  apply H ls ms a1 b1
  rcases a2 with a2 | ⟨a2, a3, a4⟩ <;> rcases b2 with b2 | ⟨b2, b3, b4⟩
  · rw [a2, b2]
  · rcases lastu ls with h | h
    · rw [a2] at h; exact absurd h b3
    · rw [a2] at h; exact absurd h b4
  · rcases lastu ms with h | h
    · rw [b2] at h; exact absurd h a3
    · rw [b2] at h; exact absurd h a4
  · rw [a2, b2]

theorem strip_eq (s : Str) : strip s = some (s.filter fun c => c ≠ '\n' ∧ c ≠ '\r') := by
  have key : ∀ (c : Char) (st : Str), replaceAllFuel [c] [] (st.length + 1) st 0 =
      some (st.count c, st.filter (· ≠ c)) := by
    intro c st
    have h := replaceAllReturns_iff.1 (replaceAll_char_filter c st)
    have h1 := replaceAllFuel_complete h.1 h.2 0
    have hc : st.count c ≤ st.length := List.count_le_length
    have h2 := replaceAllFuel_mono h1 (st.length - st.count c)
    rw [show st.count c + 1 + (st.length - st.count c) = st.length + 1 by omega] at h2
    simpa using h2
  unfold strip defaultUndesired
  simp only [List.foldl_cons, List.foldl_nil, Option.bind_some, key, Option.map_some, List.filter_filter]
  congr 2
  funext c
  simp [Bool.and_comm]

theorem fold_keep (b1 b2 : Bool) (ls : List Str) (acc : List Str) :
    ls.foldl (fun acc l => acc.bind fun r => keepLine b1 b2 r l) (some acc) =
      some (acc ++ (ls.map fun l => if b1 then l.filter (fun c => c ≠ '\n' ∧ c ≠ '\r') else l).filter
        (fun l => !(b2 && l.isEmpty))) := by
  induction ls generalizing acc with
  | nil => simp
  | cons l ls ih =>
    simp only [List.foldl_cons, Option.bind_some]
    have : keepLine b1 b2 acc l = some (acc ++ [if b1 then l.filter (fun c => c ≠ '\n' ∧ c ≠ '\r') else l].filter
        (fun l => !(b2 && l.isEmpty))) := by
      unfold keepLine
      cases b1 <;> simp only [strip_eq, if_true, Bool.false_eq_true, if_false, Option.map_some] <;> congr 1 <;>
        cases b2 <;> simp <;> split <;> simp_all
    rw [this, ih]
    simp only [List.map_cons, Option.some.injEq, List.append_assoc, ← List.filter_append]
    rfl

/-- C20: `file_to_strings` returns the lines of the file in order; stripping removes
carriage returns, `strip_empty_lines` drops exactly the lines that are then empty; a file
that cannot be opened throws. -/
theorem C20_fileToStrings (content : Str) (stripChars stripEmpty : Bool) (ls : List Str)
    (h : LinesOf content ls) :
    fileToStrings (some content) stripChars stripEmpty =
      some (.ok ((ls.map fun l => if stripChars then l.filter (· ≠ '\r') else l).filter
        fun l => !(stripEmpty && l.isEmpty))) ∧
    fileToStrings none stripChars stripEmpty = some (.throw .preconditionNotMet) := by
  refine ⟨?_, rfl⟩
  have hg := getLines_spec content [] false (by simp) (by simp) (by simp)
  have e := linesOf_unique content _ _ hg h
  simp only [fileToStrings, fold_keep, e, Option.map_some, List.nil_append]
  congr 3
  apply List.map_congr_left
  intro l hl
  cases stripChars with
  | false => rfl
  | true =>
    simp only [if_true]
    apply List.filter_congr
    intro c hc
    have : c ≠ '\n' := by rintro rfl; exact h.1 l hl hc
    simp [this]

/-- Every file has lines in this sense. -/
theorem C20_lines_exist (content : Str) : ∃ ls, LinesOf content ls :=
  ⟨_, by simpa using getLines_spec content [] false (by simp) (by simp) (by simp)⟩

/-- C20: `file_to_string` without stripping is the content, with a final newline added
when a non-empty file does not end in one. -/
theorem C20_fileToString (content : Str) :
    fileToString (some content) false =
      some (.ok (if content = [] ∨ content.getLast? = some '\n' then content else content ++ ['\n'])) := by
  obtain ⟨ls, h⟩ := C20_lines_exist content
  have := (C20_fileToStrings content false false ls h).1
  simp only [Bool.false_eq_true, if_false, Bool.false_and, Bool.not_false, List.map_id'] at this
  have e : ls.filter (fun _ => true) = ls := List.filter_eq_self.2 (by simp)
  rw [e] at this
  have hu : ∀ (ls : List Str) (a : Str), ls.foldl (fun r st => r ++ (st ++ ['\n'])) a = a ++ unlines ls := by
    intro ls
    induction ls with
    | nil => simp [unlines]
    | cons l ls ih => intro a; simp [ih, unlines]
  unfold fileToString
  rw [this]
  simp only [Option.map_some, hu, List.nil_append]
  congr 2
  rcases h.2 with h | ⟨h, hne, hl⟩
  · rw [h]
    have : content = [] ∨ content.getLast? = some '\n' := by
      rw [← h]
      rcases List.eq_nil_or_concat ls with rfl | ⟨a, b, rfl⟩
      · left; rfl
      · right; simp [unlines, List.getLast?_append]
    rw [if_pos this]
  · rw [h, if_neg]
    rintro (h' | h')
    · exact hne h'
    · exact hl h'

example : LinesOf c!"a\r\n\nb" [c!"a\r", c!"", c!"b"] := by
  refine ⟨by decide, .inr ⟨by decide, by decide, by decide⟩⟩
example : fileToStrings (some c!"a\r\n\nb") true true = some (.ok [c!"a", c!"b"]) := by decide

end Verif.File
