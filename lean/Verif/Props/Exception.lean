import Verif.Model.Exception
import Verif.Props.Formatter

/-!
C196: exceptions say the message they were made with.
-/
namespace Verif.Exception
open Verif.Formatter

/-! What a user expects: each object has a text; a message that is streamed together is the concatenation of its pieces. -/

/-- The text of an object is what was given for it. -/
def saidBy (os : List (Option (Cls × Str))) : List Piece → Option Str
  | [] => some []
  | .text s :: ps => (saidBy os ps).map (s ++ ·)
  | .what i :: ps =>
    match os[i]? with
    | some (some e) => (saidBy os ps).map (e.2 ++ ·)
    | _ => none

def given (os : List (Option (Cls × Str))) : Src → Option Str
  | .null => none
  | .pointer m => some m
  | .string s => some s
  | .formatter ps => saidBy os ps

def expect (os : List (Option (Cls × Str))) : Op → Option (List (Option (Cls × Str)))
  | .make cls src => (given os src).map fun t => os ++ [some (cls, t)]
  | .copy i => (os[i]?.join).map fun e => os ++ [some e]
  | .slice i => (os[i]?.join).map fun e => os ++ [some (.exception, e.2)]
  | .assign i j => os[i]?.join.bind fun e => (os[j]?.join).map fun f => os.set i (some (e.1, f.2))
  | .destroy i => (os[i]?.join).map fun _ => os.set i none

def expects (os : List (Option (Cls × Str))) : List Op → Option (List (Option (Cls × Str)))
  | [] => some os
  | op :: ops => (expect os op).bind (expects · ops)

/-- The texts of an operation have no NUL. -/
def Plain : Op → Prop
  | .make _ (.pointer m) => '\x00' ∉ m
  | .make _ (.string s) => '\x00' ∉ s
  | .make _ (.formatter ps) => ∀ p ∈ ps, ∀ s, p = .text s → '\x00' ∉ s
  | _ => True

theorem cString_plain {s : Str} (h : '\x00' ∉ s) : cString s = s := by
  unfold cString
  induction s with
  | nil => rfl
  | cons a s ih =>
    rw [List.takeWhile_cons_of_pos (by simp; rintro rfl; exact h (by simp)), ih (fun hs => h (by simp [hs]))]

/-- The objects are as expected. -/
def Same (os : Objects) (xs : List (Option (Cls × Str))) : Prop :=
  xs = os.map (Option.map fun e => (e.cls, e.message)) ∧ ∀ e, some e ∈ os → '\x00' ∉ e.message

theorem same_get {os : Objects} {xs : List (Option (Cls × Str))} (h : Same os xs) (i : Nat) :
    xs[i]? = os[i]?.map (Option.map fun e => (e.cls, e.message)) := by
  rw [h.1, List.getElem?_map]

theorem said {os : Objects} {xs : List (Option (Cls × Str))} (h : Same os xs) (ps : List Piece)
    (hp : ∀ p ∈ ps, ∀ s, p = .text s → '\x00' ∉ s) :
    (saidBy xs ps = none ∧ texts os ps = none) ∨
    ∃ ts, texts os ps = some ts ∧ saidBy xs ps = some ts.flatten ∧ ∀ t ∈ ts, '\x00' ∉ t := by
  induction ps with
  | nil => exact .inr ⟨[], rfl, rfl, by simp⟩
  | cons p ps ih =>
    have ih := ih (fun q hq => hp q (by simp [hq]))
    cases p with
    | text s =>
      have hs := hp (.text s) (by simp) s rfl
      rcases ih with ⟨h1, h2⟩ | ⟨ts, h1, h2, h3⟩
      · left
        simp [saidBy, texts, h1, h2]
      · right
        refine ⟨s :: ts, by simp [texts, h1], by simp [saidBy, h2], ?_⟩
        intro t ht
        rcases List.mem_cons.1 ht with rfl | ht
        · exact hs
        · exact h3 t ht
    | what i =>
      have hg := same_get h i
      cases ho : os[i]? with
      | none =>
        left
        simp [saidBy, texts, hg, ho]
      | some o =>
        cases o with
        | none =>
          left
          simp [saidBy, texts, hg, ho]
        | some e =>
          have he : '\x00' ∉ e.message := h.2 e (List.mem_of_getElem? ho)
          rcases ih with ⟨h1, h2⟩ | ⟨ts, h1, h2, h3⟩
          · left
            simp [saidBy, texts, hg, ho, h1, h2]
          · right
            refine ⟨e.message :: ts, by simp [texts, ho, h1, E.what, cString_plain he], by simp [saidBy, hg, ho, h2], ?_⟩
            intro t ht
            rcases List.mem_cons.1 ht with rfl | ht
            · exact he
            · exact h3 t ht

theorem step_same {os : Objects} {xs ys : List (Option (Cls × Str))} {op : Op} (h : Same os xs) (hp : Plain op)
    (hx : expect xs op = some ys) : ∃ os', step os op = .ok os' ∧ Same os' ys := by
  have hadd (cls : Cls) (t : Str) (ht : '\x00' ∉ t) : Same (os ++ [some ⟨cls, t⟩]) (xs ++ [some (cls, t)]) := by
    refine ⟨by simp [h.1], ?_⟩
    intro e he
    rcases List.mem_append.1 he with he | he
    · exact h.2 e he
    · simp at he
      subst he
      exact ht
  have hjoin (i : Nat) (e : Cls × Str) (hi : xs[i]?.join = some e) : ∃ f, os[i]? = some (some f) ∧ e = (f.cls, f.message) ∧
      '\x00' ∉ f.message := by
    rw [same_get h] at hi
    cases ho : os[i]? with
    | none => simp [ho] at hi
    | some o =>
      cases o with
      | none => simp [ho] at hi
      | some f =>
        simp [ho] at hi
        exact ⟨f, rfl, hi.symm, h.2 f (List.mem_of_getElem? ho)⟩
  cases op with
  | make cls src =>
    cases src with
    | null => simp [expect, given] at hx
    | pointer m =>
      simp [expect, given] at hx
      subst hx
      have hp : '\x00' ∉ m := hp
      exact ⟨_, rfl, by rw [cString_plain hp]; exact hadd cls m hp⟩
    | string s =>
      simp [expect, given] at hx
      subst hx
      exact ⟨_, rfl, hadd cls s hp⟩
    | formatter ps =>
      rcases said h ps hp with ⟨h1, -⟩ | ⟨ts, h1, h2, h3⟩
      · simp [expect, given, h1] at hx
      · simp [expect, given, h2] at hx
        subst hx
        have hb : (ts.foldl Formatter.stream {}).toString = ts.flatten := (C18_partial ts).2 h3
        refine ⟨os ++ [some ⟨cls, ts.flatten⟩], ?_, hadd cls _ ?_⟩
        · simp only [step, construct, h1, hb]
        · intro hm
          obtain ⟨t, ht, hm⟩ := List.mem_flatten.1 hm
          exact h3 t ht hm
  | copy i =>
    simp only [expect, Option.map_eq_some_iff] at hx
    obtain ⟨e, he, rfl⟩ := hx
    obtain ⟨f, hf, rfl, hn⟩ := hjoin i e he
    exact ⟨os ++ [some f], by simp [step, hf], hadd f.cls f.message hn⟩
  | slice i =>
    simp only [expect, Option.map_eq_some_iff] at hx
    obtain ⟨e, he, rfl⟩ := hx
    obtain ⟨f, hf, rfl, hn⟩ := hjoin i e he
    exact ⟨os ++ [some ⟨.exception, f.message⟩], by simp [step, hf], hadd .exception f.message hn⟩
  | assign i j =>
    simp only [expect, Option.bind_eq_some_iff, Option.map_eq_some_iff] at hx
    obtain ⟨e, he, g, hg, rfl⟩ := hx
    obtain ⟨f, hf, rfl, -⟩ := hjoin i e he
    obtain ⟨k, hk, rfl, hn⟩ := hjoin j g hg
    refine ⟨os.set i (some { f with message := k.message }), by simp [step, hf, hk], by simp [h.1, List.map_set], ?_⟩
    intro a ha
    rcases List.mem_or_eq_of_mem_set ha with ha | ha
    · exact h.2 a ha
    · cases ha
      exact hn
  | destroy i =>
    simp only [expect, Option.map_eq_some_iff] at hx
    obtain ⟨e, he, rfl⟩ := hx
    obtain ⟨f, hf, rfl, hn⟩ := hjoin i e he
    refine ⟨os.set i none, by simp [step, hf], by simp [h.1, List.map_set], ?_⟩
    intro a ha
    rcases List.mem_or_eq_of_mem_set ha with ha | ha
    · exact h.2 a ha
    · cases ha

/-- C196, partial: after any sequence of constructions, copies, assignments and destructions in which objects exist when they are used,
no pointer is null and no text has a NUL, every exception says what was given for it, and has the class it was made with. -/
theorem C196_says_partial (ops : List Op) (hp : ∀ op ∈ ops, Plain op) (xs : List (Option (Cls × Str)))
    (hx : expects [] ops = some xs) : ∃ os, run [] ops = .ok os ∧
      ∀ i : Nat, xs[i]? = os[i]?.map (Option.map fun e => (e.cls, e.what)) := by
  have key : ∀ (ops : List Op) (os : Objects) (ys : List (Option (Cls × Str))), Same os ys → (∀ op ∈ ops, Plain op) →
      expects ys ops = some xs → ∃ os', run os ops = .ok os' ∧ Same os' xs := by
    intro ops
    induction ops with
    | nil =>
      intro os ys h _ hx
      simp [expects] at hx
      subst hx
      exact ⟨os, rfl, h⟩
    | cons op ops ih =>
      intro os ys h hp hx
      simp only [expects, Option.bind_eq_some_iff] at hx
      obtain ⟨zs, h1, h2⟩ := hx
      obtain ⟨os', h3, h4⟩ := step_same h (hp op (by simp)) h1
      obtain ⟨os'', h5, h6⟩ := ih os' zs h4 (fun q hq => hp q (by simp [hq])) h2
      exact ⟨os'', by rw [run, h3]; exact h5, h6⟩
  obtain ⟨os, h1, h2⟩ := key ops [] [] ⟨rfl, by simp⟩ hp hx
  refine ⟨os, h1, fun i => ?_⟩
  rw [same_get h2]
  cases ho : os[i]? with
  | none => rfl
  | some o =>
    cases o with
    | none => rfl
    | some e => simp [E.what, cString_plain (h2.2 e (List.mem_of_getElem? ho))]

example : expects [] [.make .initialization (.string c!"no file"),
      .make .configuration (.formatter [.text c!"cannot start: ", .what 0, .text c!"."]), .slice 1, .destroy 0, .assign 1 2] =
    some [none, some (.configuration, c!"cannot start: no file."), some (.exception, c!"cannot start: no file.")] := by decide

/-- C196 is not so: every message with a NUL loses what follows it. -/
theorem C196_negation_nul (cls : Cls) (a b : Str) (ha : '\x00' ∉ a) :
    ∃ e, step [] (.make cls (.string (a ++ '\x00' :: b))) = .ok [some e] ∧ e.what = a ∧ e.what ≠ a ++ '\x00' :: b := by
  have h : cString (a ++ '\x00' :: b) = a := by
    unfold cString
    rw [List.takeWhile_append_of_pos (by intro c hc; simp; rintro rfl; exact ha hc)]
    simp
  refine ⟨⟨cls, a ++ '\x00' :: b⟩, rfl, h, ?_⟩
  show cString _ ≠ _
  rw [h]
  intro hc
  have := congrArg List.length hc
  simp at this

/-- C196 is not so: an exception made from a null pointer ends the process, whatever else exists. -/
theorem C196_negation_null (os : Objects) (cls : Cls) : step os (.make cls .null) = .abort := rfl

/-- C196: a list of handlers catches an exception by the first that is for its class or for `Exception`. -/
theorem C196_caught (handlers : List Cls) (thrown : Cls) (k : Nat) :
    caught handlers thrown = some k ↔
      (handlers[k]? = some thrown ∨ handlers[k]? = some .exception) ∧
      ∀ j < k, handlers[j]? ≠ some thrown ∧ handlers[j]? ≠ some .exception := by
  unfold caught
  rw [List.findIdx?_eq_some_iff_getElem]
  constructor
  · rintro ⟨hk, h1, h2⟩
    refine ⟨?_, fun j hj => ?_⟩
    · rw [List.getElem?_eq_getElem hk]
      simpa [catches] using h1
    · have := h2 j hj
      rw [List.getElem?_eq_getElem (by omega)]
      simpa [catches] using this
  · rintro ⟨h1, h2⟩
    have hk : k < handlers.length := by
      rcases h1 with h1 | h1 <;> exact (List.getElem?_eq_some_iff.1 h1).1
    refine ⟨hk, ?_, fun j hj => ?_⟩
    · rw [List.getElem?_eq_getElem hk] at h1
      simpa [catches] using h1
    · have := h2 j hj
      rw [List.getElem?_eq_getElem (by omega)] at this
      simpa [catches] using this

example : caught [.timeout, .configuration, .exception, .configuration] .configuration = some 1 ∧
    caught [.timeout, .dns] .configuration = none := by decide

end Verif.Exception
