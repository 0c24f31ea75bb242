import Verif.Model.Editor
import Verif.Props.History
/-!
C43, C44: the line editor.
-/
namespace Verif.Editor
open Verif.History

/-- Keys of a terminal. -/
inductive Key
  | char (c : Char)
  | left | right | home | end_ | backspace | del | delete | insert
  | up | down | pageUp | pageDown
  | enter | ret | interrupt

/-- Characters that are not a control of the editor. -/
def Key.Ok : Key → Prop
  | .char c => c ≠ Char.ofNat 27 ∧ c ≠ '\n' ∧ c ≠ '\r' ∧ c ≠ Char.ofNat 8 ∧ c ≠ Char.ofNat 127 ∧
      c ≠ Char.ofNat 3
  | _ => True

/-- The bytes a terminal sends for a key (ECMA-48 / VT220). -/
def Key.bytes : Key → Str
  | .char c => [c]
  | .left => [Char.ofNat 27, '[', 'D']
  | .right => [Char.ofNat 27, '[', 'C']
  | .up => [Char.ofNat 27, '[', 'A']
  | .down => [Char.ofNat 27, '[', 'B']
  | .home => [Char.ofNat 27, '[', 'H']
  | .end_ => [Char.ofNat 27, '[', 'F']
  | .insert => [Char.ofNat 27, '[', '2', '~']
  | .delete => [Char.ofNat 27, '[', '3', '~']
  | .pageUp => [Char.ofNat 27, '[', '5', '~']
  | .pageDown => [Char.ofNat 27, '[', '6', '~']
  | .backspace => [Char.ofNat 8]
  | .del => [Char.ofNat 127]
  | .enter => ['\n']
  | .ret => ['\r']
  | .interrupt => [Char.ofNat 3]

/-- An ideal editor: text before and after the cursor, a history cursor and the lines entered. -/
structure Ideal where
  before : Str
  after : Str
  hist : Zip
  out : List Str

/-- Show a recalled command with the cursor at its end. -/
def Ideal.load (e : Ideal) (c : Str) : Ideal := { e with before := c, after := [] }

/-- What a key does in the ideal editor. -/
def Ideal.key (e : Ideal) (ignoring : Bool) : Key → Ideal
  | .char c => { e with before := e.before ++ [c] }
  | .left =>
    match e.before.getLast? with
    | some c => { e with before := e.before.dropLast, after := c :: e.after }
    | none => e
  | .right =>
    match e.after with
    | c :: r => { e with before := e.before ++ [c], after := r }
    | [] => e
  | .home => { e with before := [], after := e.before ++ e.after }
  | .end_ => { e with before := e.before ++ e.after, after := [] }
  | .backspace => { e with before := e.before.dropLast }
  | .del => { e with before := e.before.dropLast }
  | .delete => { e with after := e.after.tail }
  | .insert => e
  | .up | .pageUp =>
    let r := e.hist.prev
    if r.2 = [] then { e with hist := r.1 } else ({ e with hist := r.1 } : Ideal).load r.2
  | .down | .pageDown => let r := e.hist.next; ({ e with hist := r.1 } : Ideal).load r.2
  | .enter | .ret =>
    let l := e.before ++ e.after
    ⟨[], [], if ignoring then e.hist else e.hist.add l, e.out ++ [l]⟩
  | .interrupt => ⟨[], [], e.hist, e.out ++ [[]]⟩

def Ideal.keys (e : Ideal) : List (Key × Bool) → Ideal
  | [] => e
  | (k, i) :: ks => (e.key i k).keys ks

/-- The stored history stands for the ideal one and has room for `n` more commands; a handler that has
stored no command yet has one of two indices. -/
def HRel (n : Nat) (h : Hist) (z : Zip) : Prop :=
  (Stands h z ∧ h.cmds ≠ [] ∨
    h.cmds = [] ∧ z = ⟨[], []⟩ ∧ (h.idx = 0 ∨ h.idx = sizeMod - 1)) ∧
  h.cmds.length + n < sizeMod

/-- The editor state shows the ideal one. -/
def Shows (n : Nat) (s : St) (e : Ideal) : Prop :=
  s.line = e.before ++ e.after ∧ s.cur = e.before.length ∧ s.out = e.out ∧
  HRel n s.hist e.hist

/-- Does the key end a line? -/
def Key.ends : Key → Bool
  | .enter | .ret | .interrupt => true
  | _ => false

/-- Number of keys that end a line. -/
def ends (ks : List (Key × Bool)) : Nat := ks.countP fun k => k.1.ends

theorem HRel.weaken {n : Nat} {h : Hist} {z : Zip} (hr : HRel (n + 1) h z) : HRel n h z :=
  ⟨hr.1, by have := hr.2; omega⟩

theorem HRel.add {n : Nat} {h : Hist} {z : Zip} (hr : HRel (n + 1) h z) (c : Str) (hc : c ≠ []) :
    HRel n (History.add h c) (z.add c) ∧ (History.add h c).cmds ≠ [] := by
  obtain ⟨hr, hb⟩ := hr
  have hne : (History.add h c).cmds ≠ [] := by simp [History.add, hc]
  have hlen : (History.add h c).cmds.length = h.cmds.length + 1 := by simp [History.add, hc]
  refine ⟨⟨Or.inl ⟨?_, hne⟩, by omega⟩, hne⟩
  rcases hr with ⟨⟨e1, -⟩, -⟩ | ⟨e1, e2, -⟩
  · simp [Stands, History.add, hc, Zip.add, e1]; omega
  · simp [Stands, History.add, hc, Zip.add, e1, e2]

theorem HRel.prev {n : Nat} {h : Hist} {z : Zip} (hr : HRel n h z) :
    ∃ h', History.prev h = .ok (h', z.prev.2) ∧ HRel n h' z.prev.1 ∧ h'.cmds = h.cmds := by
  obtain ⟨⟨hs, hne⟩ | ⟨e1, e2, e3⟩, hb⟩ := hr
  · obtain ⟨h', a1, a2, a3, -⟩ := step_stands h z .prev hs hne (by omega)
    have keep := move_cmds h h' .prev (Or.inl rfl) _ a1
    exact ⟨h', a1, ⟨Or.inl ⟨a2, a3⟩, by rw [keep]; exact hb⟩, keep⟩
  · subst e2
    refine ⟨h, ?_, ⟨Or.inr ⟨e1, rfl, e3⟩, hb⟩, rfl⟩
    simp [History.prev, e1, Zip.prev]

theorem HRel.next {n : Nat} {h : Hist} {z : Zip} (hr : HRel n h z) :
    (History.next h = .ub ∧ h.cmds = []) ∨
    ∃ h', History.next h = .ok (h', z.next.2) ∧ HRel n h' z.next.1 ∧ h'.cmds = h.cmds := by
  obtain ⟨⟨hs, hne⟩ | ⟨e1, e2, e3⟩, hb⟩ := hr
  · obtain ⟨h', a1, a2, a3, -⟩ := step_stands h z .next hs hne (by omega)
    have keep := move_cmds h h' .next (Or.inr rfl) _ a1
    exact Or.inr ⟨h', a1, ⟨Or.inl ⟨a2, a3⟩, by rw [keep]; exact hb⟩, keep⟩
  · obtain ⟨cmds, idx⟩ := h
    simp only at e1 e3
    subst e1 e2
    rcases e3 with rfl | rfl
    · left
      exact ⟨by decide, rfl⟩
    · right
      exact ⟨⟨[], 0⟩, by decide, ⟨Or.inr ⟨rfl, rfl, Or.inl rfl⟩, hb⟩, rfl⟩

attribute [local irreducible] History.next History.prev

theorem recall_prev (w : Nat) (hw : 0 < w) (n : Nat) (s : St) (e : Ideal) (h : Shows n s e)
    (ign : Bool) :
    ∃ s', recall w false s (History.prev s.hist) = .ok s' ∧ Shows n s' (e.key ign .up) ∧
      s'.input = s.input ∧ s'.active = s.active ∧ s'.hist.cmds = s.hist.cmds := by
  obtain ⟨h1, h2, h3, h4⟩ := h
  obtain ⟨h', a1, a2, keep⟩ := h4.prev
  have hw' : w ≠ 0 := by omega
  by_cases hc : e.hist.prev.2 = []
  · refine ⟨{ s with hist := h' }, ?_, ?_, rfl, rfl, keep⟩
    · rw [a1]; simp [recall, hc]
    · simp only [Ideal.key, hc, if_true]
      exact ⟨h1, h2, h3, a2⟩
  · refine ⟨{ s with hist := h', line := e.hist.prev.2, cur := e.hist.prev.2.length }, ?_, ?_, rfl, rfl,
      keep⟩
    · rw [a1]; simp [recall, hc, hw']
    · simp only [Ideal.key, hc, if_false, Ideal.load]
      exact ⟨by simp, rfl, h3, a2⟩

theorem recall_next (w : Nat) (hw : 0 < w) (n : Nat) (s : St) (e : Ideal) (h : Shows n s e)
    (ign : Bool) :
    (recall w true s (History.next s.hist) = .ub ∧ s.hist.cmds = []) ∨
    ∃ s', recall w true s (History.next s.hist) = .ok s' ∧ Shows n s' (e.key ign .down) ∧
      s'.input = s.input ∧ s'.active = s.active ∧ s'.hist.cmds = s.hist.cmds := by
  obtain ⟨h1, h2, h3, h4⟩ := h
  have hw' : w ≠ 0 := by omega
  rcases h4.next with ⟨a1, a2⟩ | ⟨h', a1, a2, keep⟩
  · left
    rw [a1]
    exact ⟨rfl, a2⟩
  · right
    refine ⟨{ s with hist := h', line := e.hist.next.2, cur := e.hist.next.2.length }, ?_, ?_, rfl, rfl,
      keep⟩
    · by_cases hc : e.hist.next.2 = []
      · rw [a1]; simp [recall, hc, hw']
      · rw [a1]; simp [recall, hc, hw']
    · simp only [Ideal.key, Ideal.load]
      exact ⟨by simp, rfl, h3, a2⟩

theorem eraseIdx_mid (a b : Str) (c : Char) : (a ++ c :: b).eraseIdx a.length = a ++ b := by
  induction a with
  | nil => rfl
  | cons x a ih => simp [ih]

theorem split_last (l : Str) (c : Char) (h : l.getLast? = some c) : l = l.dropLast ++ [c] := by
  have hne : l ≠ [] := by rintro rfl; cases h
  rw [List.getLast?_eq_some_getLast hne] at h
  have := List.dropLast_concat_getLast hne
  rw [Option.some.inj h] at this
  exact this.symm

/-- One key, one iteration. -/
theorem key_step (w : Nat) (hw : 0 < w) (n : Nat) (s : St) (e : Ideal) (h : Shows (n + 1) s e)
    (ha : s.active ≠ 0)
    (k : Key) (hk : k.Ok) (ign : Bool) (tail : Str) (hi : s.input = k.bytes ++ tail) :
    (step w ign s = .ub ∧ s.hist.cmds = [] ∧ (k = .down ∨ k = .pageDown)) ∨
    ∃ s', step w ign s = .ok s' ∧ Shows n s' (e.key ign k) ∧ s'.input = tail ∧
      s'.active = s.active - (if k.ends then 1 else 0) ∧
      (s.hist.cmds ≠ [] → s'.hist.cmds ≠ []) := by
  obtain ⟨line, cur, hist, input, out, active⟩ := s
  obtain ⟨before, after, zip, eout⟩ := e
  obtain ⟨h1, h2, h3, h4⟩ := h
  simp only at h1 h2 h3 h4 hi ha
  subst h1 h2 h3 hi
  -- erasing the character before the cursor
  have back : ∀ inp : Str, ∃ s', (if 0 < before.length then
        eraseAt ⟨before ++ after, before.length, hist, inp, out, active⟩ (before.length - 1)
          (before.length - 1)
      else .ok ⟨before ++ after, before.length, hist, inp, out, active⟩) = .ok s' ∧
      s' = ⟨before.dropLast ++ after, before.dropLast.length, hist, inp, out, active⟩ := by
    intro inp
    refine ⟨_, ?_, rfl⟩
    cases hl : before.getLast? with
    | none =>
      have : before = [] := by simpa using hl
      subst this
      rfl
    | some c =>
      have hs := split_last before c hl
      generalize before.dropLast = a at hs
      subst hs
      have : ((a ++ [c]) ++ after).eraseIdx a.length = a ++ after := by
        simpa using eraseIdx_mid a after c
      simp only [List.length_append, List.length_cons, List.length_nil, Nat.zero_add,
        Nat.add_sub_cancel, eraseAt, this]
      rw [if_pos (by omega), if_pos (by omega)]
  cases k with
  | char c =>
    right
    obtain ⟨k1, k2, k3, k4, k5, k6⟩ := hk
    refine ⟨⟨(before ++ [c]) ++ after, (before ++ [c]).length, hist, tail, out, active⟩, ?_,
      ⟨rfl, rfl, rfl, h4.weaken⟩, rfl, rfl, id⟩
    simp [step, ha, Key.bytes, getc, esc, bs, del, ctrlC, k1, k2, k3, k4, k5, k6]
  | left =>
    right
    cases hl : before.getLast? with
    | none =>
      have : before = [] := by simpa using hl
      subst this
      exact ⟨⟨after, 0, hist, tail, out, active⟩,
        by simp [step, ha, Key.bytes, getc, esc, escape], ⟨rfl, rfl, rfl, h4.weaken⟩, rfl, rfl, id⟩
    | some c =>
      have hs := split_last before c hl
      refine ⟨⟨before ++ after, before.dropLast.length, hist, tail, out, active⟩, ?_, ?_, rfl, rfl, id⟩
      · have : 0 < before.length := by rw [hs]; simp
        simp [step, ha, Key.bytes, getc, esc, escape, this]
      · refine ⟨?_, ?_, ?_, ?_⟩ <;> simp only [Ideal.key, hl]
        · conv => lhs; rw [hs]
          simp
        · exact h4.weaken
  | right =>
    right
    cases after with
    | nil =>
      exact ⟨⟨before ++ [], before.length, hist, tail, out, active⟩,
        by simp [step, ha, Key.bytes, getc, esc, escape], ⟨rfl, rfl, rfl, h4.weaken⟩, rfl, rfl, id⟩
    | cons c r =>
      exact ⟨⟨before ++ c :: r, before.length + 1, hist, tail, out, active⟩,
        by simp [step, ha, Key.bytes, getc, esc, escape],
        ⟨by simp [Ideal.key], by simp [Ideal.key], rfl, h4.weaken⟩, rfl, rfl, id⟩
  | home =>
    right
    exact ⟨⟨before ++ after, 0, hist, tail, out, active⟩,
      by simp [step, ha, Key.bytes, getc, esc, escape], ⟨rfl, rfl, rfl, h4.weaken⟩, rfl, rfl, id⟩
  | end_ =>
    right
    exact ⟨⟨before ++ after, (before ++ after).length, hist, tail, out, active⟩,
      by simp [step, ha, Key.bytes, getc, esc, escape],
      ⟨by simp [Ideal.key], rfl, rfl, h4.weaken⟩, rfl, rfl, id⟩
  | insert =>
    right
    exact ⟨⟨before ++ after, before.length, hist, tail, out, active⟩,
      by simp [step, ha, Key.bytes, getc, esc, escape], ⟨rfl, rfl, rfl, h4.weaken⟩, rfl, rfl, id⟩
  | backspace =>
    right
    obtain ⟨s', b1, b2⟩ := back tail
    refine ⟨s', ?_, ?_, by rw [b2], by rw [b2]; rfl, by rw [b2]; exact id⟩
    · rw [← b1]
      simp [step, ha, Key.bytes, getc, esc, bs]
    · rw [b2]; exact ⟨rfl, rfl, rfl, h4.weaken⟩
  | del =>
    right
    obtain ⟨s', b1, b2⟩ := back tail
    refine ⟨s', ?_, ?_, by rw [b2], by rw [b2]; rfl, by rw [b2]; exact id⟩
    · rw [← b1]
      simp [step, ha, Key.bytes, getc, esc, bs, del]
    · rw [b2]; exact ⟨rfl, rfl, rfl, h4.weaken⟩
  | delete =>
    right
    cases after with
    | nil =>
      exact ⟨⟨before ++ [], before.length, hist, tail, out, active⟩,
        by simp [step, ha, Key.bytes, getc, esc, escape], ⟨rfl, rfl, rfl, h4.weaken⟩, rfl, rfl, id⟩
    | cons c r =>
      refine ⟨⟨before ++ r, before.length, hist, tail, out, active⟩, ?_, ⟨rfl, rfl, rfl, h4.weaken⟩, rfl, rfl, id⟩
      simp [step, ha, Key.bytes, getc, esc, escape, eraseAt, eraseIdx_mid]
  | up =>
    right
    obtain ⟨s', r1, r2, r3, r4, r5⟩ := recall_prev w hw n
      ⟨before ++ after, before.length, hist, tail, out, active⟩ ⟨before, after, zip, out⟩
      ⟨rfl, rfl, rfl, h4.weaken⟩ ign
    refine ⟨s', ?_, r2, r3, r4, by rw [r5]; exact id⟩
    rw [← r1]
    simp [step, ha, Key.bytes, getc, esc, escape]
  | pageUp =>
    right
    obtain ⟨s', r1, r2, r3, r4, r5⟩ := recall_prev w hw n
      ⟨before ++ after, before.length, hist, tail, out, active⟩ ⟨before, after, zip, out⟩
      ⟨rfl, rfl, rfl, h4.weaken⟩ ign
    refine ⟨s', ?_, r2, r3, r4, by rw [r5]; exact id⟩
    rw [← r1]
    simp [step, ha, Key.bytes, getc, esc, escape]
  | down =>
    have hst : step w ign ⟨before ++ after, before.length, hist, Key.bytes .down ++ tail, out, active⟩ =
        recall w true ⟨before ++ after, before.length, hist, tail, out, active⟩ (History.next hist) := by
      simp [step, ha, Key.bytes, getc, esc, escape]
    rcases recall_next w hw n
      ⟨before ++ after, before.length, hist, tail, out, active⟩ ⟨before, after, zip, out⟩
      ⟨rfl, rfl, rfl, h4.weaken⟩ ign with ⟨r1, r2⟩ | ⟨s', r1, r2, r3, r4, r5⟩
    · exact Or.inl ⟨by rw [hst]; exact r1, r2, by simp⟩
    · exact Or.inr ⟨s', by rw [hst]; exact r1, r2, r3, r4, by rw [r5]; exact id⟩
  | pageDown =>
    have hst : step w ign ⟨before ++ after, before.length, hist, Key.bytes .pageDown ++ tail, out, active⟩ =
        recall w true ⟨before ++ after, before.length, hist, tail, out, active⟩ (History.next hist) := by
      simp [step, ha, Key.bytes, getc, esc, escape]
    rcases recall_next w hw n
      ⟨before ++ after, before.length, hist, tail, out, active⟩ ⟨before, after, zip, out⟩
      ⟨rfl, rfl, rfl, h4.weaken⟩ ign with ⟨r1, r2⟩ | ⟨s', r1, r2, r3, r4, r5⟩
    · exact Or.inl ⟨by rw [hst]; exact r1, r2, by simp⟩
    · exact Or.inr ⟨s', by rw [hst]; exact r1, r2, r3, r4, by rw [r5]; exact id⟩
  | interrupt =>
    right
    exact ⟨⟨[], 0, hist, tail, out ++ [[]], active - 1⟩,
      by simp [step, ha, Key.bytes, getc, esc, bs, del, ctrlC],
      ⟨rfl, rfl, rfl, h4.weaken⟩, rfl, rfl, id⟩
  | enter =>
    right
    refine ⟨⟨[], 0, if !ign && before ++ after ≠ [] then History.add hist (before ++ after) else hist,
      tail, out ++ [before ++ after], active - 1⟩, by simp [step, ha, Key.bytes, getc, esc], ?_, rfl, rfl,
      ?_⟩
    · refine ⟨rfl, rfl, rfl, ?_⟩
      show HRel n _ (if ign then zip else zip.add (before ++ after))
      cases ign with
      | true => simpa using h4.weaken
      | false =>
        by_cases hz : before ++ after = []
        · simpa [hz, Zip.add] using h4.weaken
        · simpa [hz] using (h4.add _ hz).1
    · intro hne
      show (if _ then _ else hist : Hist).cmds ≠ []
      split
      · rename_i hz
        simp only [Bool.and_eq_true, decide_eq_true_eq] at hz
        exact (h4.add _ hz.2).2
      · exact hne
  | ret =>
    right
    refine ⟨⟨[], 0, if !ign && before ++ after ≠ [] then History.add hist (before ++ after) else hist,
      tail, out ++ [before ++ after], active - 1⟩, by simp [step, ha, Key.bytes, getc, esc], ?_, rfl, rfl,
      ?_⟩
    · refine ⟨rfl, rfl, rfl, ?_⟩
      show HRel n _ (if ign then zip else zip.add (before ++ after))
      cases ign with
      | true => simpa using h4.weaken
      | false =>
        by_cases hz : before ++ after = []
        · simpa [hz, Zip.add] using h4.weaken
        · simpa [hz] using (h4.add _ hz).1
    · intro hne
      show (if _ then _ else hist : Hist).cmds ≠ []
      split
      · rename_i hz
        simp only [Bool.and_eq_true, decide_eq_true_eq] at hz
        exact (h4.add _ hz.2).2
      · exact hne

theorem keys_steps (w : Nat) (hw : 0 < w) (ks : List (Key × Bool)) (hk : ∀ k ∈ ks, k.1.Ok)
    (s : St) (e : Ideal) (h : Shows ks.length s e) (tail : Str)
    (hi : s.input = (ks.map fun k => k.1.bytes).flatten ++ tail) (ha : ends ks < s.active) :
    (steps w (ks.map (·.2)) s = .ub ∧ s.hist.cmds = []) ∨
    ∃ s', steps w (ks.map (·.2)) s = .ok s' ∧ Shows 0 s' (e.keys ks) ∧ s'.input = tail ∧
      s'.active = s.active - ends ks := by
  induction ks generalizing s e with
  | nil => exact Or.inr ⟨s, rfl, h, by simpa using hi, by simp [ends]⟩
  | cons k ks ih =>
    obtain ⟨k, ign⟩ := k
    simp only [List.map_cons, List.flatten_cons, List.append_assoc, List.length_cons] at hi h
    have hc : ends ((k, ign) :: ks) = ends ks + if k.ends then 1 else 0 := by
      simp [ends, List.countP_cons]
    rcases key_step w hw ks.length s e h (by omega) k (hk (k, ign) (by simp)) ign _ hi with
      ⟨a1, a2, -⟩ | ⟨s1, a1, a2, a3, a4, a5⟩
    · left
      exact ⟨by simp [steps, a1], a2⟩
    · rcases ih (fun x hx => hk x (by simp [hx])) s1 (e.key ign k) a2 a3 (by rw [a4]; omega) with
        ⟨b1, b2⟩ | ⟨s2, b1, b2, b3, b4⟩
      · left
        refine ⟨by simp [steps, a1, b1], ?_⟩
        by_cases hz : s.hist.cmds = []
        · exact hz
        · exact absurd b2 (a5 hz)
      · right
        exact ⟨s2, by simp [steps, a1, b1], b2, b3, by rw [b4, a4]; omega⟩

/-- C43: once the history holds a command, every sequence of key presses is handled like the ideal
editor does it: same line, same cursor, same lines handed to the callback; the cursor stays within the
line.  Missing for the full property: a handler without history (`C43_fresh_partial`,
`C43_negation`) and an output without width (`C78_negation`). -/
theorem C43_editor_partial (w : Nat) (hw : 0 < w) (ks : List (Key × Bool)) (hk : ∀ k ∈ ks, k.1.Ok)
    (s : St) (e : Ideal) (hl : s.line = e.before ++ e.after) (hc : s.cur = e.before.length)
    (ho : s.out = e.out) (hh : Stands s.hist e.hist) (hne : s.hist.cmds ≠ [])
    (hb : s.hist.cmds.length + ks.length < sizeMod) (tail : Str)
    (hi : s.input = (ks.map fun k => k.1.bytes).flatten ++ tail) (ha : ends ks < s.active) :
    ∃ s', steps w (ks.map (·.2)) s = .ok s' ∧ s'.out = (e.keys ks).out ∧
      s'.line = (e.keys ks).before ++ (e.keys ks).after ∧ s'.cur = (e.keys ks).before.length ∧
      s'.cur ≤ s'.line.length ∧ s'.input = tail ∧ s'.active = s.active - ends ks := by
  rcases keys_steps w hw ks hk s e ⟨hl, hc, ho, Or.inl ⟨hh, hne⟩, hb⟩ tail hi ha with
    ⟨-, h⟩ | ⟨s', a1, ⟨b1, b2, b3, -⟩, a3, a4⟩
  · exact absurd h hne
  · refine ⟨s', a1, b3, b1, b2, ?_, a3, a4⟩
    rw [b1, b2]
    simp

/-- C43 for a new handler: like the ideal editor unless the history is accessed out of range. -/
theorem C43_fresh_partial (w : Nat) (hw : 0 < w) (ks : List (Key × Bool)) (hk : ∀ k ∈ ks, k.1.Ok)
    (hb : ks.length < sizeMod) (tail : Str) (n : Nat) (ha : ends ks < n) :
    steps w (ks.map (·.2)) (init ((ks.map fun k => k.1.bytes).flatten ++ tail) n) = .ub ∨
    ∃ s', steps w (ks.map (·.2)) (init ((ks.map fun k => k.1.bytes).flatten ++ tail) n) = .ok s' ∧
      s'.out = (Ideal.keys ⟨[], [], ⟨[], []⟩, []⟩ ks).out ∧ s'.cur ≤ s'.line.length ∧
      s'.input = tail := by
  rcases keys_steps w hw ks hk (init ((ks.map fun k => k.1.bytes).flatten ++ tail) n)
      ⟨[], [], ⟨[], []⟩, []⟩
      ⟨rfl, rfl, rfl, Or.inr ⟨rfl, rfl, Or.inr rfl⟩, by simpa [init, History.init] using hb⟩ tail rfl ha
    with ⟨h, -⟩ | ⟨s', a1, ⟨b1, b2, b3, -⟩, a3, -⟩
  · exact Or.inl h
  · refine Or.inr ⟨s', a1, b3, ?_, a3⟩
    rw [b1, b2]
    simp

/-- C43 fails for a new handler: pressing "down" twice accesses the empty history out of range. -/
theorem C43_negation (w : Nat) (hw : 0 < w) (tail : Str) (n : Nat) :
    steps w [false, false] (init (Key.bytes .down ++ Key.bytes .down ++ tail) (n + 1)) = .ub := by
  have h1 : History.next History.init = .ok (⟨[], 0⟩, []) := by
    with_unfolding_all decide
  have h2 : History.next ⟨[], 0⟩ = .ub := by
    with_unfolding_all decide
  have hw' : w ≠ 0 := by omega
  simp [steps, step, init, Key.bytes, getc, esc, escape, h1, h2, recall, hw']

/-- Non-trivial case: with "ls" in the history, type "ac", go left, insert "b", Enter; recall it, delete
its first character, Enter. -/
example :
    let s : St := ⟨[], 0, ⟨[c!"ls"], 1⟩,
      (([.char 'a', .char 'c', .left, .char 'b', .enter, .up, .home, .delete, .enter] : List Key).map
        Key.bytes).flatten, [], 5⟩
    steps 80 (List.replicate 9 false) s =
      .ok ⟨[], 0, ⟨[c!"ls", c!"abc", c!"bc"], 3⟩, [], [c!"abc", c!"bc"], 3⟩ ∧
    Stands s.hist ⟨[c!"ls"], []⟩ ∧ s.hist.cmds ≠ [] := by
  refine ⟨by with_unfolding_all decide, ⟨rfl, rfl⟩, by simp⟩

/-- C44 fails: when the input ends in the middle of a line (or before a line the thread may still read)
the thread keeps reading for ever; it adds one character per iteration and never hands a line over. -/
theorem C44_negation (w : Nat) (flags : List Bool) (s : St) (hin : s.input = []) (ha : s.active ≠ 0)
    (hc : s.cur ≤ s.line.length) :
    ∃ s', steps w flags s = .ok s' ∧ s'.input = [] ∧ s'.active = s.active ∧ s'.out = s.out ∧
      s'.line.length = s.line.length + flags.length ∧ s'.cur ≤ s'.line.length := by
  induction flags generalizing s with
  | nil => exact ⟨s, rfl, hin, rfl, rfl, rfl, hc⟩
  | cons f fs ih =>
    obtain ⟨line, cur, hist, input, out, active⟩ := s
    simp only at hin ha hc
    subst hin
    have hs : step w f ⟨line, cur, hist, [], out, active⟩ =
        .ok ⟨line.take cur ++ eofChar :: line.drop cur, cur + 1, hist, [], out, active⟩ := by
      have e1 : eofChar ≠ esc := by decide
      have e2 : ¬ (eofChar = '\n' ∨ eofChar = '\r') := by decide
      have e3 : ¬ (eofChar = bs ∨ eofChar = del) := by decide
      have e4 : eofChar ≠ ctrlC := by decide
      simp only [step, ha, if_false, getc, Option.getD_none, e1, e2, e3, e4, hc, if_true]
    have hlen : (line.take cur ++ eofChar :: line.drop cur).length = line.length + 1 := by
      simp only [List.length_append, List.length_take, List.length_cons, List.length_drop]
      omega
    obtain ⟨s', a1, a2, a3, a4, a5, a6⟩ :=
      ih ⟨line.take cur ++ eofChar :: line.drop cur, cur + 1, hist, [], out, active⟩ rfl ha
        (by rw [hlen]; simp only; omega)
    refine ⟨s', by simp [steps, hs, a1], a2, a3, a4, ?_, a6⟩
    rw [a5, hlen]
    simp only [List.length_cons]
    omega

/-- C44 holds only in this form: a thread that has read all the lines it was asked for reads nothing
more, whatever is left of the input. -/
theorem C44_idle_partial (w : Nat) (flags : List Bool) (s : St) (ha : s.active = 0) :
    steps w flags s = .ok s := by
  induction flags with
  | nil => rfl
  | cons f fs ih => simp [steps, step, ha, ih]

/-- Non-trivial case: input that ends in the middle of a line. -/
example : ∃ s', steps 80 (List.replicate 4 false) (init c!"ab" 1) = .ok s' ∧ s'.active = 1 ∧
    s'.line = ['a', 'b', eofChar, eofChar] := by
  refine ⟨⟨['a', 'b', eofChar, eofChar], 4, History.init, [], [], 1⟩, ?_, rfl, rfl⟩
  with_unfolding_all decide

/-- C78 fails: recalling a stored command when the output has no width (`ws_col` 0, as for a pipe or an
unsized pseudo-terminal) divides by zero. -/
theorem C78_negation (c : Str) (hc : c ≠ []) (ign : Bool) (tail : Str) (n : Nat) :
    step 0 ign ⟨[], 0, History.add History.init c, Key.bytes .up ++ tail, [], n + 1⟩ = .ub := by
  obtain ⟨h', h1⟩ := C42_prev_after_add History.init c hc
  simp [step, Key.bytes, getc, esc, escape, h1, recall, hc]

/-- C78 for the other keys: without history recall the width does not matter. -/
theorem C78_edit_partial (w w' : Nat) (ign : Bool) (s : St) (k : Key) (tail : Str)
    (hi : s.input = k.bytes ++ tail) (hk : k ≠ .up ∧ k ≠ .down ∧ k ≠ .pageUp ∧ k ≠ .pageDown)
    (ho : k.Ok) : step w ign s = step w' ign s := by
  obtain ⟨line, cur, hist, input, out, active⟩ := s
  simp only at hi
  subst hi
  cases k with
  | up => simp at hk
  | down => simp at hk
  | pageUp => simp at hk
  | pageDown => simp at hk
  | char c =>
    obtain ⟨k1, -⟩ := ho
    simp [step, Key.bytes, getc, esc, k1]
  | _ => simp [step, Key.bytes, getc, esc, escape]

/-- Non-trivial case: typing works without a width. -/
example : ∃ s', step 0 false (init (Key.bytes (.char 'x')) 1) = .ok s' ∧ s'.line = c!"x" :=
  ⟨⟨c!"x", 1, History.init, [], [], 1⟩, by with_unfolding_all decide, rfl⟩

end Verif.Editor
