import Verif.Model.PyDebug
import Verif.Props.PyLog
/-!
C118, C119: the debugging helpers in Python.
-/
namespace Verif.PyDebug
open Verif.PyLog

variable {V E W : Type}

/-- The function does not look at the logger or at what was written: its result and its effect on the rest do not depend on
them. -/
def Blind (f : Fn V E W) : Prop :=
  ∀ args kwargs (w w' : World W), w.rest = w'.rest →
    (f.call args kwargs w).1 = (f.call args kwargs w').1 ∧ (f.call args kwargs w).2.rest = (f.call args kwargs w').2.rest

theorem debug_rest (w : World W) (t : Str) : (debug w t).rest = w.rest := rfl

/-- C118, part: if the function has a name and none of the arguments raises when it is made a text, the decorated function returns or raises
what the function does, with the same effect. -/
theorem C118_same_partial (repr : V → Except E Str) (noName : E) (f : Fn V E W) (hf : Blind f) (args : List V)
    (kwargs : List (Str × V)) (w : World W) (hn : f.name ≠ none)
    (hr : ∀ v ∈ args ++ kwargs.map Prod.snd, ∃ s, repr v = .ok s) :
    ((decorate repr noName f).call args kwargs w).1 = (f.call args kwargs w).1 ∧
    ((decorate repr noName f).call args kwargs w).2.rest = (f.call args kwargs w).2.rest := by
  have key : ∀ vs : List V, (∀ v ∈ vs, ∃ s, repr v = .ok s) → ∃ ss, reprs repr vs = .ok ss := by
    intro vs
    induction vs with
    | nil => exact fun _ => ⟨[], rfl⟩
    | cons v vs ih =>
      intro h
      obtain ⟨s, hs⟩ := h v List.mem_cons_self
      obtain ⟨ss, hss⟩ := ih fun v hv => h v (List.mem_cons_of_mem _ hv)
      exact ⟨s :: ss, by simp [reprs, hs, hss]⟩
  obtain ⟨as, has⟩ := key args fun v hv => hr v (List.mem_append_left _ hv)
  obtain ⟨ks, hks⟩ := key (kwargs.map Prod.snd) fun v hv => hr v (List.mem_append_right _ hv)
  cases hname : f.name with
  | none => exact absurd hname hn
  | some name =>
    simp only [decorate, hname, has, hks]
    have h := hf args kwargs (debug w (calledText name (tupleText as) (dictText (kwargs.map Prod.fst) ks))) w rfl
    generalize f.call args kwargs (debug w (calledText name (tupleText as) (dictText (kwargs.map Prod.fst) ks))) = r at h
    obtain ⟨r1, r2⟩ := r
    cases r1 with
    | error e => exact h
    | ok v => exact h

/-- Specification: a Python list of arguments between brackets. -/
def inBrackets : List Str → Str
  | [] => c!"()"
  | [s] => c!"(" ++ s ++ c!",)"
  | s :: t :: ss => c!"(" ++ s ++ (t :: ss).foldr (fun x acc => c!", " ++ x ++ acc) c!")"

theorem commas_foldr (s : Str) (ss : List Str) (z : Str) :
    commas (s :: ss) ++ z = s ++ ss.foldr (fun x acc => c!", " ++ x ++ acc) z := by
  induction ss generalizing s with
  | nil => rfl
  | cons t ss ih =>
    show (s ++ c!", " ++ commas (t :: ss)) ++ z = s ++ (c!", " ++ t ++ ss.foldr (fun x acc => c!", " ++ x ++ acc) z)
    rw [List.append_assoc, ih t]
    simp

theorem tupleText_eq (ss : List Str) : tupleText ss = inBrackets ss := by
  match ss with
  | [] => rfl
  | [s] => rfl
  | s :: t :: ss =>
    show c!"(" ++ commas (s :: t :: ss) ++ c!")" = c!"(" ++ s ++ (t :: ss).foldr (fun x acc => c!", " ++ x ++ acc) c!")"
    rw [List.append_assoc, commas_foldr s (t :: ss), List.append_assoc]

theorem reprs_ok (repr : V → Str) (vs : List V) : reprs (E := E) (fun v => .ok (repr v)) vs = .ok (vs.map repr) := by
  induction vs with
  | nil => rfl
  | cons v vs ih => simp [reprs, ih]

/-- Specification: a Python dictionary of keyword arguments. -/
def inBraces : List (Str × Str) → Str
  | [] => c!"{}"
  | (k, s) :: ks => c!"{'" ++ k ++ c!"': " ++ s ++ ks.foldr (fun x acc => c!", '" ++ x.1 ++ c!"': " ++ x.2 ++ acc) c!"}"

theorem dictText_eq (ks : List (Str × V)) (repr : V → Str) :
    dictText (ks.map Prod.fst) ((ks.map Prod.snd).map repr) = inBraces (ks.map fun x => (x.1, repr x.2)) := by
  have hz : ∀ ks : List (Str × V), List.zipWith (fun k s => quoted k ++ c!": " ++ s) (ks.map Prod.fst) ((ks.map Prod.snd).map repr)
      = ks.map fun x => c!"'" ++ x.1 ++ c!"': " ++ repr x.2 := by
    intro ks
    induction ks with
    | nil => rfl
    | cons x ks ih =>
      simp only [List.map_cons, List.zipWith_cons_cons, ih]
      simp [quoted]
  unfold dictText
  rw [hz]
  cases ks with
  | nil => rfl
  | cons x ks =>
    rw [List.append_assoc, List.map_cons, commas_foldr]
    simp [inBraces, List.foldr_map]

/-- What is written around a call while debug messages are enabled (and were from their first use on): one line with name and
arguments before everything the function writes, and one after it if it returns, but none if it raises. -/
theorem C118_written (repr : V → Str) (noName : E) (f : Fn V E W) (name : Str) (hn : f.name = some name) (args : List V)
    (kwargs : List (Str × V)) (w : World W) (g : Logger) (hg : w.logger = g) (hon : g.cache.lookup 10 = some true) (fmt : Str)
    (hfmt : g.formats = [fmt]) (r : Except E V) (own : List Line) (hf : ∀ w' : World W, w'.logger = g →
      (f.call args kwargs w').1 = r ∧ (f.call args kwargs w').2.logger = g ∧ (f.call args kwargs w').2.lines = w'.lines ++ own) :
    ((decorate (fun v => .ok (repr v)) noName f).call args kwargs w).1 = r ∧
    ((decorate (fun v => .ok (repr v)) noName f).call args kwargs w).2.logger = g ∧
    ((decorate (fun v => .ok (repr v)) noName f).call args kwargs w).2.lines = w.lines ++
      [⟨fmt, 10, c!"Function <" ++ name ++ c!"> called with arguments: <" ++ inBrackets (args.map repr) ++ c!">, <" ++
        inBraces (kwargs.map fun x => (x.1, repr x.2)) ++ c!">"⟩] ++
      own ++ (match r with | .ok _ => [⟨fmt, 10, c!"Function <" ++ name ++ c!"> finished"⟩] | .error _ => []) := by
  have hd : ∀ (w : World W) t, w.logger = g → (debug w t).logger = g ∧ (debug w t).lines = w.lines ++ [⟨fmt, 10, t⟩] := by
    intro w t h
    simp [debug, log, h, isEnabledFor, debugLevel, hon, hfmt]
  simp only [decorate, hn, reprs_ok, tupleText_eq, dictText_eq]
  generalize ht : calledText name (inBrackets (args.map repr)) (inBraces (kwargs.map fun x => (x.1, repr x.2))) = t
  have h1 := hd w t hg
  have h2 := hf (debug w t) h1.1
  generalize f.call args kwargs (debug w t) = r' at h2
  obtain ⟨r1, r2⟩ := r'
  obtain ⟨h3, h4, h5⟩ := h2
  simp only at h3 h4 h5
  subst h3
  cases r1 with
  | ok v =>
    refine ⟨rfl, (hd r2 _ h4).1, ?_⟩
    simp only [(hd r2 _ h4).2, h5, h1.2]
    rw [← ht]
    simp [calledText, finishedText]
  | error e =>
    refine ⟨rfl, h4, ?_⟩
    simp only [h5, h1.2]
    rw [← ht]
    simp [calledText]

/-- C118 does not hold: an argument whose `repr` raises makes the decorated function raise, even when debug messages are not written,
and the function is not called. -/
theorem C118_negation_repr : ∃ (repr : Nat → Except Str Str) (f : Fn Nat Str Nat) (w : World Nat), Blind f ∧ f.name ≠ none ∧
    w.logger = global ∧ (f.call [0] [] w).1 = .ok 1 ∧ (f.call [0] [] w).2.rest = w.rest + 1 ∧
    ((decorate repr c!"AttributeError" f).call [0] [] w).1 = .error c!"broken" ∧
    ((decorate repr c!"AttributeError" f).call [0] [] w).2.rest = w.rest := by
  refine ⟨fun _ => .error c!"broken", ⟨some c!"f", fun _ _ w => (.ok 1, { w with rest := w.rest + 1 })⟩, ⟨global, [], 0⟩, ?_, nofun,
    rfl, rfl, rfl, rfl, rfl⟩
  intro args kwargs w w' h
  exact ⟨rfl, congrArg (· + 1) h⟩

/-- C118 does not hold: a callable without `__name__`, such as a `functools.partial`, can be decorated, but not called then. -/
theorem C118_negation_name (repr : V → Except E Str) (noName : E) (f : Fn V E W) (h : f.name = none) (args : List V)
    (kwargs : List (Str × V)) (w : World W) :
    ((decorate repr noName f).call args kwargs w).1 = .error noName := by
  simp [decorate, h]

/-- C118 does not hold: the decorated function has another name, so that a second decoration reports calls of "wrapper". -/
theorem C118_negation_wrapper (repr : V → Except E Str) (noName : E) (f : Fn V E W) (h : f.name ≠ some c!"wrapper") :
    (decorate repr noName f).name ≠ f.name := fun e => h e.symm

/-- The text of a number below ten. -/
def digit (n : Nat) : Str := [Char.ofNat (48 + n)]

/-- Hypotheses of `C118_same_partial` and `C118_written` are met: a function with two arguments that counts its calls. -/
example :
    ((decorate (E := Str) (fun n : Nat => .ok (digit n)) c!"AttributeError"
      ⟨some c!"sum", fun args _ w => (.ok (args.foldl (· + ·) 0), { w with rest := w.rest + 1 })⟩).call [1, 2] []
        (⟨(log (create 10) 10 c!"first").2, [], 0⟩ : World Nat)).2.lines =
    [⟨defaultFormat, 10, c!"Function <sum> called with arguments: <(1, 2)>, <{}>"⟩, ⟨defaultFormat, 10, c!"Function <sum> finished"⟩] := by
  have := (C118_written (E := Str) digit c!"AttributeError"
    (⟨some c!"sum", fun args _ w => (.ok (args.foldl (· + ·) 0), { w with rest := w.rest + 1 })⟩ : Fn Nat Str Nat) c!"sum" rfl [1, 2] []
    ⟨(log (create 10) 10 c!"first").2, [], 0⟩ _ rfl (by decide) defaultFormat rfl (.ok 3) []
    (fun w' h => ⟨rfl, h, by simp⟩)).2.2
  exact this

/-- Keyword arguments, and a function that raises. -/
example :
    ((decorate (E := Str) (fun n : Nat => .ok (digit n)) c!"AttributeError"
      ⟨some c!"f", fun _ _ w => (.error c!"bad", w)⟩).call [1] [(c!"x", 2), (c!"y", 3)]
        (⟨(log (create 10) 10 c!"first").2, [], 0⟩ : World Nat)).2.lines =
    [⟨defaultFormat, 10, c!"Function <f> called with arguments: <(1,)>, <{'x': 2, 'y': 3}>"⟩] :=
  (C118_written (E := Str) digit c!"AttributeError" (⟨some c!"f", fun _ _ w => (.error c!"bad", w)⟩ : Fn Nat Str Nat) c!"f" rfl [1]
    [(c!"x", 2), (c!"y", 3)] ⟨(log (create 10) 10 c!"first").2, [], 0⟩ _ rfl (by decide) defaultFormat rfl (.error c!"bad") []
    (fun w' h => ⟨rfl, h, by simp⟩)).2.2

/-- C119, part: if no access to an attribute raises, one text is written that names the class and exactly the callable attributes, in
the order of `dir`; nothing else happens. -/
theorem C119_methods_partial (o : Obj E) (callable : Str → Bool) (h : ∀ n ∈ o.dir, o.attr n = .ok (callable n)) (w : World W)
    (g : Logger) (hg : w.logger = g) (hon : g.cache.lookup 10 = some true) (fmt : Str) (hfmt : g.formats = [fmt]) :
    (introspect o w).1 = .ok () ∧ (introspect o w).2.rest = w.rest ∧ (introspect o w).2.lines = w.lines ++
      [⟨fmt, 10, c!"{Class: <" ++ o.className ++ c!"; Methods: [" ++
        commas ((o.dir.filter callable).map fun n => c!"'" ++ n ++ c!"'") ++ c!"]}"⟩] := by
  have key : ∀ ns : List Str, (∀ n ∈ ns, o.attr n = .ok (callable n)) → methods o ns = .ok (ns.filter callable) := by
    intro ns
    induction ns with
    | nil => exact fun _ => rfl
    | cons n ns ih =>
      intro hn
      simp only [methods, hn n List.mem_cons_self, ih fun n hm => hn n (List.mem_cons_of_mem _ hm), List.filter_cons]
  have hd : ∀ t, (debug w t).lines = w.lines ++ [⟨fmt, 10, t⟩] := by
    intro t
    simp [debug, log, hg, isEnabledFor, debugLevel, hon, hfmt]
  have hi : introspect o w = (.ok (), debug w (c!"{Class: <" ++ o.className ++ c!"; Methods: [" ++
      commas ((o.dir.filter callable).map quoted) ++ c!"]}")) := by
    simp only [introspect, key o.dir h]
  rw [hi]
  exact ⟨rfl, rfl, hd _⟩

example : ∃ l, (introspect (E := Str) ⟨c!"P", [c!"run", c!"x"], fun n => .ok (n == c!"run")⟩
    (⟨(log (create 10) 10 c!"first").2, [], ()⟩ : World Unit)).2.lines = [l] ∧
    l.message = c!"{Class: <P; Methods: ['run']}" := by
  have h := (C119_methods_partial (E := Str) ⟨c!"P", [c!"run", c!"x"], fun n => .ok (n == c!"run")⟩ (fun n => n == c!"run")
    (fun _ _ => rfl) (⟨(log (create 10) 10 c!"first").2, [], ()⟩ : World Unit) _ rfl (by decide) defaultFormat rfl).2.2
  exact ⟨_, h, by decide⟩

theorem methods_raises (o : Obj E) (n : Str) (e : E) (h : o.attr n = .error e) (ns : List Str) (hn : n ∈ ns) :
    ∃ e', methods o ns = .error e' := by
  induction ns with
  | nil => cases hn
  | cons m ns ih =>
    cases ha : o.attr m with
    | error e' => exact ⟨e', by simp [methods, ha]⟩
    | ok b =>
      rcases List.mem_cons.1 hn with rfl | hn
      · rw [h] at ha; cases ha
      · obtain ⟨e', he⟩ := ih hn
        exact ⟨e', by simp [methods, ha, he]⟩

/-- C119 does not hold: an attribute whose access raises, such as a property that is not available in the present state, makes the helper
raise, even when debug messages are not written. -/
theorem C119_negation (o : Obj E) (n : Str) (hn : n ∈ o.dir) (e : E) (h : o.attr n = .error e) (w : World W) :
    ∃ e', (introspect o w).1 = .error e' := by
  obtain ⟨e', he⟩ := methods_raises o n e h o.dir hn
  exact ⟨e', by simp [introspect, he]⟩

example : ∃ e', (introspect (⟨c!"P", [c!"run", c!"x"], fun n => if n = c!"x" then .error c!"bad" else .ok true⟩ : Obj Str)
    (⟨global, [], ()⟩ : World Unit)).1 = .error e' :=
  C119_negation _ c!"x" (by decide) c!"bad" rfl _

end Verif.PyDebug
