import Verif.Model.Singleton
/-!
C38: the safe singleton is created once.
-/
namespace Verif.Singleton

/-- A call that asks for the object to be created. -/
def creating (c : Call) : Prop := c = .init ∨ c = .get true

/-- Result of the call that creates object `o`. -/
def firstRet (o : Nat) : Call → Ret
  | .init => .done true
  | .get _ => .inst (some o)

/-- Result of a call when `o` exists already. -/
def laterRet (o : Nat) : Call → Ret
  | .init => .done false
  | .get _ => .inst (some o)

theorem run_before (s : State) (h : s.ptr = none) (cs : List Call) (hc : ∀ c ∈ cs, ¬ creating c) :
    run s cs = (s, cs.map fun _ => .inst none) := by
  induction cs with
  | nil => rfl
  | cons c cs ih =>
    have h0 := hc c (by simp)
    have ih := ih (fun d hd => hc d (by simp [hd]))
    cases c with
    | init => exact absurd (Or.inl rfl) h0
    | get b =>
      cases b with
      | true => exact absurd (Or.inr rfl) h0
      | false => simp [run, step, h, ih]

theorem run_after (s : State) (o : Nat) (h : s.ptr = some o) (cs : List Call) :
    run s cs = (s, cs.map (laterRet o)) := by
  induction cs with
  | nil => rfl
  | cons c cs ih =>
    cases c <;> simp [run, step, initializeNts, h, ih, laterRet]

theorem run_append (s : State) (as bs : List Call) :
    run s (as ++ bs) = ((run (run s as).1 bs).1, (run s as).2 ++ (run (run s as).1 bs).2) := by
  induction as generalizing s with
  | nil => rfl
  | cons a as ih => simp [run, ih]

/-- C38: before the first creating call every get returns null and nothing is built; the first creating
call builds the object and succeeds; afterwards every `initialize` fails, every get returns that same
object, and no further object is ever built. -/
theorem C38_history (pre post : List Call) (c : Call) (hpre : ∀ d ∈ pre, ¬ creating d)
    (hc : creating c) :
    run {} (pre ++ c :: post) =
      (⟨some 0, 1⟩, pre.map (fun _ => Ret.inst none) ++ firstRet 0 c :: post.map (laterRet 0)) := by
  rw [run_append, run_before {} rfl pre hpre]
  have hs : step {} c = (⟨some 0, 1⟩, firstRet 0 c) := by
    rcases hc with rfl | rfl <;> rfl
  simp only [run, hs]
  rw [run_after ⟨some 0, 1⟩ 0 rfl post]

/-- C38: at most one object is built in any history, and exactly one when some call creates. -/
theorem C38_once (cs : List Call) :
    ((run {} cs).1.built = 0 ∨ (run {} cs).1.built = 1) ∧
    ((run {} cs).1.built = 1 ↔ ∃ c ∈ cs, creating c) ∧
    ((run {} cs).2.count (.done true) ≤ 1) := by
  by_cases h : ∃ c ∈ cs, creating c
  · obtain ⟨pre, c, post, rfl, hpre, hc⟩ : ∃ pre c post, cs = pre ++ c :: post ∧
        (∀ d ∈ pre, ¬ creating d) ∧ creating c := by
      induction cs with
      | nil => obtain ⟨c, hc, -⟩ := h; cases hc
      | cons a cs ih =>
        by_cases ha : creating a
        · exact ⟨[], a, cs, rfl, by simp, ha⟩
        · obtain ⟨c, hm, hc⟩ := h
          rcases List.mem_cons.1 hm with rfl | hm
          · exact absurd hc ha
          · obtain ⟨pre, d, post, e, hp, hd⟩ := ih ⟨c, hm, hc⟩
            refine ⟨a :: pre, d, post, by rw [e]; rfl, ?_, hd⟩
            intro x hx
            rcases List.mem_cons.1 hx with rfl | hx
            · exact ha
            · exact hp x hx
    rw [C38_history pre post c hpre hc]
    refine ⟨Or.inr rfl, ⟨fun _ => h, fun _ => rfl⟩, ?_⟩
    rw [List.count_append, List.count_cons]
    have e1 : List.count (Ret.done true) (pre.map (fun _ => Ret.inst none)) = 0 := by
      rw [List.count_eq_zero]
      intro hm
      obtain ⟨_, _, e⟩ := List.mem_map.1 hm
      cases e
    have e2 : List.count (Ret.done true) (post.map (laterRet 0)) = 0 := by
      rw [List.count_eq_zero]
      intro hm
      obtain ⟨d, _, e⟩ := List.mem_map.1 hm
      cases d <;> simp [laterRet] at e
    rw [e1, e2]
    split <;> omega
  · have hn : ∀ d ∈ cs, ¬ creating d := fun d hd hc => h ⟨d, hd, hc⟩
    rw [run_before {} rfl cs hn]
    refine ⟨Or.inl rfl, ⟨fun e => (by simp at e), fun e => absurd e h⟩, ?_⟩
    have : List.count (Ret.done true) (cs.map (fun _ => Ret.inst none)) = 0 := by
      rw [List.count_eq_zero]
      intro hm
      obtain ⟨_, _, e⟩ := List.mem_map.1 hm
      cases e
    simp only [this]
    omega

/-- Non-trivial case. -/
example : (run {} [.get false, .get true, .init, .get false]).2 =
    [.inst none, .inst (some 0), .done false, .inst (some 0)] := by decide

end Verif.Singleton
