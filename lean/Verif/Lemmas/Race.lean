import Verif.Model.Race
/-!
Calls that access each member only while holding the mutexes meant for it do not race.
-/
namespace Verif.Race

variable {M V S : Type} [DecidableEq M]

/-- Some mutex of the list is held. -/
def holdsAny (H : List (M × Mode)) (ms : List M) : Bool := ms.any fun m => H.any fun h => decide (h.1 = m)

/-- All mutexes of the list are held alone, and there is one. -/
def holdsAll (H : List (M × Mode)) (ms : List M) : Bool :=
  !ms.isEmpty && ms.all fun m => H.any fun h => decide (h = (m, Mode.excl))

/-- Which mutexes are held after a command, if it is entered holding `H`, reads what is guarded by some mutexes only while
one of them is held, and writes it only while all of them are held alone. -/
def check (G : S → V → List M) (all : List S) : List (M × Mode) → Cmd M V S → Option (List (M × Mode))
  | H, .skip => some H
  | H, .lock m => some ((m, .excl) :: H)
  | H, .unlock m => match H with
    | h :: H' => if h = (m, .excl) then some H' else none
    | [] => none
  | H, .lockShared m => some ((m, .shared) :: H)
  | H, .unlockShared m => match H with
    | h :: H' => if h = (m, .shared) then some H' else none
    | [] => none
  | H, .read l => if all.all fun s => holdsAny H (G s (l s)) then some H else none
  | H, .write l _ => if all.all fun s => holdsAll H (G s (l s)) then some H else none
  | H, .seq a b => (check G all H a).bind fun H' => check G all H' b
  | H, .alt a b => match check G all H a, check G all H b with
    | some x, some y => if x = y then some x else none
    | _, _ => none
  | H, .loop a => if check G all H a = some H then some H else none
  | H, .client => some H

theorem holdsAny_append {H F : List (M × Mode)} {ms : List M} (h : holdsAny H ms = true) :
    holdsAny (H ++ F) ms = true := by
  simp only [holdsAny, List.any_eq_true, decide_eq_true_eq] at h ⊢
  obtain ⟨m, hm, x, hx, e⟩ := h
  exact ⟨m, hm, x, List.mem_append_left _ hx, e⟩

theorem holdsAll_append {H F : List (M × Mode)} {ms : List M} (h : holdsAll H ms = true) :
    holdsAll (H ++ F) ms = true := by
  simp only [holdsAll, Bool.and_eq_true, List.all_eq_true, List.any_eq_true, decide_eq_true_eq] at h ⊢
  refine ⟨h.1, fun m hm => ?_⟩
  obtain ⟨x, hx, e⟩ := h.2 m hm
  exact ⟨x, List.mem_append_left _ hx, e⟩

/-- Holding more does no harm. -/
theorem check_append {G : S → V → List M} {all : List S} (F : List (M × Mode)) (c : Cmd M V S) :
    ∀ {H H' : List (M × Mode)}, check G all H c = some H' → check G all (H ++ F) c = some (H' ++ F) := by
  induction c with
  | skip => intro H H' h; simp only [check, Option.some.injEq] at h ⊢; rw [h]
  | lock m => intro H H' h; simp only [check, Option.some.injEq] at h ⊢; rw [← h]; rfl
  | lockShared m => intro H H' h; simp only [check, Option.some.injEq] at h ⊢; rw [← h]; rfl
  | client => intro H H' h; simp only [check, Option.some.injEq] at h ⊢; rw [h]
  | unlock m =>
    intro H H' h
    cases H with
    | nil => simp [check] at h
    | cons x H =>
      simp only [check] at h
      split at h
      · rename_i e
        simp only [Option.some.injEq] at h
        rw [List.cons_append, check, if_pos e, h]
      · simp at h
  | unlockShared m =>
    intro H H' h
    cases H with
    | nil => simp [check] at h
    | cons x H =>
      simp only [check] at h
      split at h
      · rename_i e
        simp only [Option.some.injEq] at h
        rw [List.cons_append, check, if_pos e, h]
      · simp at h
  | read l =>
    intro H H' h
    simp only [check] at h ⊢
    split at h
    · rename_i e
      simp only [Option.some.injEq] at h
      rw [if_pos, h]
      rw [List.all_eq_true] at e ⊢
      exact fun s hs => holdsAny_append (e s hs)
    · simp at h
  | write l e =>
    intro H H' h
    simp only [check] at h ⊢
    split at h
    · rename_i e
      simp only [Option.some.injEq] at h
      rw [if_pos, h]
      rw [List.all_eq_true] at e ⊢
      exact fun s hs => holdsAll_append (e s hs)
    · simp at h
  | seq a b iha ihb =>
    intro H H' h
    simp only [check] at h ⊢
    cases ha : check G all H a with
    | none => rw [ha] at h; simp at h
    | some x =>
      rw [ha] at h
      rw [iha ha]
      exact ihb h
  | alt a b iha ihb =>
    intro H H' h
    simp only [check] at h ⊢
    cases ha : check G all H a with
    | none => rw [ha] at h; simp at h
    | some x =>
      cases hb : check G all H b with
      | none => rw [ha, hb] at h; simp at h
      | some y =>
        rw [ha, hb] at h
        rw [iha ha, ihb hb]
        simp only at h ⊢
        split at h
        · rename_i e
          simp only [Option.some.injEq] at h
          rw [if_pos (by rw [e]), h]
        · simp at h
  | loop a iha =>
    intro H H' h
    simp only [check] at h ⊢
    split at h
    · rename_i e
      simp only [Option.some.injEq] at h
      rw [if_pos (iha e), h]
    · simp at h

/-- The same for what a thread has still to do. -/
def run (G : S → V → List M) (all : List S) : List (M × Mode) → List (Cmd M V S) → Option (List (M × Mode))
  | H, [] => some H
  | H, c :: k => (check G all H c).bind fun H' => run G all H' k

/-- What holds at every moment. -/
structure Inv (G : S → V → List M) (all : List S) (s : State M V S) : Prop where
  excl : ∀ i j m k, i ≠ j → (m, Mode.excl) ∈ (s.th i).held → (m, k) ∉ (s.th j).held
  typed : ∀ i, run G all (s.th i).held (s.th i).todo = some []

theorem th_set_self (s : State M V S) (i : Nat) (t : Thread M V S) : (s.set i t).th i = t := by
  simp [State.set]

theorem th_set_ne (s : State M V S) {i j : Nat} (t : Thread M V S) (h : j ≠ i) : (s.set i t).th j = s.th j := by
  simp [State.set, h]

/-- A thread that gets no mutex changes nothing for the others. -/
theorem Inv.set {G : S → V → List M} {all : List S} {s : State M V S} (h : Inv G all s) (i : Nat) (t : Thread M V S)
    (hh : ∀ x ∈ t.held, x ∈ (s.th i).held) (ht : run G all t.held t.todo = some []) : Inv G all (s.set i t) := by
  refine ⟨fun a b m k hab ha hb => ?_, fun a => ?_⟩
  · have ha' : (m, Mode.excl) ∈ (s.th a).held := by
      by_cases e : a = i
      · subst e; rw [th_set_self] at ha; exact hh _ ha
      · rwa [th_set_ne _ _ e] at ha
    have hb' : (m, k) ∈ (s.th b).held := by
      by_cases e : b = i
      · subst e; rw [th_set_self] at hb; exact hh _ hb
      · rwa [th_set_ne _ _ e] at hb
    exact h.excl a b m k hab ha' hb'
  · by_cases e : a = i
    · subst e; rwa [th_set_self]
    · rw [th_set_ne _ _ e]; exact h.typed a

theorem Inv.data {G : S → V → List M} {all : List S} {s : State M V S} (h : Inv G all s) (d : S) :
    Inv G all { s with data := d } := ⟨h.excl, h.typed⟩

theorem run_cons {G : S → V → List M} {all : List S} {H : List (M × Mode)} {c : Cmd M V S} {k : List (Cmd M V S)}
    {r : List (M × Mode)} (h : run G all H (c :: k) = some r) :
    ∃ H', check G all H c = some H' ∧ run G all H' k = some r := by
  rw [run] at h
  cases hc : check G all H c with
  | none => rw [hc] at h; simp at h
  | some x => rw [hc] at h; exact ⟨x, rfl, h⟩

theorem run_mk {G : S → V → List M} {all : List S} {H H' : List (M × Mode)} {c : Cmd M V S} {k : List (Cmd M V S)}
    {r : List (M × Mode)} (hc : check G all H c = some H') (h : run G all H' k = some r) :
    run G all H (c :: k) = some r := by rw [run, hc]; exact h

/-- Calls that keep the discipline keep the invariant. -/
theorem inv_step {o : Obj M V S} {G : S → V → List M} {all : List S}
    (hc : ∀ c ∈ o.calls, check G all [] c = some []) {s s' : State M V S} (h : Inv G all s) (hs : Step o s s') :
    Inv G all s' := by
  cases hs with
  | start i c hm e =>
    refine h.set i _ (fun _ hx => hx) ?_
    have := h.typed i
    rw [e] at this
    simp only [run, Option.some.injEq] at this
    simp only [this]
    exact run_mk (hc c hm) rfl
  | skip i k e =>
    have := h.typed i; rw [e] at this
    obtain ⟨H', h1, h2⟩ := run_cons this
    simp only [check, Option.some.injEq] at h1
    exact h.set i _ (fun _ hx => hx) (by rw [h1]; exact h2)
  | lock i m k e hf hr =>
    have ht := h.typed i; rw [e] at ht
    obtain ⟨H', h1, h2⟩ := run_cons ht
    simp only [check, Option.some.injEq] at h1
    refine ⟨fun a b n x hab ha hb => ?_, fun a => ?_⟩
    · by_cases ea : a = i
      · subst ea
        rw [th_set_self] at ha
        rw [th_set_ne _ _ hab.symm] at hb
        rcases List.mem_cons.1 ha with h3 | h3
        · simp only [Prod.mk.injEq] at h3
          rw [h3.1] at hb
          exact hf b hab.symm x hb
        · exact h.excl a b n x hab h3 hb
      · rw [th_set_ne _ _ ea] at ha
        by_cases eb : b = i
        · subst eb
          rw [th_set_self] at hb
          rcases List.mem_cons.1 hb with h3 | h3
          · simp only [Prod.mk.injEq] at h3
            rw [h3.1] at ha
            exact hf a ea _ ha
          · exact h.excl a b n x hab ha h3
        · rw [th_set_ne _ _ eb] at hb
          exact h.excl a b n x hab ha hb
    · by_cases ea : a = i
      · subst ea; rw [th_set_self]; simp only [h1]; exact h2
      · rw [th_set_ne _ _ ea]; exact h.typed a
  | lockShared i m k e hf hr =>
    have ht := h.typed i; rw [e] at ht
    obtain ⟨H', h1, h2⟩ := run_cons ht
    simp only [check, Option.some.injEq] at h1
    refine ⟨fun a b n x hab ha hb => ?_, fun a => ?_⟩
    · by_cases ea : a = i
      · subst ea
        rw [th_set_self] at ha
        rw [th_set_ne _ _ hab.symm] at hb
        rcases List.mem_cons.1 ha with h3 | h3
        · simp at h3
        · exact h.excl a b n x hab h3 hb
      · rw [th_set_ne _ _ ea] at ha
        by_cases eb : b = i
        · subst eb
          rw [th_set_self] at hb
          rcases List.mem_cons.1 hb with h3 | h3
          · simp only [Prod.mk.injEq] at h3
            rw [h3.1] at ha
            exact hf a ea ha
          · exact h.excl a b n x hab ha h3
        · rw [th_set_ne _ _ eb] at hb
          exact h.excl a b n x hab ha hb
    · by_cases ea : a = i
      · subst ea; rw [th_set_self]; simp only [h1]; exact h2
      · rw [th_set_ne _ _ ea]; exact h.typed a
  | unlock i m k e =>
    have ht := h.typed i; rw [e] at ht
    obtain ⟨H', h1, h2⟩ := run_cons ht
    refine h.set i _ (fun _ hx => List.mem_of_mem_erase hx) ?_
    generalize (s.th i).held = H at h1 ⊢
    cases H with
    | nil => simp [check] at h1
    | cons x H =>
      simp only [check] at h1
      split at h1
      · rename_i ex
        simp only [Option.some.injEq] at h1
        simp only [ex, List.erase_cons_head, h1]
        exact h2
      · simp at h1
  | unlockShared i m k e =>
    have ht := h.typed i; rw [e] at ht
    obtain ⟨H', h1, h2⟩ := run_cons ht
    refine h.set i _ (fun _ hx => List.mem_of_mem_erase hx) ?_
    generalize (s.th i).held = H at h1 ⊢
    cases H with
    | nil => simp [check] at h1
    | cons x H =>
      simp only [check] at h1
      split at h1
      · rename_i ex
        simp only [Option.some.injEq] at h1
        simp only [ex, List.erase_cons_head, h1]
        exact h2
      · simp at h1
  | read i l k e =>
    have ht := h.typed i; rw [e] at ht
    obtain ⟨H', h1, h2⟩ := run_cons ht
    refine h.set i _ (fun _ hx => hx) ?_
    simp only [check] at h1
    split at h1
    · simp only [Option.some.injEq] at h1; rw [h1]; exact h2
    · simp at h1
  | write i l f k e =>
    have ht := h.typed i; rw [e] at ht
    obtain ⟨H', h1, h2⟩ := run_cons ht
    refine Inv.data (s := s.set i ⟨(s.th i).held, k⟩) (h.set i _ (fun _ hx => hx) ?_) _
    simp only [check] at h1
    split at h1
    · simp only [Option.some.injEq] at h1; rw [h1]; exact h2
    · simp at h1
  | seq i a b k e =>
    have ht := h.typed i; rw [e] at ht
    obtain ⟨H', h1, h2⟩ := run_cons ht
    refine h.set i _ (fun _ hx => hx) ?_
    simp only [check] at h1
    cases ha : check G all (s.th i).held a with
    | none => rw [ha] at h1; simp at h1
    | some x => rw [ha] at h1; exact run_mk ha (run_mk h1 h2)
  | left i a b k e =>
    have ht := h.typed i; rw [e] at ht
    obtain ⟨H', h1, h2⟩ := run_cons ht
    refine h.set i _ (fun _ hx => hx) ?_
    simp only [check] at h1
    split at h1
    · rename_i x y ha hb
      split at h1
      · simp only [Option.some.injEq] at h1
        exact run_mk ha (by rw [h1]; exact h2)
      · simp at h1
    · simp at h1
  | right i a b k e =>
    have ht := h.typed i; rw [e] at ht
    obtain ⟨H', h1, h2⟩ := run_cons ht
    refine h.set i _ (fun _ hx => hx) ?_
    simp only [check] at h1
    split at h1
    · rename_i x y ha hb
      split at h1
      · rename_i exy
        simp only [Option.some.injEq] at h1
        exact run_mk hb (by rw [← exy, h1]; exact h2)
      · simp at h1
    · simp at h1
  | again i a k e =>
    have ht := h.typed i; rw [e] at ht
    obtain ⟨H', h1, h2⟩ := run_cons ht
    refine h.set i _ (fun _ hx => hx) ?_
    have h3 := h1
    simp only [check] at h3
    split at h3
    · rename_i ha
      exact run_mk ha (run_mk h1 h2)
    · simp at h3
  | done i a k e =>
    have ht := h.typed i; rw [e] at ht
    obtain ⟨H', h1, h2⟩ := run_cons ht
    refine h.set i _ (fun _ hx => hx) ?_
    simp only [check] at h1
    split at h1
    · simp only [Option.some.injEq] at h1; rw [h1]; exact h2
    · simp at h1
  | call i c k hm e =>
    have ht := h.typed i; rw [e] at ht
    refine h.set i _ (fun _ hx => hx) ?_
    have := check_append (s.th i).held c (hc c hm)
    rw [List.nil_append] at this
    exact run_mk this ht
  | back i k e =>
    have ht := h.typed i; rw [e] at ht
    obtain ⟨H', h1, h2⟩ := run_cons ht
    simp only [check, Option.some.injEq] at h1
    exact h.set i _ (fun _ hx => hx) (by rw [h1]; exact h2)

theorem inv_reachable {o : Obj M V S} {G : S → V → List M} {all : List S}
    (hc : ∀ c ∈ o.calls, check G all [] c = some []) {d : S} {s : State M V S} (hr : Reachable o d s) :
    Inv G all s := by
  induction hr with
  | init => exact ⟨fun _ _ _ _ _ h => by simp [idle] at h, fun _ => rfl⟩
  | step _ hs ih => exact inv_step hc ih hs

/-- Calls that keep the discipline do not race. -/
theorem no_race {o : Obj M V S} (G : S → V → List M) (all : List S) (hall : ∀ s, s ∈ all)
    (hc : ∀ c ∈ o.calls, check G all [] c = some []) {d : S} {s : State M V S} (hr : Reachable o d s) : ¬ Race s := by
  have h := inv_reachable hc hr
  rintro ⟨i, j, v, hij, ⟨l, e, k, hw, hv⟩, hj⟩
  have hti := h.typed i; rw [hw] at hti
  obtain ⟨H', h1, -⟩ := run_cons hti
  have hwi : holdsAll (s.th i).held (G s.data v) = true := by
    simp only [check] at h1
    split at h1
    · rename_i ha
      rw [← hv]
      exact (List.all_eq_true.1 ha) s.data (hall _)
    · simp at h1
  simp only [holdsAll, Bool.and_eq_true, List.all_eq_true, List.any_eq_true, decide_eq_true_eq] at hwi
  have key : ∃ m ∈ G s.data v, ∃ x, (m, x) ∈ (s.th j).held := by
    rcases hj with ⟨l', e', k', hw', hv'⟩ | ⟨l', k', hw', hv'⟩
    · have htj := h.typed j; rw [hw'] at htj
      obtain ⟨H'', h1', -⟩ := run_cons htj
      have hwj : holdsAll (s.th j).held (G s.data v) = true := by
        simp only [check] at h1'
        split at h1'
        · rename_i ha
          rw [← hv']
          exact (List.all_eq_true.1 ha) s.data (hall _)
        · simp at h1'
      simp only [holdsAll, Bool.and_eq_true, List.all_eq_true, List.any_eq_true, decide_eq_true_eq] at hwj
      cases hg : G s.data v with
      | nil => rw [hg] at hwj; simp at hwj
      | cons m ms =>
        obtain ⟨x, hx, ex⟩ := hwj.2 m (by rw [hg]; simp)
        exact ⟨m, by simp, .excl, by rw [← ex]; exact hx⟩
    · have htj := h.typed j; rw [hw'] at htj
      obtain ⟨H'', h1', -⟩ := run_cons htj
      have hrj : holdsAny (s.th j).held (G s.data v) = true := by
        simp only [check] at h1'
        split at h1'
        · rename_i ha
          rw [← hv']
          exact (List.all_eq_true.1 ha) s.data (hall _)
        · simp at h1'
      simp only [holdsAny, List.any_eq_true, decide_eq_true_eq] at hrj
      obtain ⟨m, hm, x, hx, ex⟩ := hrj
      exact ⟨m, hm, x.2, by rw [← ex]; exact hx⟩
  obtain ⟨m, hm, x, hx⟩ := key
  obtain ⟨y, hy, ey⟩ := hwi.2 m hm
  exact h.excl i j m x hij (by rw [← ey]; exact hy) hx

end Verif.Race
