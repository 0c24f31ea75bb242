import Verif.Model.LockOrder
import Verif.Lemmas.Race
/-!
Calls that take mutexes in one order do not wait for each other in a circle.
-/
namespace Verif.Race

variable {M V S : Type} [DecidableEq M]

/-- Which mutexes are held after a command that is entered holding `H` and takes mutexes only above those it holds, or
again (if they are recursive), and calls callbacks only while holding none. -/
def ordered (rank : M → Nat) (r : M → Bool) : List (M × Mode) → Cmd M V S → Option (List (M × Mode))
  | H, .skip => some H
  | H, .lock m => if (H.all fun h => decide (rank h.1 < rank m)) || (r m && decide ((m, Mode.excl) ∈ H)) then
      some ((m, .excl) :: H) else none
  | H, .unlock m => match H with
    | h :: H' => if h = (m, .excl) then some H' else none
    | [] => none
  | H, .lockShared m => if H.all fun h => decide (rank h.1 < rank m) then some ((m, .shared) :: H) else none
  | H, .unlockShared m => match H with
    | h :: H' => if h = (m, .shared) then some H' else none
    | [] => none
  | H, .read _ => some H
  | H, .write _ _ => some H
  | H, .seq a b => (ordered rank r H a).bind fun H' => ordered rank r H' b
  | H, .alt a b => match ordered rank r H a, ordered rank r H b with
    | some x, some y => if x = y then some x else none
    | _, _ => none
  | H, .loop a => if ordered rank r H a = some H then some H else none
  | H, .client => if H = [] then some [] else none

/-- The same for what a thread has still to do. -/
def orun (rank : M → Nat) (r : M → Bool) : List (M × Mode) → List (Cmd M V S) → Option (List (M × Mode))
  | H, [] => some H
  | H, c :: k => (ordered rank r H c).bind fun H' => orun rank r H' k

theorem orun_cons {rank : M → Nat} {r : M → Bool} {H : List (M × Mode)} {c : Cmd M V S} {k : List (Cmd M V S)}
    {x : List (M × Mode)} (h : orun rank r H (c :: k) = some x) :
    ∃ H', ordered rank r H c = some H' ∧ orun rank r H' k = some x := by
  rw [orun] at h
  cases hc : ordered rank r H c with
  | none => rw [hc] at h; simp at h
  | some y => rw [hc] at h; exact ⟨y, rfl, h⟩

theorem orun_mk {rank : M → Nat} {r : M → Bool} {H H' : List (M × Mode)} {c : Cmd M V S} {k : List (Cmd M V S)}
    {x : List (M × Mode)} (hc : ordered rank r H c = some H') (h : orun rank r H' k = some x) :
    orun rank r H (c :: k) = some x := by rw [orun, hc]; exact h

/-- A mutex that is held alone is held by one thread. -/
def Excl (s : State M V S) : Prop :=
  ∀ i j m k, i ≠ j → (m, Mode.excl) ∈ (s.th i).held → (m, k) ∉ (s.th j).held

theorem Excl.set {s : State M V S} (h : Excl s) (i : Nat) (t : Thread M V S)
    (hh : ∀ x ∈ t.held, x ∈ (s.th i).held) : Excl (s.set i t) := by
  intro a b m k hab ha hb
  have ha' : (m, Mode.excl) ∈ (s.th a).held := by
    by_cases e : a = i
    · subst e; rw [th_set_self] at ha; exact hh _ ha
    · rwa [th_set_ne _ _ e] at ha
  have hb' : (m, k) ∈ (s.th b).held := by
    by_cases e : b = i
    · subst e; rw [th_set_self] at hb; exact hh _ hb
    · rwa [th_set_ne _ _ e] at hb
  exact h a b m k hab ha' hb'

theorem excl_step {o : Obj M V S} {s s' : State M V S} (h : Excl s) (hs : Step o s s') : Excl s' := by
  cases hs with
  | lock i m k e hf hr =>
    intro a b n x hab ha hb
    by_cases ea : a = i
    · subst ea
      rw [th_set_self] at ha
      rw [th_set_ne _ _ hab.symm] at hb
      rcases List.mem_cons.1 ha with h3 | h3
      · simp only [Prod.mk.injEq] at h3
        rw [h3.1] at hb
        exact hf b hab.symm x hb
      · exact h a b n x hab h3 hb
    · rw [th_set_ne _ _ ea] at ha
      by_cases eb : b = i
      · subst eb
        rw [th_set_self] at hb
        rcases List.mem_cons.1 hb with h3 | h3
        · simp only [Prod.mk.injEq] at h3
          rw [h3.1] at ha
          exact hf a ea _ ha
        · exact h a b n x hab ha h3
      · rw [th_set_ne _ _ eb] at hb
        exact h a b n x hab ha hb
  | lockShared i m k e hf hr =>
    intro a b n x hab ha hb
    by_cases ea : a = i
    · subst ea
      rw [th_set_self] at ha
      rw [th_set_ne _ _ hab.symm] at hb
      rcases List.mem_cons.1 ha with h3 | h3
      · simp at h3
      · exact h a b n x hab h3 hb
    · rw [th_set_ne _ _ ea] at ha
      by_cases eb : b = i
      · subst eb
        rw [th_set_self] at hb
        rcases List.mem_cons.1 hb with h3 | h3
        · simp only [Prod.mk.injEq] at h3
          rw [h3.1] at ha
          exact hf a ea ha
        · exact h a b n x hab ha h3
      · rw [th_set_ne _ _ eb] at hb
        exact h a b n x hab ha hb
  | unlock i m k e => exact h.set i _ fun _ hx => List.mem_of_mem_erase hx
  | unlockShared i m k e => exact h.set i _ fun _ hx => List.mem_of_mem_erase hx
  | start i => exact h.set i _ fun _ hx => hx
  | skip i => exact h.set i _ fun _ hx => hx
  | read i => exact h.set i _ fun _ hx => hx
  | write i l e k hk => exact h.set i ⟨(s.th i).held, k⟩ fun _ hx => hx
  | seq i => exact h.set i _ fun _ hx => hx
  | left i => exact h.set i _ fun _ hx => hx
  | right i => exact h.set i _ fun _ hx => hx
  | again i => exact h.set i _ fun _ hx => hx
  | done i => exact h.set i _ fun _ hx => hx
  | call i => exact h.set i _ fun _ hx => hx
  | back i => exact h.set i _ fun _ hx => hx

theorem excl_reachable {o : Obj M V S} {d : S} {s : State M V S} (hr : Reachable o d s) : Excl s := by
  induction hr with
  | init => exact fun _ _ _ _ _ h => by simp [idle] at h
  | step _ hs ih => exact excl_step ih hs

/-- Every thread keeps to the order. -/
def Typed (rank : M → Nat) (r : M → Bool) (s : State M V S) : Prop :=
  ∀ i, orun rank r (s.th i).held (s.th i).todo = some []

theorem Typed.set {rank : M → Nat} {r : M → Bool} {s : State M V S} (h : Typed rank r s) (i : Nat) (t : Thread M V S)
    (ht : orun rank r t.held t.todo = some []) : Typed rank r (s.set i t) := by
  intro a
  by_cases e : a = i
  · subst e; rwa [th_set_self]
  · rw [th_set_ne _ _ e]; exact h a

theorem typed_step {o : Obj M V S} {rank : M → Nat} {r : M → Bool}
    (hc : ∀ c ∈ o.calls, ordered rank r [] c = some []) {s s' : State M V S} (h : Typed rank r s) (hs : Step o s s') :
    Typed rank r s' := by
  cases hs with
  | start i c hm e =>
    refine h.set i _ ?_
    have := h i
    rw [e] at this
    simp only [orun, Option.some.injEq] at this
    simp only [this]
    exact orun_mk (hc c hm) rfl
  | skip i k e =>
    have := h i; rw [e] at this
    obtain ⟨H', h1, h2⟩ := orun_cons this
    simp only [ordered, Option.some.injEq] at h1
    exact h.set i _ (by rw [h1]; exact h2)
  | lock i m k e hf hr =>
    have ht := h i; rw [e] at ht
    obtain ⟨H', h1, h2⟩ := orun_cons ht
    simp only [ordered] at h1
    split at h1
    · simp only [Option.some.injEq] at h1
      exact h.set i _ (by simp only [h1]; exact h2)
    · simp at h1
  | lockShared i m k e hf hr =>
    have ht := h i; rw [e] at ht
    obtain ⟨H', h1, h2⟩ := orun_cons ht
    simp only [ordered] at h1
    split at h1
    · simp only [Option.some.injEq] at h1
      exact h.set i _ (by simp only [h1]; exact h2)
    · simp at h1
  | unlock i m k e =>
    have ht := h i; rw [e] at ht
    obtain ⟨H', h1, h2⟩ := orun_cons ht
    refine h.set i _ ?_
    generalize (s.th i).held = H at h1 ⊢
    cases H with
    | nil => simp [ordered] at h1
    | cons x H =>
      simp only [ordered] at h1
      split at h1
      · rename_i ex
        simp only [Option.some.injEq] at h1
        simp only [ex, List.erase_cons_head, h1]
        exact h2
      · simp at h1
  | unlockShared i m k e =>
    have ht := h i; rw [e] at ht
    obtain ⟨H', h1, h2⟩ := orun_cons ht
    refine h.set i _ ?_
    generalize (s.th i).held = H at h1 ⊢
    cases H with
    | nil => simp [ordered] at h1
    | cons x H =>
      simp only [ordered] at h1
      split at h1
      · rename_i ex
        simp only [Option.some.injEq] at h1
        simp only [ex, List.erase_cons_head, h1]
        exact h2
      · simp at h1
  | read i l k e =>
    have ht := h i; rw [e] at ht
    obtain ⟨H', h1, h2⟩ := orun_cons ht
    simp only [ordered, Option.some.injEq] at h1
    exact h.set i _ (by rw [h1]; exact h2)
  | write i l f k e =>
    have ht := h i; rw [e] at ht
    obtain ⟨H', h1, h2⟩ := orun_cons ht
    simp only [ordered, Option.some.injEq] at h1
    exact h.set i ⟨(s.th i).held, k⟩ (by rw [h1]; exact h2)
  | seq i a b k e =>
    have ht := h i; rw [e] at ht
    obtain ⟨H', h1, h2⟩ := orun_cons ht
    refine h.set i _ ?_
    simp only [ordered] at h1
    cases ha : ordered rank r (s.th i).held a with
    | none => rw [ha] at h1; simp at h1
    | some x => rw [ha] at h1; exact orun_mk ha (orun_mk h1 h2)
  | left i a b k e =>
    have ht := h i; rw [e] at ht
    obtain ⟨H', h1, h2⟩ := orun_cons ht
    refine h.set i _ ?_
    simp only [ordered] at h1
    split at h1
    · rename_i x y ha hb
      split at h1
      · simp only [Option.some.injEq] at h1
        exact orun_mk ha (by rw [h1]; exact h2)
      · simp at h1
    · simp at h1
  | right i a b k e =>
    have ht := h i; rw [e] at ht
    obtain ⟨H', h1, h2⟩ := orun_cons ht
    refine h.set i _ ?_
    simp only [ordered] at h1
    split at h1
    · rename_i x y ha hb
      split at h1
      · rename_i exy
        simp only [Option.some.injEq] at h1
        exact orun_mk hb (by rw [← exy, h1]; exact h2)
      · simp at h1
    · simp at h1
  | again i a k e =>
    have ht := h i; rw [e] at ht
    obtain ⟨H', h1, h2⟩ := orun_cons ht
    refine h.set i _ ?_
    have h3 := h1
    simp only [ordered] at h3
    split at h3
    · rename_i ha
      exact orun_mk ha (orun_mk h1 h2)
    · simp at h3
  | done i a k e =>
    have ht := h i; rw [e] at ht
    obtain ⟨H', h1, h2⟩ := orun_cons ht
    refine h.set i _ ?_
    simp only [ordered] at h1
    split at h1
    · simp only [Option.some.injEq] at h1; rw [h1]; exact h2
    · simp at h1
  | call i c k hm e =>
    have ht := h i; rw [e] at ht
    refine h.set i _ ?_
    have h0 : (s.th i).held = [] := by
      obtain ⟨H', h1, -⟩ := orun_cons ht
      simp only [ordered] at h1
      split at h1
      · assumption
      · simp at h1
    simp only [h0] at ht ⊢
    exact orun_mk (hc c hm) ht
  | back i k e =>
    have ht := h i; rw [e] at ht
    obtain ⟨H', h1, h2⟩ := orun_cons ht
    refine h.set i _ ?_
    simp only [ordered] at h1
    split at h1
    · rename_i h0
      simp only [Option.some.injEq] at h1
      subst h1
      simp only [h0]; exact h2
    · simp at h1

theorem typed_reachable {o : Obj M V S} {rank : M → Nat} {r : M → Bool}
    (hc : ∀ c ∈ o.calls, ordered rank r [] c = some []) {d : S} {s : State M V S} (hr : Reachable o d s) :
    Typed rank r s := by
  induction hr with
  | init => exact fun _ => rfl
  | step _ hs ih => exact typed_step hc ih hs

/-- A thread that is blocked waits for a mutex above all that it holds. -/
theorem blocked_above {o : Obj M V S} {rank : M → Nat} {s : State M V S} (he : Excl s)
    (ht : Typed rank o.recursive s) {i j : Nat} (hb : Blocked o s i) (hw : Waits s i j) :
    ∃ h' ∈ (s.th j).held, ∀ h ∈ (s.th i).held, rank h.1 < rank h'.1 := by
  rcases hw with ⟨m, k, x, e, hx⟩ | ⟨m, k, e, hx⟩
  · have h := ht i; rw [e] at h
    obtain ⟨H', h1, -⟩ := orun_cons h
    simp only [ordered] at h1
    split at h1
    · rename_i hc
      rw [Bool.or_eq_true] at hc
      rcases hc with hc | hc
      · simp only [List.all_eq_true, decide_eq_true_eq] at hc
        exact ⟨_, hx, hc⟩
      · simp only [Bool.and_eq_true, decide_eq_true_eq] at hc
        rcases hb with ⟨m', k', e', hn⟩ | ⟨m', k', e', hn⟩
        · rw [e] at e'
          simp only [List.cons.injEq, Cmd.lock.injEq] at e'
          rw [← e'.1] at hn
          exact absurd ⟨fun j hj x hx => he i j m x hj.symm hc.2 hx, .inl hc.1⟩ hn
        · rw [e] at e'
          simp at e'
    · simp at h1
  · have h := ht i; rw [e] at h
    obtain ⟨H', h1, -⟩ := orun_cons h
    simp only [ordered] at h1
    split at h1
    · rename_i hc
      simp only [List.all_eq_true, decide_eq_true_eq] at hc
      exact ⟨_, hx, hc⟩
    · simp at h1

/-- A thread that is blocked waits for some thread. -/
theorem blocked_waits {o : Obj M V S} {s : State M V S} {i : Nat} (hb : Blocked o s i) : ∃ j, Waits s i j := by
  rcases hb with ⟨m, k, e, hn⟩ | ⟨m, k, e, hn⟩
  · refine Classical.byContradiction fun hno => hn ⟨fun j _ x hx => hno ⟨j, .inl ⟨m, k, x, e, hx⟩⟩, .inr fun x hx => ?_⟩
    exact hno ⟨i, .inl ⟨m, k, x, e, hx⟩⟩
  · refine Classical.byContradiction fun hno => hn ⟨fun j _ hx => hno ⟨j, .inr ⟨m, k, e, hx⟩⟩, fun hx => ?_⟩
    exact hno ⟨i, .inr ⟨m, k, e, hx⟩⟩

/-- Calls that keep to the order never deadlock. -/
theorem no_deadlock {o : Obj M V S} (rank : M → Nat) (B : Nat) (hB : ∀ m, rank m ≤ B)
    (hc : ∀ c ∈ o.calls, ordered rank o.recursive [] c = some []) {d : S} {s : State M V S} (hr : Reachable o d s)
    (D : Nat → Prop) : ¬ Deadlock o s D := by
  have he := excl_reachable hr
  have ht := typed_reachable hc hr
  rintro ⟨⟨i, hi⟩, hall⟩
  have key : ∀ n i, D i → (∃ h ∈ (s.th i).held, B ≤ rank h.1 + n) → False := by
    intro n
    induction n with
    | zero =>
      rintro i hi ⟨h, hh, hn⟩
      obtain ⟨hb, j, -, hw⟩ := hall i hi
      obtain ⟨h', -, hm⟩ := blocked_above he ht hb hw
      have := hm h hh
      have := hB h'.1
      omega
    | succ n ih =>
      rintro i hi ⟨h, hh, hn⟩
      obtain ⟨hb, j, hj, hw⟩ := hall i hi
      obtain ⟨h', hx, hm⟩ := blocked_above he ht hb hw
      refine ih j hj ⟨h', hx, ?_⟩
      have := hm h hh
      omega
  obtain ⟨hb, j, hj, hw⟩ := hall i hi
  obtain ⟨h', hx, -⟩ := blocked_above he ht hb hw
  exact key B j hj ⟨h', hx, by omega⟩

/-- A thread in a call that is not blocked can go on. -/
theorem goes_on {o : Obj M V S} {s : State M V S} {i : Nat} (hi : (s.th i).todo ≠ []) (hb : ¬ Blocked o s i) :
    ∃ s', Step o s s' ∧ s'.th i ≠ s.th i ∧ ∀ j, j ≠ i → s'.th j = s.th j := by
  have len : ∀ (t : Thread M V S), t.todo ≠ (s.th i).todo → (s.set i t).th i ≠ s.th i := fun t h e => by
    rw [th_set_self] at e
    exact h (by rw [e])
  cases ht : (s.th i).todo with
  | nil => exact absurd ht hi
  | cons c k =>
    have hk : ∀ (l : List (Cmd M V S)), l.length ≠ k.length + 1 → l ≠ (s.th i).todo := by
      intro l hl e
      rw [e, ht] at hl
      simp at hl
    cases c with
    | skip => exact ⟨_, .skip i k ht, len _ (hk _ (by simp)), fun j hj => th_set_ne _ _ hj⟩
    | lock m =>
      have : s.FreeFor i m ∧ (o.recursive m = true ∨ ∀ x, (m, x) ∉ (s.th i).held) :=
        Classical.byContradiction fun h => hb (.inl ⟨m, k, ht, h⟩)
      exact ⟨_, .lock i m k ht this.1 this.2, len _ (hk _ (by simp)), fun j hj => th_set_ne _ _ hj⟩
    | lockShared m =>
      have : s.FreeForShared i m ∧ (m, Mode.excl) ∉ (s.th i).held :=
        Classical.byContradiction fun h => hb (.inr ⟨m, k, ht, h⟩)
      exact ⟨_, .lockShared i m k ht this.1 this.2, len _ (hk _ (by simp)), fun j hj => th_set_ne _ _ hj⟩
    | unlock m => exact ⟨_, .unlock i m k ht, len _ (hk _ (by simp)), fun j hj => th_set_ne _ _ hj⟩
    | unlockShared m => exact ⟨_, .unlockShared i m k ht, len _ (hk _ (by simp)), fun j hj => th_set_ne _ _ hj⟩
    | read l => exact ⟨_, .read i l k ht, len _ (hk _ (by simp)), fun j hj => th_set_ne _ _ hj⟩
    | write l e =>
      exact ⟨_, .write i l e k ht, len ⟨(s.th i).held, k⟩ (hk _ (by simp)), fun j hj => th_set_ne _ _ hj⟩
    | seq a b => exact ⟨_, .seq i a b k ht, len _ (hk _ (by simp)), fun j hj => th_set_ne _ _ hj⟩
    | alt a b =>
      refine ⟨_, .left i a b k ht, len _ fun e => ?_, fun j hj => th_set_ne _ _ hj⟩
      rw [ht] at e
      simp only [List.cons.injEq, and_true] at e
      have := congrArg sizeOf e
      simp at this
      omega
    | loop a => exact ⟨_, .done i a k ht, len _ (hk _ (by simp)), fun j hj => th_set_ne _ _ hj⟩
    | client => exact ⟨_, .back i k ht, len _ (hk _ (by simp)), fun j hj => th_set_ne _ _ hj⟩

/-- As long as a thread is in a call, some thread can go on with its call. -/
theorem someone_goes_on {o : Obj M V S} (rank : M → Nat) (B : Nat) (hB : ∀ m, rank m ≤ B)
    (hc : ∀ c ∈ o.calls, ordered rank o.recursive [] c = some []) {d : S} {s : State M V S} (hr : Reachable o d s)
    {i : Nat} (hi : (s.th i).todo ≠ []) :
    ∃ j s', (s.th j).todo ≠ [] ∧ Step o s s' ∧ s'.th j ≠ s.th j ∧ ∀ k, k ≠ j → s'.th k = s.th k := by
  have ht := typed_reachable hc hr
  refine Classical.byContradiction fun hno => ?_
  have hall : ∀ j, (s.th j).todo ≠ [] → Blocked o s j := fun j hj => Classical.byContradiction fun hb =>
    let ⟨s', h⟩ := goes_on hj hb
    hno ⟨j, s', hj, h⟩
  refine no_deadlock rank B hB hc hr (fun j => (s.th j).todo ≠ []) ⟨⟨i, hi⟩, fun j hj => ⟨hall j hj, ?_⟩⟩
  obtain ⟨k, hk⟩ := blocked_waits (hall j hj)
  refine ⟨k, fun e => ?_, hk⟩
  have h0 := ht k
  rw [e] at h0
  simp only [orun, Option.some.injEq] at h0
  rcases hk with ⟨m, _, x, -, hx⟩ | ⟨m, _, -, hx⟩ <;> rw [h0] at hx <;> simp at hx

/-- Calls that keep to the order are never stuck. -/
theorem unstuck {o : Obj M V S} (rank : M → Nat) (B : Nat) (hB : ∀ m, rank m ≤ B)
    (hc : ∀ c ∈ o.calls, ordered rank o.recursive [] c = some []) {d : S} {s : State M V S} (hr : Reachable o d s) :
    Unstuck o s :=
  ⟨no_deadlock rank B hB hc hr, fun _ hi => someone_goes_on rank B hB hc hr hi⟩

/-- Any of several commands that leave the mutexes as they were. -/
theorem ordered_anyOf {rank : M → Nat} {r : M → Bool} {H : List (M × Mode)} {cs : List (Cmd M V S)}
    (h : ∀ c ∈ cs, ordered rank r H c = some H) : ordered rank r H (anyOf cs) = some H := by
  induction cs with
  | nil => rfl
  | cons c cs ih =>
    have h1 := h c (List.mem_cons_self ..)
    have h2 := ih fun x hx => h x (List.mem_cons_of_mem _ hx)
    simp only [anyOf] at h2
    simp only [anyOf, List.foldr_cons, ordered, h1, h2, if_true]

end Verif.Race
