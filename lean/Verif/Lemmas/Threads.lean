import Verif.Model.Threads
/-!
Lemmas about lists of threads and about executions.
-/
namespace Verif.Threads

theorem set_get {α : Type} {l : List α} {i j : Nat} {y z : α} (h : (l.set i y)[j]? = some z) :
    (j = i ∧ z = y ∧ i < l.length) ∨ (j ≠ i ∧ l[j]? = some z) := by
  rw [List.getElem?_set] at h
  by_cases hij : i = j
  · subst hij
    rw [if_pos rfl] at h
    by_cases hl : i < l.length
    · rw [if_pos hl] at h
      left
      exact ⟨rfl, (Option.some.inj h).symm, hl⟩
    · rw [if_neg hl] at h
      cases h
  · rw [if_neg hij] at h
    right
    exact ⟨fun e => hij e.symm, h⟩

theorem get_set_self {α : Type} {l : List α} {i : Nat} {x y : α} (h : l[i]? = some x) :
    (l.set i y)[i]? = some y := by
  have hl : i < l.length := (List.getElem?_eq_some_iff.1 h).1
  rw [List.getElem?_set, if_pos rfl, if_pos hl]

theorem get_set_ne {α : Type} {l : List α} {i j : Nat} {y : α} (h : j ≠ i) :
    (l.set i y)[j]? = l[j]? := by
  rw [List.getElem?_set, if_neg (fun e => h e.symm)]

/-- Replacing one thread changes a count by that thread only. -/
theorem countP_set {α : Type} (p : α → Bool) {l : List α} {i : Nat} {x : α} (y : α)
    (h : l[i]? = some x) :
    (l.set i y).countP p + (if p x then 1 else 0) = l.countP p + (if p y then 1 else 0) := by
  induction l generalizing i with
  | nil => simp at h
  | cons a l ih =>
    cases i with
    | zero =>
      simp only [List.getElem?_cons_zero, Option.some.injEq] at h
      subst h
      simp only [List.set_cons_zero, List.countP_cons]
      omega
    | succ i =>
      simp only [List.getElem?_cons_succ] at h
      have := ih h
      simp only [List.set_cons_succ, List.countP_cons]
      omega

theorem countP_map_of {α : Type} (p : α → Bool) (f : α → α) (l : List α)
    (h : ∀ a, p (f a) = p a) : (l.map f).countP p = l.countP p := by
  induction l with
  | nil => rfl
  | cons a l ih => simp [List.countP_cons, ih, h]

theorem map_get {α : Type} {f : α → α} {l : List α} {j : Nat} {z : α} (h : (l.map f)[j]? = some z) :
    ∃ a, l[j]? = some a ∧ z = f a := by
  rw [List.getElem?_map] at h
  cases ha : l[j]? with
  | none => rw [ha] at h; cases h
  | some a => rw [ha] at h; exact ⟨a, rfl, (Option.some.inj h).symm⟩

theorem countP_pos_of_get {α : Type} (p : α → Bool) {l : List α} {i : Nat} {x : α}
    (h : l[i]? = some x) (hp : p x = true) : 0 < l.countP p :=
  List.countP_pos_iff.2 ⟨x, List.mem_of_getElem? h, hp⟩

theorem exists_of_countP_pos {α : Type} (p : α → Bool) {l : List α} (h : 0 < l.countP p) :
    ∃ (i : Nat) (x : α), l[i]? = some x ∧ p x = true := by
  obtain ⟨x, hx, hp⟩ := List.countP_pos_iff.1 h
  obtain ⟨i, hi⟩ := List.getElem?_of_mem hx
  exact ⟨i, x, hi, hp⟩

/-- An invariant of all reachable states. -/
theorem System.ReachableBy.invariant {S : System} {A : S.Op → Prop} {s0 : S.State}
    (P : S.State → Prop) (h0 : P s0)
    (hs : ∀ s l s', P s → l.Allowed A → S.step s l = some s' → P s') {s : S.State}
    (h : S.ReachableBy A s0 s) : P s := by
  induction h with
  | init => exact h0
  | step _ ha hst ih => exact hs _ _ _ ih ha hst

theorem Label.allowed_true {Op : Type} (l : Label Op) : l.Allowed (fun _ => True) := by
  cases l <;> trivial

theorem System.Reachable.invariant {S : System} {s0 : S.State} (P : S.State → Prop) (h0 : P s0)
    (hs : ∀ s l s', P s → S.step s l = some s' → P s') {s : S.State} (h : S.Reachable s0 s) : P s :=
  System.ReachableBy.invariant P h0 (fun s l s' hp _ hst => hs s l s' hp hst) h

theorem System.ReachableBy.reachable {S : System} {A : S.Op → Prop} {s0 s : S.State}
    (h : S.ReachableBy A s0 s) : S.Reachable s0 s := by
  induction h with
  | init => exact .init
  | step _ _ hst ih => exact .step ih (Label.allowed_true _) hst

theorem System.ReachableBy.mono {S : System} {A B : S.Op → Prop} (hab : ∀ op, A op → B op) {s0 s : S.State}
    (h : S.ReachableBy A s0 s) : S.ReachableBy B s0 s := by
  induction h with
  | init => exact .init
  | step _ ha hst ih =>
    refine .step ih ?_ hst
    rename_i l _
    cases l with
    | start i op => exact hab op ha
    | _ => trivial

theorem System.Execution.next {S : System} (e : S.Execution) (n : Nat) :
    (e.label n = none ∧ e.at_ (n + 1) = e.at_ n) ∨
    ∃ l, e.label n = some l ∧ S.step (e.at_ n) l = some (e.at_ (n + 1)) := by
  have := e.ok n
  cases h : e.label n with
  | none => rw [h] at this; exact Or.inl ⟨rfl, this⟩
  | some l => rw [h] at this; exact Or.inr ⟨l, rfl, this⟩

/-- A property kept by every step holds from some moment on. -/
theorem System.Execution.stable {S : System} (e : S.Execution) (P : S.State → Prop)
    (hs : ∀ s l s', P s → S.step s l = some s' → P s') (n : Nat) (h : P (e.at_ n)) :
    ∀ m, n ≤ m → P (e.at_ m) := by
  intro m hm
  induction hm with
  | refl => exact h
  | step _ ih =>
    rename_i m _
    rcases e.next m with ⟨-, h2⟩ | ⟨l, -, h2⟩
    · rw [h2]; exact ih
    · exact hs _ _ _ ih h2

/-- Every state of an execution that starts in a reachable state is reachable. -/
theorem System.Execution.reachable {S : System} (e : S.Execution) {s0 : S.State}
    (h : S.Reachable s0 (e.at_ 0)) (n : Nat) : S.Reachable s0 (e.at_ n) := by
  induction n with
  | zero => exact h
  | succ n ih =>
    rcases e.next n with ⟨-, h2⟩ | ⟨l, -, h2⟩
    · rw [h2]; exact ih
    · exact .step ih (Label.allowed_true _) h2

theorem System.Execution.LeadsTo.refl {S : System} (e : S.Execution) {P Q : S.State → Prop}
    (h : ∀ s, P s → Q s) : e.LeadsTo P Q := fun n hn => ⟨n, Nat.le_refl n, h _ hn⟩

theorem System.Execution.LeadsTo.trans {S : System} {e : S.Execution} {P Q R : S.State → Prop}
    (h1 : e.LeadsTo P Q) (h2 : e.LeadsTo Q R) : e.LeadsTo P R := by
  intro n hn
  obtain ⟨m, hm, hq⟩ := h1 n hn
  obtain ⟨k, hk, hr⟩ := h2 m hq
  exact ⟨k, Nat.le_trans hm hk, hr⟩

theorem System.Execution.LeadsTo.or {S : System} {e : S.Execution} {P P' Q : S.State → Prop}
    (h1 : e.LeadsTo P Q) (h2 : e.LeadsTo P' Q) : e.LeadsTo (fun s => P s ∨ P' s) Q := by
  intro n hn
  rcases hn with hn | hn
  · exact h1 n hn
  · exact h2 n hn

theorem System.Execution.LeadsTo.mono {S : System} {e : S.Execution} {P P' Q Q' : S.State → Prop}
    (h : e.LeadsTo P Q) (hp : ∀ s, P' s → P s) (hq : ∀ s, Q s → Q' s) : e.LeadsTo P' Q' := by
  intro n hn
  obtain ⟨m, hm, h⟩ := h n (hp _ hn)
  exact ⟨m, hm, hq _ h⟩

/-- `P` holds until `Q`. -/
theorem System.Execution.until_ {S : System} (e : S.Execution) (P Q : S.State → Prop)
    (keep : ∀ s l s', P s → S.step s l = some s' → P s' ∨ Q s') (n : Nat) (h : P (e.at_ n))
    (m : Nat) (hm : n ≤ m) : P (e.at_ m) ∨ ∃ k, n ≤ k ∧ Q (e.at_ k) := by
  induction hm with
  | refl => exact Or.inl h
  | step hm ih =>
    rename_i m
    rcases ih with ih | ih
    · rcases e.next m with ⟨-, h2⟩ | ⟨l, -, h2⟩
      · rw [h2]; exact Or.inl ih
      · rcases keep _ _ _ ih h2 with hp | hq
        · exact Or.inl hp
        · exact Or.inr ⟨m + 1, Nat.le_succ_of_le hm, hq⟩
    · exact Or.inr ih

/-- Rule for liveness: if `P` holds until `Q`, thread `i` is able to run again and again while `P`
holds, and its step then establishes `Q`, then `P` leads to `Q`. -/
theorem System.Execution.leadsTo {S : System} (e : S.Execution) (hf : e.Fair) (i : Nat)
    (P Q : S.State → Prop)
    (keep : ∀ s l s', P s → S.step s l = some s' → P s' ∨ Q s')
    (able : e.LeadsTo P (fun s => (S.step s (.run i)).isSome ∨ Q s))
    (done : ∀ s s', P s → S.step s (.run i) = some s' → Q s') : e.LeadsTo P Q := by
  intro n h
  by_cases hq : ∃ m, n ≤ m ∧ Q (e.at_ m)
  · exact hq
  · exfalso
    have hP : ∀ m, n ≤ m → P (e.at_ m) := by
      intro m hm
      induction hm with
      | refl => exact h
      | step hm ih =>
        rename_i m
        rcases e.next m with ⟨-, h2⟩ | ⟨l, -, h2⟩
        · rw [h2]; exact ih
        · rcases keep _ _ _ ih h2 with hp | hq'
          · exact hp
          · exact absurd ⟨m + 1, Nat.le_succ_of_le hm, hq'⟩ hq
    obtain ⟨m, hm, hl⟩ := hf i n (fun m hm => by
      obtain ⟨k, hk, h⟩ := able m (hP m hm)
      rcases h with h | h
      · exact ⟨k, hk, h⟩
      · exact absurd ⟨k, Nat.le_trans hm hk, h⟩ hq)
    rcases e.next m with ⟨h1, -⟩ | ⟨l, h1, h2⟩
    · rw [h1] at hl; cases hl
    · rw [h1] at hl
      cases hl
      exact hq ⟨m + 1, Nat.le_succ_of_le hm, done _ _ (hP m hm) h2⟩

/-- The same when the thread is able to run all the time. -/
theorem System.Execution.leadsTo' {S : System} (e : S.Execution) (hf : e.Fair) (i : Nat)
    (P Q : S.State → Prop)
    (keep : ∀ s l s', P s → S.step s l = some s' → P s' ∨ Q s')
    (able : ∀ s, P s → (S.step s (.run i)).isSome)
    (done : ∀ s s', P s → S.step s (.run i) = some s' → Q s') : e.LeadsTo P Q :=
  e.leadsTo hf i P Q keep (.refl e fun s h => Or.inl (able s h)) done

/-- A thread that stays as it is until it runs, and can run again and again, runs. -/
theorem System.Execution.runs_at {S : System} (e : S.Execution) (hf : e.Fair) (i : Nat)
    (P : S.State → Prop)
    (keep : ∀ s l s', P s → l ≠ .run i → S.step s l = some s' → P s') (n : Nat) (h : P (e.at_ n))
    (able : ∀ m, n ≤ m → P (e.at_ m) → ∃ k, m ≤ k ∧ (S.step (e.at_ k) (.run i)).isSome) :
    ∃ m, n ≤ m ∧ P (e.at_ m) ∧ e.label m = some (.run i) ∧
      S.step (e.at_ m) (.run i) = some (e.at_ (m + 1)) := by
  by_cases hq : ∃ m, n ≤ m ∧ P (e.at_ m) ∧ e.label m = some (.run i)
  · obtain ⟨m, hm, hp, hl⟩ := hq
    refine ⟨m, hm, hp, hl, ?_⟩
    have := e.ok m
    rw [hl] at this
    exact this
  · exfalso
    have hP : ∀ m, n ≤ m → P (e.at_ m) := by
      intro m hm
      induction hm with
      | refl => exact h
      | step hm ih =>
        rename_i m
        rcases e.next m with ⟨-, h2⟩ | ⟨l, h1, h2⟩
        · rw [h2]; exact ih
        · refine keep _ _ _ ih ?_ h2
          rintro rfl
          exact hq ⟨m, hm, ih, h1⟩
    obtain ⟨m, hm, hl⟩ := hf i n (fun m hm => able m hm (hP m hm))
    exact hq ⟨m, hm, hP m hm, hl⟩

/-- A thread that waits for something that is there again and again runs. -/
theorem System.Execution.runs_when {S : System} (e : S.Execution) (hf : e.Fair) (i : Nat)
    (P F : S.State → Prop)
    (keep : ∀ s l s', P s → l ≠ .run i → S.step s l = some s' → P s') (n : Nat) (h : P (e.at_ n))
    (free : ∀ m, n ≤ m → ∃ k, m ≤ k ∧ F (e.at_ k))
    (able : ∀ s, P s → F s → (S.step s (.run i)).isSome) :
    ∃ m, n ≤ m ∧ P (e.at_ m) ∧ e.label m = some (.run i) ∧
      S.step (e.at_ m) (.run i) = some (e.at_ (m + 1)) := by
  refine e.runs_at hf i P keep n h ?_
  intro m hm hp
  by_cases hq : ∃ k, m ≤ k ∧ (S.step (e.at_ k) (.run i)).isSome
  · exact hq
  · exfalso
    have hP : ∀ k, m ≤ k → P (e.at_ k) := by
      intro k hk
      induction hk with
      | refl => exact hp
      | step hk ih =>
        rename_i k
        rcases e.next k with ⟨-, h2⟩ | ⟨l, h1, h2⟩
        · rw [h2]; exact ih
        · refine keep _ _ _ ih ?_ h2
          rintro rfl
          exact hq ⟨k, hk, by rw [h2]; rfl⟩
    obtain ⟨k, hk, hF⟩ := free m hm
    exact hq ⟨k, hk, able _ (hP k hk) hF⟩

/-- Leads-to by induction on a measure. -/
theorem System.Execution.leadsTo_measure {S : System} (e : S.Execution) (P Q : S.State → Prop)
    (f : S.State → Nat)
    (h : ∀ k, e.LeadsTo (fun s => P s ∧ f s = k) (fun s => (P s ∧ f s < k) ∨ Q s)) :
    e.LeadsTo P Q := by
  have key : ∀ k n, P (e.at_ n) → f (e.at_ n) = k → ∃ m, n ≤ m ∧ Q (e.at_ m) := by
    intro k
    induction k using Nat.strongRecOn with
    | ind k ih =>
      intro n hp hk
      obtain ⟨m, hm, h⟩ := h k n ⟨hp, hk⟩
      rcases h with ⟨h1, h2⟩ | h
      · obtain ⟨m', hm', h'⟩ := ih _ h2 m h1 rfl
        exact ⟨m', Nat.le_trans hm hm', h'⟩
      · exact ⟨m, hm, h⟩
  intro n hn
  exact key _ n hn rfl

theorem System.exec_reachable (S : System) {A : S.Op → Prop} {s0 s s' : S.State}
    (ls : List (Label S.Op)) (hA : ∀ l ∈ ls, l.Allowed A)
    (h : S.ReachableBy A s0 s) (he : S.exec s ls = some s') : S.ReachableBy A s0 s' := by
  induction ls generalizing s with
  | nil => cases he; exact h
  | cons l ls ih =>
    simp only [System.exec] at he
    cases hs : S.step s l with
    | none => rw [hs] at he; cases he
    | some s1 =>
      rw [hs] at he
      exact ih (fun l hl => hA l (by simp [hl])) (.step h (hA l (by simp)) hs) he

theorem System.exec_reachable' (S : System) {s0 s' : S.State}
    (ls : List (Label S.Op)) (he : S.exec s0 ls = some s') : S.Reachable s0 s' :=
  S.exec_reachable ls (fun l _ => Label.allowed_true l) .init he

theorem System.exec_append (S : System) (s : S.State) (as bs : List (Label S.Op)) :
    S.exec s (as ++ bs) = (S.exec s as).bind fun s' => S.exec s' bs := by
  induction as generalizing s with
  | nil => rfl
  | cons a as ih =>
    simp only [List.cons_append, System.exec]
    cases S.step s a with
    | none => rfl
    | some s1 => simp only [Option.bind_some]; exact ih s1

/-- A finite run that ends where no thread can go on, as a fair infinite execution. -/
theorem System.finite_fair' (S : System) (s0 s1 : S.State) (ls : List (Label S.Op))
    (he : S.exec s0 ls = some s1) (hend : ∀ i, S.step s1 (.run i) = none) :
    ∃ e : S.Execution, e.Fair ∧ e.at_ 0 = s0 ∧
      (∀ n, ∃ s, S.exec s0 (ls.take n) = some s ∧ e.at_ n = s) ∧
      (∀ n, e.label n = ls[n]?) := by
  have hpre : ∀ n, (S.exec s0 (ls.take n)).isSome := by
    intro n
    have h := S.exec_append s0 (ls.take n) (ls.drop n)
    rw [List.take_append_drop, he] at h
    cases hx : S.exec s0 (ls.take n) with
    | none => rw [hx] at h; cases h
    | some s => rfl
  refine ⟨⟨fun n => (S.exec s0 (ls.take n)).get (hpre n), fun n => ls[n]?, ?_⟩, ?_, ?_, ?_, ?_⟩
  · intro n
    cases hn : ls[n]? with
    | none =>
      have hle : ls.length ≤ n := List.getElem?_eq_none_iff.1 hn
      simp only [List.take_of_length_le hle, List.take_of_length_le (Nat.le_succ_of_le hle)]
    | some l =>
      have ht : ls.take (n + 1) = ls.take n ++ [l] := by
        rw [List.take_add_one, hn]
        rfl
      have h := S.exec_append s0 (ls.take n) [l]
      rw [← ht] at h
      simp only
      rw [Option.some_get (hpre (n + 1)), h]
      generalize hpre n = q
      revert q
      cases S.exec s0 (ls.take n) with
      | none => intro q; cases q
      | some s =>
        intro _
        simp only [Option.bind_some, System.exec, Option.get_some]
        cases S.step s l <;> rfl
  · intro i n h
    exfalso
    obtain ⟨k, hk, hs⟩ := h (max n ls.length) (Nat.le_max_left _ _)
    have hle : ls.length ≤ k := Nat.le_trans (Nat.le_max_right _ _) hk
    have e1 : (S.exec s0 (ls.take k)).get (hpre k) = s1 := by
      simp only [List.take_of_length_le hle, he, Option.get_some]
    simp only [e1, hend] at hs
    cases hs
  · simp only [List.take_zero, System.exec, Option.get_some]
  · intro n
    exact ⟨_, (Option.some_get (hpre n)).symm, rfl⟩
  · intro n
    rfl

theorem System.finite_fair (S : System) (s0 s1 : S.State) (ls : List (Label S.Op))
    (he : S.exec s0 ls = some s1) (hend : ∀ i, S.step s1 (.run i) = none) :
    ∃ e : S.Execution, e.Fair ∧ e.at_ 0 = s0 ∧
      (∀ n, ∃ s, S.exec s0 (ls.take n) = some s ∧ e.at_ n = s) ∧
      (∀ n l, e.label n = some l → l ∈ ls) := by
  obtain ⟨e, h1, h2, h3, h4⟩ := S.finite_fair' s0 s1 ls he hend
  exact ⟨e, h1, h2, h3, fun n l h => List.mem_of_getElem? ((h4 n).symm.trans h)⟩

/-- A cycle of states in which every thread either runs or never can is a fair infinite execution. -/
theorem System.cycle_fair (S : System) (s0 : S.State) (ls : List (Label S.Op)) (hpos : 0 < ls.length)
    (he : S.exec s0 ls = some s0)
    (hend : ∀ i, .run i ∈ ls ∨ ∀ n s, S.exec s0 (ls.take n) = some s → S.step s (.run i) = none) :
    ∃ e : S.Execution, e.Fair ∧ e.at_ 0 = s0 ∧
      (∀ n, ∃ k, k < ls.length ∧ S.exec s0 (ls.take k) = some (e.at_ n)) ∧
      (∀ n, ∃ l ∈ ls, e.label n = some l) := by
  have hpre : ∀ n, (S.exec s0 (ls.take n)).isSome := by
    intro n
    have h := S.exec_append s0 (ls.take n) (ls.drop n)
    rw [List.take_append_drop, he] at h
    cases hx : S.exec s0 (ls.take n) with
    | none => rw [hx] at h; cases h
    | some s => rfl
  have hlt : ∀ n, n % ls.length < ls.length := fun n => Nat.mod_lt n hpos
  refine ⟨⟨fun n => (S.exec s0 (ls.take (n % ls.length))).get (hpre _), fun n => ls[n % ls.length]?, ?_⟩,
    ?_, ?_, ?_, ?_⟩
  · intro n
    have hl := hlt n
    rw [List.getElem?_eq_getElem hl]
    simp only
    have hnext : S.exec s0 (ls.take ((n + 1) % ls.length)) = S.exec s0 (ls.take (n % ls.length + 1)) := by
      by_cases h : n % ls.length + 1 = ls.length
      · have h0 : (n + 1) % ls.length = 0 := by
          rw [← Nat.mod_add_mod, h, Nat.mod_self]
        rw [h0, h, List.take_length, he]
        rfl
      · have h0 : (n + 1) % ls.length = n % ls.length + 1 := by
          rw [← Nat.mod_add_mod]
          exact Nat.mod_eq_of_lt (by omega)
        rw [h0]
    have ht : ls.take (n % ls.length + 1) = ls.take (n % ls.length) ++ [ls[n % ls.length]] := by
      rw [List.take_add_one, List.getElem?_eq_getElem hl]
      rfl
    have h := S.exec_append s0 (ls.take (n % ls.length)) [ls[n % ls.length]]
    rw [← ht, ← hnext] at h
    rw [Option.some_get (hpre ((n + 1) % ls.length)), h]
    generalize hpre (n % ls.length) = q
    revert q
    cases S.exec s0 (ls.take (n % ls.length)) with
    | none => intro q; cases q
    | some s =>
      intro _
      simp only [Option.bind_some, System.exec, Option.get_some]
      cases S.step s _ <;> rfl
  · intro i n h
    rcases hend i with hi | hi
    · obtain ⟨k, hk, hki⟩ := List.getElem_of_mem hi
      refine ⟨n * ls.length + k, ?_, ?_⟩
      · exact Nat.le_trans (Nat.le_mul_of_pos_right n hpos) (Nat.le_add_right _ _)
      · show ls[(n * ls.length + k) % ls.length]? = _
        rw [Nat.mul_comm, Nat.mul_add_mod, Nat.mod_eq_of_lt hk, List.getElem?_eq_getElem hk, hki]
    · exfalso
      obtain ⟨k, -, hs⟩ := h n (Nat.le_refl n)
      have := hi _ _ (Option.some_get (hpre (k % ls.length))).symm
      simp only [this] at hs
      cases hs
  · simp only [Nat.zero_mod, List.take_zero, System.exec, Option.get_some]
  · intro n
    exact ⟨n % ls.length, hlt n, (Option.some_get (hpre _)).symm⟩
  · intro n
    exact ⟨_, List.getElem_mem (hlt n), List.getElem?_eq_getElem (hlt n)⟩

end Verif.Threads
