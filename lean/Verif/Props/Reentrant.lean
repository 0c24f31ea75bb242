import Verif.Model.Reentrant
/-!
C172: callbacks that set, unset or raise events of their own handler.
-/
namespace Verif.Reentrant

/-- Invariants hold after any number of steps. -/
theorem runs_inv {bodies : Nat → List Act} (P : State → Prop) (hP : ∀ s s', P s → step bodies s = some s' → P s')
    (n : Nat) (s : State) (h : P s) : P (runs bodies n s) := by
  induction n generalizing s with
  | zero => exact h
  | succ n ih =>
    unfold runs
    cases hs : step bodies s with
    | none => exact h
    | some s' => exact ih s' (hP s s' h hs)

abbrev Stack := List (Option Nat × List Act)

/-- Kinds of steps. -/
inductive Stepped (bodies : Nat → List Act) (s : State) : State → Prop
  | ret (k : Nat) (fs : Stack) (h : s.stack = (some k, []) :: fs) :
      Stepped bodies s { s with count := (s.count + 1) % 4294967296, stack := fs }
  | good (f : Option Nat) (rest : List Act) (fs : Stack) (h : s.stack = (f, .use :: rest) :: fs)
      (hf : ∀ k, f = some k → k ∉ s.dead) :
      Stepped bodies s { s with stack := (f, rest) :: fs, hist := s.hist ++ [.use] }
  | bad (k : Nat) (rest : List Act) (fs : Stack) (h : s.stack = (some k, .use :: rest) :: fs) (hk : k ∈ s.dead) :
      Stepped bodies s { s with stack := (some k, rest) :: fs, hist := s.hist ++ [.use], ub := true }
  | set (c : Nat) (f : Option Nat) (rest : List Act) (fs : Stack) (h : s.stack = (f, .set c :: rest) :: fs) :
      Stepped bodies s { s with
        stack := (f, rest) :: fs, hist := s.hist ++ [.set c], cur := some (s.next, c), next := s.next + 1,
        dead := s.dead ++ s.old }
  | unset (f : Option Nat) (rest : List Act) (fs : Stack) (h : s.stack = (f, .unset :: rest) :: fs) :
      Stepped bodies s { s with
        stack := (f, rest) :: fs, hist := s.hist ++ [.unset], cur := none, dead := s.dead ++ s.old }
  | skip (f : Option Nat) (rest : List Act) (fs : Stack) (h : s.stack = (f, .fire :: rest) :: fs)
      (hc : s.cur = none) :
      Stepped bodies s { s with stack := (f, rest) :: fs, hist := s.hist ++ [.fire] }
  | call (k c : Nat) (f : Option Nat) (rest : List Act) (fs : Stack) (h : s.stack = (f, .fire :: rest) :: fs)
      (hc : s.cur = some (k, c)) :
      Stepped bodies s { s with
        stack := (some k, bodies c) :: (f, rest) :: fs, hist := s.hist ++ [.fire], called := s.called ++ [c] }

theorem step_stepped {bodies : Nat → List Act} {s s' : State} (h : step bodies s = some s') :
    s.ub = false ∧ Stepped bodies s s' := by
  unfold step at h
  split at h
  · cases h
  · rename_i hu
    refine ⟨by simpa using hu, ?_⟩
    split at h
    · cases h
    · cases h
    · rename_i k fs hs
      cases h
      exact .ret k fs hs
    · rename_i f a rest fs hs
      injection h with h
      subst h
      cases a with
      | use =>
        cases f with
        | none => exact .good none rest fs hs nofun
        | some k =>
          by_cases hk : k ∈ s.dead
          · simp only [perform, if_pos hk]
            exact .bad k rest fs hs hk
          · simp only [perform, if_neg hk]
            exact .good (some k) rest fs hs (by intro j hj; cases hj; exact hk)
      | set c => exact .set c f rest fs hs
      | unset => exact .unset f rest fs hs
      | fire =>
        cases hc : s.cur with
        | none =>
          simp only [perform, hc]
          rw [← hc]
          exact .skip f rest fs hs hc
        | some p =>
          obtain ⟨k, c⟩ := p
          simp only [perform, hc]
          rw [← hc]
          exact .call k c f rest fs hs hc

/-- The object in `callback_` is not destroyed, and numbers are not used twice. -/
structure Alive (s : State) : Prop where
  cur : ∀ p, s.cur = some p → p.1 < s.next ∧ p.1 ∉ s.dead
  dead : ∀ k ∈ s.dead, k < s.next

theorem Alive.old {s : State} (h : Alive s) : ∀ k ∈ s.dead ++ s.old, k < s.next := by
  intro k hk
  rcases List.mem_append.1 hk with hk | hk
  · exact h.dead k hk
  · unfold State.old at hk
    cases hc : s.cur with
    | none => rw [hc] at hk; cases hk
    | some p =>
      rw [hc] at hk
      simp only [Option.map_some, Option.toList_some, List.mem_singleton] at hk
      subst hk
      exact (h.cur p hc).1

theorem alive_step {bodies : Nat → List Act} {s s' : State} (h : Alive s) (hs : Stepped bodies s s') : Alive s' := by
  cases hs with
  | set c f rest fs _ =>
    refine ⟨?_, fun k hk => Nat.lt_succ_of_lt (h.old k hk)⟩
    intro p hp
    cases hp
    exact ⟨Nat.lt_succ_self _, fun hk => Nat.lt_irrefl _ (h.old _ hk)⟩
  | unset f rest fs _ => exact ⟨nofun, h.old⟩
  | _ => exact ⟨h.cur, h.dead⟩

/-- The client is at the bottom of the calls in progress, and only there. -/
def Based : Stack → Prop
  | [] => False
  | (none, _) :: fs => fs = []
  | (some _, _) :: fs => Based fs

theorem based_step {bodies : Nat → List Act} {s s' : State} (h : Based s.stack) (hs : Stepped bodies s s') :
    Based s'.stack := by
  have same : ∀ {f : Option Nat} {l l' : List Act} {fs : Stack}, s.stack = (f, l) :: fs → Based ((f, l') :: fs) := by
    intro f l l' fs he
    rw [he] at h
    cases f <;> exact h
  cases hs with
  | ret k fs he => rw [he] at h; exact h
  | good f rest fs he _ => exact same he
  | bad k rest fs he _ => exact same he
  | set c f rest fs he => exact same he
  | unset f rest fs he => exact same he
  | skip f rest fs he _ => exact same he
  | call k c f rest fs he _ => exact same (l' := rest) he

/-! ### Callbacks that change nothing -/

/-- All callbacks being executed are the object in `callback_`. -/
structure Fixed (s : State) : Prop where
  alive : Alive s
  based : Based s.stack
  ub : s.ub = false
  stack : ∀ (k : Nat) (l : List Act), (some k, l) ∈ s.stack →
    (∃ c, s.cur = some (k, c)) ∧ ∀ a ∈ l, a = .use ∨ a = .fire

theorem fixed_step {bodies : Nat → List Act} (hb : ∀ c, ∀ a ∈ bodies c, a = .use ∨ a = .fire) {s s' : State}
    (h : Fixed s) (hs : Stepped bodies s s') : Fixed s' := by
  have top : ∀ {k : Nat} {l : List Act} {fs : Stack}, s.stack = (some k, l) :: fs →
      (∃ c, s.cur = some (k, c)) ∧ ∀ a ∈ l, a = .use ∨ a = .fire :=
    fun he => h.stack _ _ (by rw [he]; exact List.mem_cons_self)
  have keep : ∀ {f : Option Nat} {a : Act} {l : List Act} {fs : Stack}, s.stack = (f, a :: l) :: fs →
      ∀ (j : Nat) (m : List Act), (some j, m) ∈ (f, l) :: fs →
        (∃ c, s.cur = some (j, c)) ∧ ∀ a ∈ m, a = .use ∨ a = .fire := by
    intro f a l fs he j m hm
    rcases List.mem_cons.1 hm with e | hm
    · cases e
      exact ⟨(top he).1, fun b hb => (top he).2 b (List.mem_cons_of_mem _ hb)⟩
    · exact h.stack j m (by rw [he]; exact List.mem_cons_of_mem _ hm)
  have client : ∀ {f : Option Nat} {a : Act} {l : List Act} {fs : Stack}, s.stack = (f, a :: l) :: fs →
      a ≠ .use → a ≠ .fire → ∀ (j : Nat) (m : List Act), (some j, m) ∉ (f, l) :: fs := by
    intro f a l fs he h1 h2 j m hm
    cases f with
    | some k =>
      rcases (top he).2 a List.mem_cons_self with e | e
      · exact h1 e
      · exact h2 e
    | none =>
      have hbase := h.based
      rw [he] at hbase
      have hnil : fs = [] := hbase
      subst hnil
      rcases List.mem_cons.1 hm with e | hm
      · cases e
      · cases hm
  refine ⟨alive_step h.alive hs, based_step h.based hs, ?_, ?_⟩
  · cases hs with
    | bad k rest fs he hk =>
      obtain ⟨⟨c, hc⟩, -⟩ := top he
      exact absurd hk (h.alive.cur _ hc).2
    | _ => exact h.ub
  · cases hs with
    | ret k fs he => exact fun j m hm => h.stack j m (by rw [he]; exact List.mem_cons_of_mem _ hm)
    | good f rest fs he _ => exact keep he
    | bad k rest fs he _ => exact keep he
    | set c f rest fs he => exact fun j m hm => absurd hm (client he nofun nofun j m)
    | unset f rest fs he => exact fun j m hm => absurd hm (client he nofun nofun j m)
    | skip f rest fs he _ => exact keep he
    | call k c f rest fs he hc =>
      intro j m hm
      rcases List.mem_cons.1 hm with e | hm
      · cases e
        exact ⟨⟨c, hc⟩, hb c⟩
      · exact keep he j m hm

theorem alive_init (client : List Act) : Alive (init client) := ⟨nofun, nofun⟩

/-- C172, as far as it holds: if callbacks neither set nor unset the callback of their handler (but may raise events of
it, and the client does what it likes), a callback never uses a variable that is gone.  (Missing: callbacks that set or
unset, see `C172_negation_set`, `C172_negation_unset`.) -/
theorem C172_raise_partial (bodies : Nat → List Act) (hb : ∀ c, ∀ a ∈ bodies c, a = .use ∨ a = .fire)
    (client : List Act) (n : Nat) : (runs bodies n (init client)).ub = false := by
  have h : Fixed (init client) := by
    refine ⟨alive_init client, rfl, rfl, ?_⟩
    intro k l hl
    rcases List.mem_cons.1 hl with e | hl
    · cases e
    · cases hl
  exact (runs_inv Fixed (fun s s' h hs => fixed_step hb h (step_stepped hs).2) n _ h).ub

/-! ### Callbacks that are done with their variables before -/

/-- Uses come first. -/
def Tidy (l : List Act) : Prop := ∀ p q, l = p ++ .use :: q → ∀ a ∈ p, a = .use

theorem Tidy.tail {a : Act} {l : List Act} (h : Tidy (a :: l)) : Tidy l := by
  intro p q e b hb
  exact h (a :: p) q (by rw [e]; rfl) b (List.mem_cons_of_mem _ hb)

theorem Tidy.none {a : Act} {l : List Act} (h : Tidy (a :: l)) (ha : a ≠ .use) : Act.use ∉ l := by
  intro hu
  obtain ⟨p, q, e⟩ := List.append_of_mem hu
  exact ha (h (a :: p) q (by rw [e]; rfl) a List.mem_cons_self)

/-- Only the innermost call still uses variables, and then they exist. -/
structure Careful (s : State) : Prop where
  alive : Alive s
  ub : s.ub = false
  top : ∀ (k : Nat) (l : List Act) (fs : Stack), s.stack = (some k, l) :: fs →
    (k ∉ s.dead ∧ Tidy l) ∨ Act.use ∉ l
  below : ∀ (f : Option Nat × List Act) (fs : Stack), s.stack = f :: fs →
    ∀ (k : Nat) (l : List Act), (some k, l) ∈ fs → Act.use ∉ l

theorem careful_step {bodies : Nat → List Act} (hb : ∀ c, Tidy (bodies c)) {s s' : State}
    (h : Careful s) (hs : Stepped bodies s s') : Careful s' := by
  have rest_none : ∀ {k : Nat} {a : Act} {l : List Act} {fs : Stack}, s.stack = (some k, a :: l) :: fs → a ≠ .use →
      Act.use ∉ l := by
    intro k a l fs he ha
    rcases h.top k _ fs he with ⟨-, ht⟩ | hn
    · exact ht.none ha
    · exact fun hu => hn (List.mem_cons_of_mem _ hu)
  have hA := alive_step h.alive hs
  cases hs with
  | ret k fs he =>
    refine ⟨hA, h.ub, ?_, ?_⟩
    · intro j l gs hgs
      exact Or.inr (h.below _ _ he j l (by rw [show fs = _ from hgs]; exact List.mem_cons_self))
    · intro f gs hgs j l hl
      exact h.below _ _ he j l (by rw [show fs = _ from hgs]; exact List.mem_cons_of_mem _ hl)
  | good f rest fs he hf =>
    refine ⟨hA, h.ub, ?_, ?_⟩
    · intro j l gs hgs
      cases hgs
      rcases h.top j _ _ he with ⟨hk, ht⟩ | hn
      · exact Or.inl ⟨hk, ht.tail⟩
      · exact Or.inr fun hu => hn (List.mem_cons_of_mem _ hu)
    · intro g gs hgs
      cases hgs
      exact h.below _ _ he
  | bad k rest fs he hk =>
    exfalso
    rcases h.top k _ fs he with ⟨hk', -⟩ | hn
    · exact hk' hk
    · exact hn List.mem_cons_self
  | set c f rest fs he =>
    refine ⟨hA, h.ub, ?_, ?_⟩
    · intro j l gs hgs
      cases hgs
      exact Or.inr (rest_none he nofun)
    · intro g gs hgs
      cases hgs
      exact h.below _ _ he
  | unset f rest fs he =>
    refine ⟨hA, h.ub, ?_, ?_⟩
    · intro j l gs hgs
      cases hgs
      exact Or.inr (rest_none he nofun)
    · intro g gs hgs
      cases hgs
      exact h.below _ _ he
  | skip f rest fs he hc =>
    refine ⟨hA, h.ub, ?_, ?_⟩
    · intro j l gs hgs
      cases hgs
      exact Or.inr (rest_none he nofun)
    · intro g gs hgs
      cases hgs
      exact h.below _ _ he
  | call k c f rest fs he hc =>
    refine ⟨hA, h.ub, ?_, ?_⟩
    · intro j l gs hgs
      cases hgs
      exact Or.inl ⟨(h.alive.cur _ hc).2, hb c⟩
    · intro g gs hgs j l hl
      cases hgs
      rcases List.mem_cons.1 hl with e | hl
      · cases e
        exact rest_none he nofun
      · exact h.below _ _ he j l hl

/-- C172, as far as it holds: if each callback is done with its variables before it sets, unsets or raises anything, it
may do so: no callback uses a variable that is gone.  (Missing: callbacks that go on with their variables, see the
negations.) -/
theorem C172_last_partial (bodies : Nat → List Act)
    (hb : ∀ c p q, bodies c = p ++ .use :: q → ∀ a ∈ p, a = .use) (client : List Act) (n : Nat) :
    (runs bodies n (init client)).ub = false := by
  have h : Careful (init client) := by
    refine ⟨alive_init client, rfl, ?_, ?_⟩
    · intro k l fs he
      cases he
    · intro f fs he k l hl
      cases he
      cases hl
  exact (runs_inv Careful (fun s s' h hs => careful_step (fun c => hb c) h (step_stepped hs).2) n _ h).ub

/-! ### Which callback is called, and what is counted -/

/-- Neither sets nor unsets. -/
def Free (q : List Act) : Prop := ∀ a ∈ q, a ≠ .unset ∧ ∀ d, a ≠ .set d

theorem Free.snoc {q : List Act} {a : Act} (h : Free q) (ha : a = .use ∨ a = .fire) : Free (q ++ [a]) := by
  intro b hb
  rcases List.mem_append.1 hb with hb | hb
  · exact h b hb
  · rw [List.mem_singleton.1 hb]
    rcases ha with rfl | rfl <;> exact ⟨nofun, nofun⟩

/-- `callback_` is what was set last. -/
def Last (s : State) : Prop :=
  match s.cur with
  | some (_, c) => ∃ p q, s.hist = p ++ .set c :: q ∧ Free q
  | none => Free s.hist ∨ ∃ p q, s.hist = p ++ .unset :: q ∧ Free q

theorem last_free {s s' : State} {a : Act} (h : Last s) (hc : s'.cur = s.cur) (hh : s'.hist = s.hist ++ [a])
    (ha : a = .use ∨ a = .fire) : Last s' := by
  unfold Last at h ⊢
  rw [hc, hh]
  cases hcur : s.cur with
  | none =>
    rw [hcur] at h
    rcases h with h | ⟨p, q, e, h⟩
    · exact Or.inl (h.snoc ha)
    · exact Or.inr ⟨p, q ++ [a], by rw [e]; simp, h.snoc ha⟩
  | some x =>
    rw [hcur] at h
    obtain ⟨p, q, e, h⟩ := h
    exact ⟨p, q ++ [a], by rw [e]; simp, h.snoc ha⟩

theorem last_step {bodies : Nat → List Act} {s s' : State} (h : Last s) (hs : Stepped bodies s s') : Last s' := by
  cases hs with
  | ret k fs _ => exact h
  | good f rest fs _ _ => exact last_free h rfl rfl (Or.inl rfl)
  | bad k rest fs _ _ => exact last_free h rfl rfl (Or.inl rfl)
  | set c f rest fs _ => exact ⟨s.hist, [], rfl, nofun⟩
  | unset f rest fs _ => exact Or.inr ⟨s.hist, [], rfl, nofun⟩
  | skip f rest fs _ _ => exact last_free h rfl rfl (Or.inr rfl)
  | call k c f rest fs _ _ => exact last_free h rfl rfl (Or.inr rfl)

theorem last_runs (bodies : Nat → List Act) (client : List Act) (n : Nat) : Last (runs bodies n (init client)) :=
  runs_inv Last (fun _ _ h hs => last_step h (step_stepped hs).2) n _ (Or.inl nofun)

/-- Two ways to see what was set last agree. -/
theorem last_unique {p q p' q' : List Act} {a b : Act} (e : p ++ a :: q = p' ++ b :: q') (hq : Free q) (hq' : Free q')
    (ha : a = .unset ∨ ∃ d, a = .set d) (hb : b = .unset ∨ ∃ d, b = .set d) : a = b := by
  have hna : ∀ {l : List Act} {x : Act}, Free l → (x = .unset ∨ ∃ d, x = .set d) → x ∉ l := by
    intro l x hl hx hm
    rcases hx with rfl | ⟨d, rfl⟩
    · exact (hl _ hm).1 rfl
    · exact (hl _ hm).2 d rfl
  rcases List.append_eq_append_iff.1 e with ⟨m, h1, h2⟩ | ⟨m, h1, h2⟩
  · cases m with
    | nil => simp at h2; exact h2.1
    | cons x m =>
      simp only [List.cons_append, List.cons.injEq] at h2
      exact absurd (by rw [h2.2]; simp) (hna hq hb)
  · cases m with
    | nil => simp at h2; exact h2.1.symm
    | cons x m =>
      simp only [List.cons_append, List.cons.injEq] at h2
      exact absurd (by rw [h2.2]; simp) (hna hq' ha)

theorem step_act {bodies : Nat → List Act} {s : State} (hu : s.ub = false) {f : Option Nat} {a : Act} {rest : List Act}
    {fs : Stack} (hf : s.stack = (f, a :: rest) :: fs) :
    step bodies s = some (perform bodies { s with stack := (f, rest) :: fs, hist := s.hist ++ [a] } f a) := by
  unfold step
  rw [hf]
  cases f <;> simp [hu]

/-- C172: an event, wherever it is raised, calls the callback that was set last, by the client or by a callback, if it
has not been unset since. -/
theorem C172_latest (bodies : Nat → List Act) (client : List Act) (n : Nat) (s : State)
    (hs : s = runs bodies n (init client)) (hu : s.ub = false) (f : Option Nat) (rest : List Act)
    (fs : List (Option Nat × List Act)) (hf : s.stack = (f, .fire :: rest) :: fs) (p q : List Act) (c : Nat)
    (hh : s.hist = p ++ .set c :: q) (hq : ∀ a ∈ q, a ≠ .unset ∧ ∀ d, a ≠ .set d) :
    ∃ s' k, step bodies s = some s' ∧ s'.called = s.called ++ [c] ∧
      s'.stack = (some k, bodies c) :: (f, rest) :: fs := by
  have h : Last s := hs ▸ last_runs bodies client n
  unfold Last at h
  cases hc : s.cur with
  | none =>
    rw [hc] at h
    rcases h with h | ⟨p', q', e, h⟩
    · exact absurd rfl ((h (.set c) (by rw [hh]; simp)).2 c)
    · rw [hh] at e
      cases last_unique e hq h (Or.inr ⟨c, rfl⟩) (Or.inl rfl)
  | some x =>
    obtain ⟨k, c'⟩ := x
    rw [hc] at h
    obtain ⟨p', q', e, h⟩ := h
    rw [hh] at e
    cases last_unique e hq h (Or.inr ⟨c, rfl⟩) (Or.inr ⟨c', rfl⟩)
    refine ⟨_, k, step_act hu hf, ?_, ?_⟩ <;> simp only [perform, hc]

/-- C172: an event calls no callback if none was set, or the last one was unset. -/
theorem C172_none (bodies : Nat → List Act) (client : List Act) (n : Nat) (s : State)
    (hs : s = runs bodies n (init client)) (hu : s.ub = false) (f : Option Nat) (rest : List Act)
    (fs : List (Option Nat × List Act)) (hf : s.stack = (f, .fire :: rest) :: fs)
    (hh : (∀ d, .set d ∉ s.hist) ∨ ∃ p q, s.hist = p ++ .unset :: q ∧ ∀ d, .set d ∉ q) :
    ∃ s', step bodies s = some s' ∧ s'.called = s.called ∧ s'.stack = (f, rest) :: fs := by
  have h : Last s := hs ▸ last_runs bodies client n
  unfold Last at h
  cases hc : s.cur with
  | none => refine ⟨_, step_act hu hf, ?_, ?_⟩ <;> simp only [perform, hc]
  | some x =>
    exfalso
    obtain ⟨k, c⟩ := x
    rw [hc] at h
    obtain ⟨p', q', e, h⟩ := h
    rcases hh with hh | ⟨p, q, e', hh⟩
    · exact hh c (by rw [e]; simp)
    · rw [e'] at e
      rcases List.append_eq_append_iff.1 e with ⟨m, h1, h2⟩ | ⟨m, h1, h2⟩
      · cases m with
        | nil => simp at h2
        | cons x m =>
          simp only [List.cons_append, List.cons.injEq] at h2
          exact hh c (by rw [h2.2]; simp)
      · cases m with
        | nil => simp at h2
        | cons x m =>
          simp only [List.cons_append, List.cons.injEq] at h2
          exact (h .unset (by rw [h2.2]; simp)).1 rfl

/-- Calls begun are those in progress and those counted. -/
def Counted (s : State) : Prop :=
  Based s.stack ∧ ∃ m, s.count = m % 4294967296 ∧ s.called.length + 1 = m + s.stack.length

theorem counted_step {bodies : Nat → List Act} {s s' : State} (h : Counted s) (hs : Stepped bodies s s') :
    Counted s' := by
  obtain ⟨hb, m, h1, h2⟩ := h
  refine ⟨based_step hb hs, ?_⟩
  cases hs with
  | ret k fs he =>
    rw [he] at h2
    refine ⟨m + 1, ?_, ?_⟩
    · show (s.count + 1) % 4294967296 = _
      rw [h1]
      omega
    · show s.called.length + 1 = m + 1 + fs.length
      simp only [List.length_cons] at h2
      omega
  | call k c f rest fs he hc =>
    rw [he] at h2
    refine ⟨m, h1, ?_⟩
    show (s.called ++ [c]).length + 1 = m + (fs.length + 1 + 1)
    simp only [List.length_append, List.length_cons, List.length_nil] at h2 ⊢
    omega
  | good f rest fs he _ => rw [he] at h2; exact ⟨m, h1, h2⟩
  | bad k rest fs he _ => rw [he] at h2; exact ⟨m, h1, h2⟩
  | set c f rest fs he => rw [he] at h2; exact ⟨m, h1, h2⟩
  | unset f rest fs he => rw [he] at h2; exact ⟨m, h1, h2⟩
  | skip f rest fs he _ => rw [he] at h2; exact ⟨m, h1, h2⟩

/-- C172: whenever no callback is being executed, the number of events is the number of calls of callbacks so far (modulo
2^32), whatever they did: an event is also counted if its callback has unset the callback, and once if others were raised
within. -/
theorem C172_counted (bodies : Nat → List Act) (client : List Act) (n : Nat) (l : List Act)
    (hs : (runs bodies n (init client)).stack = [(none, l)]) :
    (runs bodies n (init client)).count = (runs bodies n (init client)).called.length % 4294967296 := by
  have h : Counted (runs bodies n (init client)) :=
    runs_inv Counted (fun _ _ h hs => counted_step h (step_stepped hs).2) n _ ⟨rfl, 0, rfl, rfl⟩
  obtain ⟨-, m, h1, h2⟩ := h
  rw [hs] at h2
  simp only [List.length_cons, List.length_nil] at h2
  rw [h1]
  congr 1
  omega

/-- C172 does not hold: a callback that sets another one in its place and then uses a variable of its own uses a variable
that is gone. -/
theorem C172_negation_set : ∃ (bodies : Nat → List Act) (client : List Act) (n : Nat),
    bodies 0 = [.set 1, .use] ∧ bodies 1 = [] ∧ client = [.set 0, .fire] ∧
    (runs bodies n (init client)).ub = true :=
  ⟨fun c => if c = 0 then [.set 1, .use] else [], _, 4, rfl, rfl, rfl, by decide⟩

/-- C172 does not hold: neither may a callback go on with its variables after it has unset itself. -/
theorem C172_negation_unset : ∃ (bodies : Nat → List Act) (client : List Act) (n : Nat),
    bodies 0 = [.unset, .use] ∧ client = [.set 0, .fire] ∧ (runs bodies n (init client)).ub = true :=
  ⟨fun _ => [.unset, .use], _, 4, rfl, rfl, by decide⟩

/-- Non-trivial case for `C172_raise_partial`: a callback uses its variable before and after it raises an event, which
calls it again; that call, which is the same callback, would raise another one (and so on). -/
example : ∃ (bodies : Nat → List Act), (∀ c, ∀ a ∈ bodies c, a = .use ∨ a = .fire) ∧
    bodies 0 = [.use, .fire, .use] ∧ (runs bodies 9 (init [.set 0, .fire, .unset])).called = [0, 0, 0, 0] :=
  ⟨fun _ => [.use, .fire, .use], by intro c a ha; simp at ha; rcases ha with h | h | h <;> simp [h], rfl, by decide⟩

/-- Non-trivial case for `C172_last_partial`, `C172_latest`, `C172_none` and `C172_counted`: a callback sets another one,
which unsets itself and raises an event. -/
example : ∃ (bodies : Nat → List Act), (∀ c p q, bodies c = p ++ .use :: q → ∀ a ∈ p, a = .use) ∧
    bodies 0 = [.use, .set 1, .fire] ∧ bodies 1 = [.unset, .fire] ∧
    (runs bodies 20 (init [.set 0, .fire, .fire])).called = [0, 1] ∧
    (runs bodies 20 (init [.set 0, .fire, .fire])).count = 2 ∧
    (runs bodies 20 (init [.set 0, .fire, .fire])).stack = [(none, [])] := by
  refine ⟨fun c => if c = 0 then [.use, .set 1, .fire] else [.unset, .fire], ?_, rfl, rfl, by decide, by decide,
    by decide⟩
  intro c p q e a ha
  cases p with
  | nil => cases ha
  | cons x p =>
    exfalso
    by_cases hc : c = 0
    · simp only [hc, if_true, List.cons_append, List.cons.injEq] at e
      cases p with
      | nil => simp at e
      | cons y p =>
        cases p with
        | nil => simp at e
        | cons z p => simp at e
    · simp only [if_neg hc, List.cons_append, List.cons.injEq] at e
      cases p with
      | nil => simp at e
      | cons y p => simp at e

end Verif.Reentrant
