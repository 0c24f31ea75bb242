import Verif.Model.Prog
import Verif.Lemmas.Threads
/-!
Rules for invariants and liveness of programs given by what one thread does.
-/
namespace Verif.Threads

variable {P : Prog}

/-- The four kinds of steps. -/
inductive Prog.Stepped (P : Prog) (s : Conf P) : Label P.Op → Conf P → Prop
  | start (i : Nat) (op : P.Op) (x y : P.PC) (hx : s.pcs[i]? = some x) (hy : P.start x op = some y) :
      Prog.Stepped P s (.start i op) ⟨s.sh, s.pcs.set i y⟩
  | run (i : Nat) (x y : P.PC) (sh : P.Sh) (hx : s.pcs[i]? = some x)
      (hy : P.run i s.sh x = some (sh, y, false)) : Prog.Stepped P s (.run i) ⟨sh, s.pcs.set i y⟩
  | notify (i : Nat) (x y : P.PC) (sh : P.Sh) (hx : s.pcs[i]? = some x)
      (hy : P.run i s.sh x = some (sh, y, true)) :
      Prog.Stepped P s (.run i) ⟨sh, (s.pcs.map P.wake).set i y⟩
  | spurious (i : Nat) (x y : P.PC) (hx : s.pcs[i]? = some x) (hy : P.woken x = some y) :
      Prog.Stepped P s (.spurious i) ⟨s.sh, s.pcs.set i y⟩
  | timeout (i : Nat) (x y : P.PC) (hx : s.pcs[i]? = some x) (hy : P.late x = some y) :
      Prog.Stepped P s (.timeout i) ⟨s.sh, s.pcs.set i y⟩

theorem Prog.step_stepped {s s' : Conf P} {l : Label P.Op} (h : P.system.step s l = some s') :
    P.Stepped s l s' := by
  change P.step s l = some s' at h
  cases l with
  | start i op =>
    simp only [Prog.step, Option.map_eq_some_iff, Option.bind_eq_some_iff] at h
    obtain ⟨y, ⟨x, hx, hy⟩, rfl⟩ := h
    exact .start i op x y hx hy
  | run i =>
    simp only [Prog.step, Option.map_eq_some_iff, Option.bind_eq_some_iff] at h
    obtain ⟨⟨sh, y, b⟩, ⟨x, hx, hy⟩, rfl⟩ := h
    cases b with
    | false => exact .run i x y sh hx hy
    | true => exact .notify i x y sh hx hy
  | spurious i =>
    simp only [Prog.step, Option.map_eq_some_iff, Option.bind_eq_some_iff] at h
    obtain ⟨y, ⟨x, hx, hy⟩, rfl⟩ := h
    exact .spurious i x y hx hy
  | timeout i =>
    simp only [Prog.step, Option.map_eq_some_iff, Option.bind_eq_some_iff] at h
    obtain ⟨y, ⟨x, hx, hy⟩, rfl⟩ := h
    exact .timeout i x y hx hy

theorem Prog.stepped_step {s s' : Conf P} {l : Label P.Op} (h : P.Stepped s l s') :
    P.system.step s l = some s' := by
  change P.step s l = some s'
  cases h with
  | start i op x y hx hy => simp only [Prog.step, hx, Option.bind_some, hy, Option.map_some]
  | run i x y sh hx hy => simp [Prog.step, hx, hy]
  | notify i x y sh hx hy => simp [Prog.step, hx, hy]
  | spurious i x y hx hy => simp only [Prog.step, hx, Option.bind_some, hy, Option.map_some]
  | timeout i x y hx hy => simp only [Prog.step, hx, Option.bind_some, hy, Option.map_some]

theorem Prog.run_enabled {s : Conf P} {i : Nat} {x : P.PC} (hx : s.pcs[i]? = some x)
    (h : (P.run i s.sh x).isSome) : (P.system.step s (.run i)).isSome := by
  change (P.step s (.run i)).isSome
  simp only [Prog.step, hx, Option.bind_some, Option.isSome_map]
  exact h

theorem Prog.init_get {sh : P.Sh} {x y : P.PC} {n j : Nat} (h : (P.init sh x n).pcs[j]? = some y) :
    y = x := (List.mem_replicate.1 (List.mem_of_getElem? h)).2

/-- Waking changes nothing about a thread, except that a sleeper is woken. -/
theorem Prog.wake_cases (P : Prog) (x : P.PC) :
    (P.woken x = none ∧ P.wake x = x) ∨ ∃ y, P.woken x = some y ∧ P.wake x = y := by
  unfold Prog.wake
  cases h : P.woken x with
  | none => exact Or.inl ⟨rfl, rfl⟩
  | some y => exact Or.inr ⟨y, rfl, rfl⟩

/-- Invariants of single threads (which may mention the shared data and the thread's number). -/
structure Prog.Local (P : Prog) (A : P.Op → Prop) (glob : P.Sh → Prop)
    (loc : P.Sh → Nat → P.PC → Prop) : Prop where
  start : ∀ sh i x op y, A op → glob sh → loc sh i x → P.start x op = some y → loc sh i y
  shared : ∀ sh i x sh' y b, glob sh → loc sh i x → P.run i sh x = some (sh', y, b) → glob sh'
  run : ∀ sh i x sh' y b, glob sh → loc sh i x → P.run i sh x = some (sh', y, b) → loc sh' i y
  other : ∀ sh i x sh' y b j z, glob sh → loc sh i x → P.run i sh x = some (sh', y, b) → j ≠ i →
    loc sh j z → loc sh' j z
  woken : ∀ sh i x y, loc sh i x → P.woken x = some y → loc sh i y
  late : ∀ sh i x y, loc sh i x → P.late x = some y → loc sh i y

/-- The invariant of all threads. -/
structure Prog.Inv (P : Prog) (glob : P.Sh → Prop) (loc : P.Sh → Nat → P.PC → Prop) (s : Conf P) :
    Prop where
  glob : glob s.sh
  loc : ∀ (j : Nat) (x : P.PC), s.pcs[j]? = some x → loc s.sh j x

theorem Prog.Local.wake {A : P.Op → Prop} {glob : P.Sh → Prop} {loc : P.Sh → Nat → P.PC → Prop}
    (h : P.Local A glob loc) {sh : P.Sh} {j : Nat} {x : P.PC} (hx : loc sh j x) :
    loc sh j (P.wake x) := by
  rcases P.wake_cases x with ⟨-, e⟩ | ⟨y, hy, e⟩
  · rw [e]; exact hx
  · rw [e]; exact h.woken sh j x y hx hy

theorem Prog.Local.step {A : P.Op → Prop} {glob : P.Sh → Prop} {loc : P.Sh → Nat → P.PC → Prop}
    (h : P.Local A glob loc) {s s' : Conf P} {l : Label P.Op} (hi : P.Inv glob loc s)
    (hl : l.Allowed A) (hs : P.Stepped s l s') : P.Inv glob loc s' := by
  have keep : ∀ (i : Nat) (y : P.PC), loc s.sh i y → P.Inv glob loc ⟨s.sh, s.pcs.set i y⟩ := by
    intro i y hy
    refine ⟨hi.glob, ?_⟩
    intro j z hz
    rcases set_get hz with ⟨rfl, rfl, -⟩ | ⟨-, hz⟩
    · exact hy
    · exact hi.loc j z hz
  cases hs with
  | start i op x y hx hy => exact keep i y (h.start _ _ _ _ _ hl hi.glob (hi.loc i x hx) hy)
  | spurious i x y hx hy => exact keep i y (h.woken _ _ _ _ (hi.loc i x hx) hy)
  | timeout i x y hx hy => exact keep i y (h.late _ _ _ _ (hi.loc i x hx) hy)
  | run i x y sh hx hy =>
    have hx' := hi.loc i x hx
    refine ⟨h.shared _ _ _ _ _ _ hi.glob hx' hy, ?_⟩
    intro j z hz
    rcases set_get hz with ⟨rfl, rfl, -⟩ | ⟨hne, hz⟩
    · exact h.run _ _ _ _ _ _ hi.glob hx' hy
    · exact h.other _ _ _ _ _ _ _ _ hi.glob hx' hy hne (hi.loc j z hz)
  | notify i x y sh hx hy =>
    have hx' := hi.loc i x hx
    refine ⟨h.shared _ _ _ _ _ _ hi.glob hx' hy, ?_⟩
    intro j z hz
    rcases set_get hz with ⟨rfl, rfl, -⟩ | ⟨hne, hz⟩
    · exact h.run _ _ _ _ _ _ hi.glob hx' hy
    · obtain ⟨a, ha, rfl⟩ := map_get hz
      exact h.wake (h.other _ _ _ _ _ _ _ _ hi.glob hx' hy hne (hi.loc j a ha))

theorem Prog.Local.reachable {A : P.Op → Prop} {glob : P.Sh → Prop} {loc : P.Sh → Nat → P.PC → Prop}
    (h : P.Local A glob loc) {s0 s : Conf P} (h0 : P.Inv glob loc s0)
    (hr : P.system.ReachableBy A s0 s) : P.Inv glob loc s :=
  System.ReachableBy.invariant (S := P.system) (P.Inv glob loc) h0
    (fun _ _ _ hi hl hs => h.step hi hl (Prog.step_stepped hs)) hr

/-- A number kept in the shared data is the number of threads at certain places, given an invariant. -/
theorem Prog.count_step (q : P.PC → Bool) (g : P.Sh → Nat) {s s' : Conf P} {l : Label P.Op}
    (hstart : ∀ x op y, P.start x op = some y → q y = q x)
    (hrun : ∀ i x sh y b, s.pcs[i]? = some x → P.run i s.sh x = some (sh, y, b) →
      g sh + (if q x then 1 else 0) = g s.sh + (if q y then 1 else 0))
    (hwoken : ∀ x y, P.woken x = some y → q y = q x)
    (hlate : ∀ x y, P.late x = some y → q y = q x)
    (hc : g s.sh = s.pcs.countP q) (hs : P.Stepped s l s') : g s'.sh = s'.pcs.countP q := by
  have keep : ∀ (i : Nat) (x y : P.PC), s.pcs[i]? = some x → q y = q x →
      g s.sh = (s.pcs.set i y).countP q := by
    intro i x y hx e
    have := countP_set q y hx
    rw [e] at this
    omega
  have hw : ∀ a, q (P.wake a) = q a := by
    intro a
    rcases P.wake_cases a with ⟨-, e⟩ | ⟨y, hy, e⟩
    · rw [e]
    · rw [e]; exact hwoken a y hy
  cases hs with
  | start i op x y hx hy => exact keep i x y hx (hstart x op y hy)
  | spurious i x y hx hy => exact keep i x y hx (hwoken x y hy)
  | timeout i x y hx hy => exact keep i x y hx (hlate x y hy)
  | run i x y sh hx hy =>
    have h1 := countP_set q y hx
    have h2 := hrun i x sh y false hx hy
    show g sh = (s.pcs.set i y).countP q
    omega
  | notify i x y sh hx hy =>
    have hx' : (s.pcs.map P.wake)[i]? = some (P.wake x) := by rw [List.getElem?_map, hx]; rfl
    have h1 := countP_set q y hx'
    rw [countP_map_of _ _ _ hw, hw] at h1
    have h2 := hrun i x sh y true hx hy
    show g sh = ((s.pcs.map P.wake).set i y).countP q
    omega

/-- No lost wake-up, one step: every sleeper has `ok`, or somebody is about to notify (`pend`). -/
theorem Prog.sleep_step (ok : P.Sh → P.PC → Prop) (pend : P.PC → Prop) {s s' : Conf P} {l : Label P.Op}
    (hstart : ∀ x op y, P.start x op = some y → P.woken y = none ∧ ¬ pend x)
    (hasleep : ∀ x y, P.woken x = some y → P.woken y = none ∧ ¬ pend x)
    (hlate : ∀ x y, P.late x = some y → P.woken y = none ∧ ¬ pend x)
    (hown : ∀ i x sh y b, s.pcs[i]? = some x → P.run i s.sh x = some (sh, y, b) →
      (P.woken y).isSome → ok sh y)
    (hpend : ∀ i x sh y, s.pcs[i]? = some x → P.run i s.sh x = some (sh, y, false) → pend x → pend y)
    (hother : ∀ i x sh y j z, s.pcs[i]? = some x → P.run i s.sh x = some (sh, y, false) →
      j ≠ i → s.pcs[j]? = some z → (P.woken z).isSome → ok s.sh z → ok sh z ∨ pend y)
    (hI : ∀ (j : Nat) (z : P.PC), s.pcs[j]? = some z → (P.woken z).isSome →
      ok s.sh z ∨ ∃ (k : Nat) (w : P.PC), s.pcs[k]? = some w ∧ pend w)
    (hs : P.Stepped s l s') :
    ∀ (j : Nat) (z : P.PC), s'.pcs[j]? = some z → (P.woken z).isSome →
      ok s'.sh z ∨ ∃ (k : Nat) (w : P.PC), s'.pcs[k]? = some w ∧ pend w := by
  have keep : ∀ (i : Nat) (x y : P.PC), s.pcs[i]? = some x → P.woken y = none → ¬ pend x →
      ∀ (j : Nat) (z : P.PC), (s.pcs.set i y)[j]? = some z → (P.woken z).isSome →
      ok s.sh z ∨ ∃ (k : Nat) (w : P.PC), (s.pcs.set i y)[k]? = some w ∧ pend w := by
    intro i x y hx hy hp j z hj hz
    rcases set_get hj with ⟨rfl, rfl, -⟩ | ⟨hne, hj⟩
    · rw [hy] at hz; cases hz
    · rcases hI j z hj hz with h | ⟨k, w, hk, hw⟩
      · exact Or.inl h
      · refine Or.inr ⟨k, w, ?_, hw⟩
        rw [get_set_ne]
        · exact hk
        · rintro rfl
          rw [hx] at hk
          cases hk
          exact hp hw
  cases hs with
  | start i op x y hx hy => exact keep i x y hx (hstart x op y hy).1 (hstart x op y hy).2
  | spurious i x y hx hy => exact keep i x y hx (hasleep x y hy).1 (hasleep x y hy).2
  | timeout i x y hx hy => exact keep i x y hx (hlate x y hy).1 (hlate x y hy).2
  | run i x y sh hx hy =>
    intro j z hj hz
    rcases set_get hj with ⟨rfl, rfl, -⟩ | ⟨hne, hj⟩
    · exact Or.inl (hown j x sh z false hx hy hz)
    · rcases hI j z hj hz with h | ⟨k, w, hk, hw⟩
      · rcases hother i x sh y j z hx hy hne hj hz h with h | h
        · exact Or.inl h
        · exact Or.inr ⟨i, y, get_set_self hx, h⟩
      · by_cases hki : k = i
        · subst hki
          rw [hx] at hk
          cases hk
          exact Or.inr ⟨k, y, get_set_self hx, hpend k x sh y hx hy hw⟩
        · refine Or.inr ⟨k, w, ?_, hw⟩
          show (s.pcs.set i y)[k]? = some w
          rw [get_set_ne hki]
          exact hk
  | notify i x y sh hx hy =>
    intro j z hj hz
    rcases set_get hj with ⟨rfl, rfl, -⟩ | ⟨hne, hj⟩
    · exact Or.inl (hown j x sh z true hx hy hz)
    · exfalso
      obtain ⟨a, ha, rfl⟩ := map_get hj
      rcases P.wake_cases a with ⟨e1, e2⟩ | ⟨b, e1, e2⟩
      · rw [e2, e1] at hz; cases hz
      · rw [e2, (hasleep a b e1).1] at hz; cases hz

/-- Not asleep and not outside calls: only its own steps move the thread. -/
def Prog.Active (P : Prog) (x : P.PC) : Prop :=
  (∀ op, P.start x op = none) ∧ P.woken x = none ∧ P.late x = none

theorem Prog.frame_active {s s' : Conf P} {l : Label P.Op} (h : P.Stepped s l s') {i : Nat} {x : P.PC}
    (hx : s.pcs[i]? = some x) (ha : P.Active x) (hl : l ≠ .run i) : s'.pcs[i]? = some x := by
  have hset : ∀ (k : Nat) (y : P.PC), k ≠ i → (s.pcs.set k y)[i]? = some x := by
    intro k y hk
    rw [get_set_ne (fun e => hk e.symm)]
    exact hx
  cases h with
  | start k op w y hw hy =>
    refine hset k y ?_
    rintro rfl
    rw [hx] at hw
    cases hw
    rw [ha.1 op] at hy
    cases hy
  | spurious k w y hw hy =>
    refine hset k y ?_
    rintro rfl
    rw [hx] at hw
    cases hw
    rw [ha.2.1] at hy
    cases hy
  | timeout k w y hw hy =>
    refine hset k y ?_
    rintro rfl
    rw [hx] at hw
    cases hw
    rw [ha.2.2] at hy
    cases hy
  | run k w y sh hw hy => exact hset k y (fun e => hl (by rw [e]))
  | notify k w y sh hw hy =>
    have hk : i ≠ k := fun e => hl (by rw [e])
    show ((s.pcs.map P.wake).set k y)[i]? = _
    rw [get_set_ne hk, List.getElem?_map, hx]
    show some (P.wake x) = _
    unfold Prog.wake
    rw [ha.2.1]
    rfl

/-- A sleeping thread stays asleep or goes where it goes when woken. -/
theorem Prog.frame_sleep {s s' : Conf P} {l : Label P.Op} (h : P.Stepped s l s') {i : Nat} {x y : P.PC}
    (hx : s.pcs[i]? = some x) (hy : P.woken x = some y) (hstart : ∀ op, P.start x op = none)
    (hrun : ∀ sh, P.run i sh x = none) :
    s'.pcs[i]? = some x ∨ s'.pcs[i]? = some y ∨ (∃ z, P.late x = some z ∧ s'.pcs[i]? = some z) := by
  have hset : ∀ (k : Nat) (y : P.PC), k ≠ i → (s.pcs.set k y)[i]? = some x := by
    intro k y hk
    rw [get_set_ne (fun e => hk e.symm)]
    exact hx
  cases h with
  | start k op w z hw hz =>
    refine Or.inl (hset k z ?_)
    rintro rfl
    rw [hx] at hw
    cases hw
    rw [hstart op] at hz
    cases hz
  | spurious k w z hw hz =>
    by_cases hk : k = i
    · subst hk
      rw [hx] at hw
      cases hw
      rw [hy] at hz
      cases hz
      exact Or.inr (Or.inl (get_set_self hx))
    · exact Or.inl (hset k z hk)
  | timeout k w z hw hz =>
    by_cases hk : k = i
    · subst hk
      rw [hx] at hw
      cases hw
      exact Or.inr (Or.inr ⟨z, hz, get_set_self hx⟩)
    · exact Or.inl (hset k z hk)
  | run k w z sh hw hz =>
    refine Or.inl (hset k z ?_)
    rintro rfl
    rw [hx] at hw
    cases hw
    rw [hrun] at hz
    cases hz
  | notify k w z sh hw hz =>
    have hk : i ≠ k := by
      rintro rfl
      rw [hx] at hw
      cases hw
      rw [hrun] at hz
      cases hz
    refine Or.inr (Or.inl ?_)
    show ((s.pcs.map P.wake).set k z)[i]? = _
    rw [get_set_ne hk, List.getElem?_map, hx]
    show some (P.wake x) = _
    unfold Prog.wake
    rw [hy]
    rfl

/-- An invariant along an execution. -/
theorem System.Execution.always {S : System} (e : S.Execution) (I : S.State → Prop)
    (h0 : I (e.at_ 0)) (hs : ∀ s l s', I s → S.step s l = some s' → I s') (n : Nat) : I (e.at_ n) :=
  e.stable I hs 0 h0 n (Nat.zero_le n)

/-- An active thread executes its next step: `x` is its place, `I` an invariant, `K` is kept until then or
`Q` holds. -/
theorem Prog.runs (e : P.system.Execution) (hf : e.Fair) (I : Conf P → Prop)
    (hI : ∀ n, I (e.at_ n)) (i : Nat) (x : P.PC) (ha : P.Active x) (K Q : Conf P → Prop)
    (hkeep : ∀ s l s', I s → I s' → s.pcs[i]? = some x → K s → P.Stepped s l s' → l ≠ .run i → K s' ∨ Q s')
    (hable : e.LeadsTo (fun s => s.pcs[i]? = some x ∧ K s)
      (fun s => (s.pcs[i]? = some x ∧ (P.run i s.sh x).isSome) ∨ Q s))
    (hdone : ∀ s s', I s → I s' → s.pcs[i]? = some x → K s → P.Stepped s (.run i) s' → Q s') :
    e.LeadsTo (fun s => s.pcs[i]? = some x ∧ K s) Q := by
  classical
  intro n hn
  by_cases hq : ∃ m, n ≤ m ∧ Q (e.at_ m)
  · exact hq
  · exfalso
    have hP : ∀ m, n ≤ m → (e.at_ m).pcs[i]? = some x ∧ K (e.at_ m) := by
      intro m hm
      induction hm with
      | refl => exact hn
      | step hm ih =>
        rename_i m
        rcases e.next m with ⟨-, h2⟩ | ⟨l, -, h2⟩
        · rw [h2]; exact ih
        · have hs := Prog.step_stepped h2
          by_cases hl : l = .run i
          · subst hl
            exact absurd ⟨m + 1, Nat.le_succ_of_le hm,
              hdone _ _ (hI m) (hI (m + 1)) ih.1 ih.2 hs⟩ hq
          · rcases hkeep _ _ _ (hI m) (hI (m + 1)) ih.1 ih.2 hs hl with h | h
            · exact ⟨Prog.frame_active hs ih.1 ha hl, h⟩
            · exact absurd ⟨m + 1, Nat.le_succ_of_le hm, h⟩ hq
    obtain ⟨m, hm, hl⟩ := hf i n (fun m hm => by
      obtain ⟨k, hk, h⟩ := hable m (hP m hm)
      rcases h with ⟨h1, h2⟩ | h
      · exact ⟨k, hk, Prog.run_enabled h1 h2⟩
      · exact absurd ⟨k, Nat.le_trans hm hk, h⟩ hq)
    rcases e.next m with ⟨h1, -⟩ | ⟨l, h1, h2⟩
    · rw [h1] at hl; cases hl
    · rw [h1] at hl
      cases hl
      exact hq ⟨m + 1, Nat.le_succ_of_le hm,
        hdone _ _ (hI m) (hI (m + 1)) (hP m hm).1 (hP m hm).2 (Prog.step_stepped h2)⟩

/-- The same when nothing can block the thread. -/
theorem Prog.runs' (e : P.system.Execution) (hf : e.Fair) (I : Conf P → Prop)
    (hI : ∀ n, I (e.at_ n)) (i : Nat) (x : P.PC) (ha : P.Active x) (K Q : Conf P → Prop)
    (hkeep : ∀ s l s', I s → I s' → s.pcs[i]? = some x → K s → P.Stepped s l s' → l ≠ .run i → K s' ∨ Q s')
    (hable : ∀ s, I s → s.pcs[i]? = some x → K s → (P.run i s.sh x).isSome)
    (hdone : ∀ s s', I s → I s' → s.pcs[i]? = some x → K s → P.Stepped s (.run i) s' → Q s') :
    e.LeadsTo (fun s => s.pcs[i]? = some x ∧ K s) Q :=
  Prog.runs e hf I hI i x ha K Q hkeep
    (fun n hn => ⟨n, Nat.le_refl n, Or.inl ⟨hn.1, hable _ (hI n) hn.1 hn.2⟩⟩) hdone

/-- The step of thread `i`. -/
theorem Prog.stepped_run {s s' : Conf P} {i : Nat} (h : P.Stepped s (.run i) s') {x : P.PC}
    (hx : s.pcs[i]? = some x) :
    ∃ sh y b, P.run i s.sh x = some (sh, y, b) ∧ s'.sh = sh ∧ s'.pcs[i]? = some y := by
  cases h with
  | run _ w y sh hw hy =>
    rw [hx] at hw
    cases hw
    exact ⟨sh, y, false, hy, rfl, get_set_self hx⟩
  | notify _ w y sh hw hy =>
    rw [hx] at hw
    cases hw
    refine ⟨sh, y, true, hy, rfl, ?_⟩
    have hx' : (s.pcs.map P.wake)[i]? = some (P.wake x) := by rw [List.getElem?_map, hx]; rfl
    exact get_set_self hx'

/-- What a step does to the shared data. -/
theorem Prog.stepped_sh {s s' : Conf P} {l : Label P.Op} (h : P.Stepped s l s') :
    s'.sh = s.sh ∨ ∃ i x y b, l = .run i ∧ s.pcs[i]? = some x ∧ P.run i s.sh x = some (s'.sh, y, b) := by
  cases h with
  | run i x y sh hx hy => exact Or.inr ⟨i, x, y, false, rfl, hx, hy⟩
  | notify i x y sh hx hy => exact Or.inr ⟨i, x, y, true, rfl, hx, hy⟩
  | _ => exact Or.inl rfl

/-- The step of a thread starts at some place. -/
theorem Prog.stepped_at {s s' : Conf P} {i : Nat} (h : P.Stepped s (.run i) s') : ∃ x, s.pcs[i]? = some x := by
  cases h with
  | run _ x _ _ hx _ => exact ⟨x, hx⟩
  | notify _ x _ _ hx _ => exact ⟨x, hx⟩

theorem Prog.stepped_start {s s' : Conf P} {i : Nat} {op : P.Op} (h : P.Stepped s (.start i op) s') :
    ∃ x y, s.pcs[i]? = some x ∧ P.start x op = some y ∧ s'.sh = s.sh ∧ s'.pcs[i]? = some y := by
  cases h with
  | start _ _ x y hx hy => exact ⟨x, y, hx, hy, rfl, get_set_self hx⟩

theorem Prog.stepped_timeout {s s' : Conf P} {i : Nat} (h : P.Stepped s (.timeout i) s') :
    ∃ x y, s.pcs[i]? = some x ∧ P.late x = some y ∧ s'.sh = s.sh ∧ s'.pcs[i]? = some y := by
  cases h with
  | timeout _ x y hx hy => exact ⟨x, y, hx, hy, rfl, get_set_self hx⟩

/-- A notification leaves no thread asleep (except possibly the thread itself). -/
theorem Prog.stepped_notify {s s' : Conf P} {i : Nat} (h : P.Stepped s (.run i) s') {x y : P.PC} {sh : P.Sh}
    (hx : s.pcs[i]? = some x) (hr : P.run i s.sh x = some (sh, y, true)) {j : Nat} {z : P.PC} (hj : j ≠ i)
    (hz : s'.pcs[j]? = some z) : ∃ w, s.pcs[j]? = some w ∧ z = P.wake w := by
  cases h with
  | run _ w v sh' hw hv =>
    rw [hx] at hw
    cases hw
    rw [hr] at hv
    cases hv
  | notify _ w v sh' hw hv =>
    rcases set_get hz with ⟨e, -⟩ | ⟨-, h⟩
    · exact absurd e hj
    · obtain ⟨a, ha, e⟩ := map_get h
      exact ⟨a, ha, e⟩

theorem Prog.stepped_length {s s' : Conf P} {l : Label P.Op} (hs : P.Stepped s l s') :
    s'.pcs.length = s.pcs.length := by
  cases hs <;> simp

/-- What a step does to thread `i`. -/
theorem Prog.track {s s' : Conf P} {l : Label P.Op} (h : P.Stepped s l s') {i : Nat} {x : P.PC}
    (hx : s.pcs[i]? = some x) : ∃ y, s'.pcs[i]? = some y ∧
      ((∃ op, l = .start i op ∧ P.start x op = some y ∧ s'.sh = s.sh) ∨
       (l = .run i ∧ ∃ b, P.run i s.sh x = some (s'.sh, y, b)) ∨
       (l ≠ .run i ∧ (y = x ∨ P.woken x = some y ∨ P.late x = some y) ∧
        (s'.sh = s.sh ∨ ∃ k w z b, k ≠ i ∧ l = .run k ∧ s.pcs[k]? = some w ∧
          P.run k s.sh w = some (s'.sh, z, b)))) := by
  have other : ∀ (k : Nat) (y : P.PC), i ≠ k → (s.pcs.set k y)[i]? = some x := by
    intro k y hk; rw [get_set_ne hk]; exact hx
  cases h with
  | start k op w y hw hy =>
    by_cases hk : i = k
    · subst hk
      rw [hx] at hw
      cases hw
      exact ⟨y, get_set_self hx, Or.inl ⟨op, rfl, hy, rfl⟩⟩
    · exact ⟨x, other k y hk, Or.inr (Or.inr ⟨nofun, Or.inl rfl, Or.inl rfl⟩)⟩
  | spurious k w y hw hy =>
    by_cases hk : i = k
    · subst hk
      rw [hx] at hw
      cases hw
      exact ⟨y, get_set_self hx, Or.inr (Or.inr ⟨nofun, Or.inr (Or.inl hy), Or.inl rfl⟩)⟩
    · exact ⟨x, other k y hk, Or.inr (Or.inr ⟨nofun, Or.inl rfl, Or.inl rfl⟩)⟩
  | timeout k w y hw hy =>
    by_cases hk : i = k
    · subst hk
      rw [hx] at hw
      cases hw
      exact ⟨y, get_set_self hx, Or.inr (Or.inr ⟨nofun, Or.inr (Or.inr hy), Or.inl rfl⟩)⟩
    · exact ⟨x, other k y hk, Or.inr (Or.inr ⟨nofun, Or.inl rfl, Or.inl rfl⟩)⟩
  | run k w y sh hw hy =>
    by_cases hk : i = k
    · subst hk
      rw [hx] at hw
      cases hw
      exact ⟨y, get_set_self hx, Or.inr (Or.inl ⟨rfl, false, hy⟩)⟩
    · refine ⟨x, other k y hk, Or.inr (Or.inr ⟨?_, Or.inl rfl, Or.inr ⟨k, w, y, false, ?_, rfl, hw, hy⟩⟩)⟩
      · intro e; cases e; exact hk rfl
      · exact fun e => hk e.symm
  | notify k w y sh hw hy =>
    by_cases hk : i = k
    · subst hk
      rw [hx] at hw
      cases hw
      have hx' : (s.pcs.map P.wake)[i]? = some (P.wake x) := by rw [List.getElem?_map, hx]; rfl
      exact ⟨y, get_set_self hx', Or.inr (Or.inl ⟨rfl, true, hy⟩)⟩
    · refine ⟨P.wake x, ?_, Or.inr (Or.inr ⟨?_, ?_, Or.inr ⟨k, w, y, true, ?_, rfl, hw, hy⟩⟩)⟩
      · show ((s.pcs.map P.wake).set k y)[i]? = _
        rw [get_set_ne hk, List.getElem?_map, hx]; rfl
      · intro e; cases e; exact hk rfl
      · rcases P.wake_cases x with ⟨-, e⟩ | ⟨z, hz, e⟩
        · exact Or.inl e
        · exact Or.inr (Or.inl (by rw [e]; exact hz))
      · exact fun e => hk e.symm

/-- A step that is not its own moves a thread inside a call only by waking it, or by its timeout. -/
theorem Prog.late_timeout {s s' : Conf P} {l : Label P.Op} (h : P.Stepped s l s') {i : Nat} {x y : P.PC}
    (hx : s.pcs[i]? = some x) (hy : s'.pcs[i]? = some y) (hl : l ≠ .run i) (hst : ∀ op, P.start x op = none) :
    y = x ∨ P.woken x = some y ∨ (l = .timeout i ∧ P.late x = some y) := by
  have other : ∀ (k : Nat) (z : P.PC), i ≠ k → (s.pcs.set k z)[i]? = some y → y = x := by
    intro k z hk h
    rw [get_set_ne hk, hx] at h
    exact (Option.some.inj h).symm
  have own : ∀ (z : P.PC), (s.pcs.set i z)[i]? = some y → y = z := by
    intro z h
    rw [get_set_self hx] at h
    exact (Option.some.inj h).symm
  cases h with
  | start k op w z hw hz =>
    by_cases hk : i = k
    · subst hk
      rw [hx] at hw
      cases hw
      rw [hst op] at hz
      cases hz
    · exact Or.inl (other k z hk hy)
  | spurious k w z hw hz =>
    by_cases hk : i = k
    · subst hk
      rw [hx] at hw
      cases hw
      rw [own z hy]
      exact Or.inr (Or.inl hz)
    · exact Or.inl (other k z hk hy)
  | timeout k w z hw hz =>
    by_cases hk : i = k
    · subst hk
      rw [hx] at hw
      cases hw
      rw [own z hy]
      exact Or.inr (Or.inr ⟨rfl, hz⟩)
    · exact Or.inl (other k z hk hy)
  | run k w z sh hw hz => exact Or.inl (other k z (fun e => hl (by rw [e])) hy)
  | notify k w z sh hw hz =>
    have hk : i ≠ k := fun e => hl (by rw [e])
    have hy : ((s.pcs.map P.wake).set k z)[i]? = some y := hy
    rw [get_set_ne hk, List.getElem?_map, hx] at hy
    have hy : P.wake x = y := Option.some.inj hy
    rcases P.wake_cases x with ⟨-, e⟩ | ⟨v, hv, e⟩
    · exact Or.inl (by rw [← hy, e])
    · exact Or.inr (Or.inl (by rw [← hy, e]; exact hv))

theorem System.exec_cons {S : System} {s s' : S.State} {l : Label S.Op} {ls : List (Label S.Op)}
    (h : S.exec s (l :: ls) = some s') : ∃ s1, S.step s l = some s1 ∧ S.exec s1 ls = some s' := by
  simp only [System.exec] at h
  exact Option.bind_eq_some_iff.1 h

/-- What holds of thread `i` while it is inside one call. -/
theorem Prog.exec_keep (R : Conf P → P.PC → Prop) (i : Nat)
    (hR : ∀ s l s' x, P.Stepped s l s' → (∀ op, l ≠ .start i op) → s.pcs[i]? = some x → R s x →
      ∃ y, s'.pcs[i]? = some y ∧ R s' y)
    (ls : List (Label P.Op)) (hls : ∀ l ∈ ls, ∀ op, l ≠ .start i op) {s s' : Conf P}
    (he : P.system.exec s ls = some s') {x : P.PC} (hx : s.pcs[i]? = some x) (h : R s x) :
    ∃ y, s'.pcs[i]? = some y ∧ R s' y := by
  induction ls generalizing s x with
  | nil => cases he; exact ⟨x, hx, h⟩
  | cons l ls ih =>
    obtain ⟨s1, h1, h2⟩ := System.exec_cons (S := P.system) he
    obtain ⟨y, hy, h3⟩ := hR _ _ _ _ (Prog.step_stepped h1) (hls l (by simp)) hx h
    exact ih (fun l hl => hls l (by simp [hl])) h2 hy h3

/-- A step of an active thread that nothing can block. -/
theorem Prog.free_step (e : P.system.Execution) (hf : e.Fair) (I : Conf P → Prop) (hI : ∀ n, I (e.at_ n))
    (i : Nat) (x : P.PC) (ha : P.Active x) (Q : Conf P → Prop)
    (hable : ∀ s : Conf P, I s → s.pcs[i]? = some x → (P.run i s.sh x).isSome)
    (hdone : ∀ s s' : Conf P, I s → I s' → s.pcs[i]? = some x → P.Stepped s (.run i) s' → Q s') :
    e.LeadsTo (fun s => s.pcs[i]? = some x) Q := by
  refine (Prog.runs' e hf I hI i x ha (fun _ => True) Q (fun _ _ _ _ _ _ _ _ _ => Or.inl trivial)
    (fun s h1 h2 _ => hable s h1 h2) (fun s s' h1 h2 h3 _ h4 => hdone s s' h1 h2 h3 h4)).mono ?_
    (fun _ h => h)
  exact fun s h => ⟨h, trivial⟩

/-- From `x` to `y`, unconditionally. -/
theorem Prog.goto (e : P.system.Execution) (hf : e.Fair) (I : Conf P → Prop) (hI : ∀ n, I (e.at_ n))
    (i : Nat) (x y : P.PC) (ha : P.Active x)
    (h : ∀ s : Conf P, I s → s.pcs[i]? = some x → ∃ s' b, P.run i s.sh x = some (s', y, b)) :
    e.LeadsTo (fun s => s.pcs[i]? = some x) (fun s => s.pcs[i]? = some y) := by
  refine Prog.free_step e hf I hI i x ha _ ?_ ?_
  · intro s h1 h2
    obtain ⟨s', b, h⟩ := h s h1 h2
    rw [h]
    rfl
  · intro s s' h1 _ hx hs
    obtain ⟨sh, z, b, hr, -, hz⟩ := Prog.stepped_run hs hx
    obtain ⟨s1, b1, h1⟩ := h s h1 hx
    have := h1.symm.trans hr
    simp only [Option.some.injEq, Prod.mk.injEq] at this
    rw [this.2.1]
    exact hz

/-- From `x` to one of several places, while `K` is kept. -/
theorem Prog.move (e : P.system.Execution) (hf : e.Fair) (I : Conf P → Prop) (hI : ∀ n, I (e.at_ n))
    (i : Nat) (x : P.PC) (ha : P.Active x) (K : Conf P → Prop) (Q : Conf P → Prop)
    (hK : ∀ s l s', I s → I s' → K s → P.Stepped s l s' → K s' ∨ Q s')
    (hable : ∀ s : Conf P, I s → K s → s.pcs[i]? = some x → (P.run i s.sh x).isSome)
    (hdone : ∀ (s s' : Conf P) y b, I s → I s' → K s → s.pcs[i]? = some x →
      P.run i s.sh x = some (s'.sh, y, b) → s'.pcs[i]? = some y → K s' → Q s') :
    e.LeadsTo (fun s => s.pcs[i]? = some x ∧ K s) Q := by
  refine Prog.runs' e hf I hI i x ha K Q (fun s l s' h1 h2 _ h4 h5 _ => hK s l s' h1 h2 h4 h5)
    (fun s h1 h2 h3 => hable s h1 h3 h2) ?_
  intro s s' h1 h2 h3 h4 h5
  obtain ⟨sh, z, b, hr, e1, hz⟩ := Prog.stepped_run h5 h3
  rcases hK s _ s' h1 h2 h4 h5 with h6 | h6
  · exact hdone s s' z b h1 h2 h4 h3 (by rw [hr, e1]) hz h6
  · exact h6

/-- Taking a mutex (or passing a barrier) that becomes free when `K` holds, which it does at `x`. -/
theorem Prog.acquire (e : P.system.Execution) (hf : e.Fair) (I : Conf P → Prop) (hI : ∀ n, I (e.at_ n))
    (i : Nat) (x : P.PC) (ha : P.Active x) (K : Conf P → Prop) (free : P.Sh → Prop) (Q : Conf P → Prop)
    (hK : ∀ s : Conf P, I s → s.pcs[i]? = some x → K s)
    (hfree : e.LeadsTo (fun s => K s ∧ ¬ free s.sh) (fun s => free s.sh))
    (hable : ∀ s : Conf P, I s → s.pcs[i]? = some x → free s.sh → (P.run i s.sh x).isSome)
    (hdone : ∀ s s' : Conf P, I s → I s' → s.pcs[i]? = some x → P.Stepped s (.run i) s' → Q s') :
    e.LeadsTo (fun s => s.pcs[i]? = some x) Q := by
  classical
  refine (Prog.runs e hf I hI i x ha (fun _ => True) Q (fun _ _ _ _ _ _ _ _ _ => Or.inl trivial) ?_
    (fun s s' h1 h2 h3 _ h4 => hdone s s' h1 h2 h3 h4)).mono (fun s h => ⟨h, trivial⟩) (fun _ h => h)
  intro n hn
  -- the thread stays at `x` until its own step
  by_cases hq : ∃ m, n ≤ m ∧ Q (e.at_ m)
  · obtain ⟨m, hm, h⟩ := hq
    exact ⟨m, hm, Or.inr h⟩
  · have hP : ∀ m, n ≤ m → (e.at_ m).pcs[i]? = some x := by
      intro m hm
      induction hm with
      | refl => exact hn.1
      | step hm ih =>
        rename_i m
        rcases e.next m with ⟨-, h2⟩ | ⟨l, -, h2⟩
        · rw [h2]; exact ih
        · have hs := Prog.step_stepped h2
          by_cases hl : l = .run i
          · subst hl
            exact absurd ⟨m + 1, Nat.le_succ_of_le hm, hdone _ _ (hI m) (hI (m + 1)) ih hs⟩ hq
          · exact Prog.frame_active hs ih ha hl
    have hfr : ∃ m, n ≤ m ∧ free (e.at_ m).sh := by
      by_cases h : free (e.at_ n).sh
      · exact ⟨n, Nat.le_refl n, h⟩
      · exact hfree n ⟨hK _ (hI n) hn.1, h⟩
    obtain ⟨m, hm, h⟩ := hfr
    exact ⟨m, hm, Or.inl ⟨hP m hm, hable _ (hI m) (hP m hm) h⟩⟩

end Verif.Threads
