import Verif.Model.SlotThreadPoolTasks
import Verif.Lemmas.SlotThreadPoolLive
/-!
Executions of a pool whose tasks use it are executions of the pool.
-/
namespace Verif.SlotThreadPool
open Verif.Threads

variable {T : Type} {c d : Nat}

/-- The steps of the pool. -/
def plabel (e : (tasked T c d).Execution) (n : Nat) : Option (Label (system T).Op) :=
  (e.label n).bind (actual c d (e.at_ n))

theorem plabel_none (e : (tasked T c d).Execution) (n : Nat) (hn : plabel e n = none) :
    e.at_ (n + 1) = e.at_ n := by
  rcases e.next n with ⟨-, h⟩ | ⟨l, hl, h⟩
  · exact h
  · have h : (actual c d (e.at_ n) l).bind (step (e.at_ n)) = some (e.at_ (n + 1)) := h
    obtain ⟨l', ha, -⟩ := Option.bind_eq_some_iff.1 h
    unfold plabel at hn
    rw [hl] at hn
    have hn : actual c d (e.at_ n) l = none := hn
    rw [ha] at hn
    cases hn

theorem plabel_some (e : (tasked T c d).Execution) (n : Nat) (l' : Label (system T).Op)
    (hn : plabel e n = some l') : step (e.at_ n) l' = some (e.at_ (n + 1)) := by
  unfold plabel at hn
  rcases e.next n with ⟨h, -⟩ | ⟨l, hl, h⟩
  · rw [h] at hn
    cases hn
  · have h : (actual c d (e.at_ n) l).bind (step (e.at_ n)) = some (e.at_ (n + 1)) := h
    rw [hl] at hn
    have hn : actual c d (e.at_ n) l = some l' := hn
    rw [hn] at h
    exact h

/-- The execution of the pool alone. -/
def plain (e : (tasked T c d).Execution) : (system T).Execution where
  at_ := e.at_
  label := plabel e
  ok n := by
    cases h : plabel e n with
    | none => exact plabel_none e n h
    | some l => exact plabel_some e n l h

/-- A thread that executes the calls of tasks. -/
def helper (c d i : Nat) : Prop := c ≤ i ∧ i < c + d

theorem busy_iff {s : State T} {i : Nat} : busy s i = true ↔ ∃ x, s.pcs[i]? = some x ∧ ∀ r, x ≠ .idle r := by
  unfold busy
  split
  · rename_i r h
    constructor
    · nofun
    · rintro ⟨x, hx, hn⟩
      rw [h] at hx
      cases hx
      exact absurd rfl (hn r)
  · rename_i x hn h
    exact ⟨fun _ => ⟨x, h, fun r e => hn r (by rw [e])⟩, fun _ => rfl⟩
  · rename_i h
    constructor
    · nofun
    · rintro ⟨x, hx, -⟩
      rw [h] at hx
      cases hx

theorem inTask_iff {s : State T} {i : Nat} : inTask s i = true ↔ ∃ id t, s.pcs[i]? = some (.inside id t) := by
  unfold inTask
  split
  · rename_i id t h
    exact ⟨fun _ => ⟨id, t, h⟩, fun _ => rfl⟩
  · rename_i h
    constructor
    · nofun
    · rintro ⟨id, t, hx⟩
      exact absurd hx (h id t)

theorem run_busy {s : State T} {i : Nat} (h : (run s i).isSome) : busy s i = true := by
  obtain ⟨s', h⟩ := Option.isSome_iff_exists.1 h
  obtain ⟨x, hx, hr⟩ := run_ran h
  refine busy_iff.2 ⟨x, hx, ?_⟩
  rintro r rfl
  cases hr with
  | stay x q hc hq hn => cases hc

/-- Threads that can run are at a place that only they can change. -/
theorem run_own {s : State T} {i : Nat} (h : (run s i).isSome) : ∃ x, s.pcs[i]? = some x ∧ x.own = true := by
  obtain ⟨s', h⟩ := Option.isSome_iff_exists.1 h
  obtain ⟨x, hx, hr⟩ := run_ran h
  refine ⟨x, hx, ?_⟩
  cases hr with
  | stay x q hc hq hn => exact calling_own hc
  | _ => rfl

/-- Places within `emit` and `slot`. -/
def PC.front : PC T → Prop
  | .emitLock _ => True
  | .emitCall _ => True
  | .slotLock _ _ => True
  | _ => False

/-- Tasks call `emit` and `slot` only. -/
def polite (c : Nat) : Label (Op T) → Prop
  | .start i (.emit _) => True
  | .start i (.slot _ _) => True
  | .start i _ => i < c
  | _ => True

/-- The threads that execute the calls of tasks do so only within a task. -/
structure Calls (c d : Nat) (s : State T) : Prop where
  length : s.pcs.length = c + d + d
  calls : ∀ h x, helper c d h → s.pcs[h]? = some x →
    (∃ r, x = .idle r) ∨ (x.front ∧ inTask s (h + d) = true)

theorem inTask_lt {s : State T} {i : Nat} (h : inTask s i = true) : i < s.pcs.length := by
  obtain ⟨id, t, h⟩ := inTask_iff.1 h
  exact (List.getElem?_eq_some_iff.1 h).1

theorem front_own {x : PC T} (h : x.front) : x.own = true := by
  cases x <;> first | rfl | exact h.elim

theorem front_busy {s : State T} {i : Nat} {x : PC T} (hx : s.pcs[i]? = some x) (h : x.front) :
    busy s i = true := by
  refine busy_iff.2 ⟨x, hx, ?_⟩
  rintro r rfl
  exact h

theorem frame_idle {s s' : State T} {l : Label (Op T)} (hs : Stepped s l s') {i : Nat} {r : Option Ret}
    (hx : s.pcs[i]? = some (.idle r)) (hl : ∀ op, l ≠ .start i op) : s'.pcs[i]? = some (.idle r) := by
  have hset : ∀ (k : Nat) (y : PC T), k ≠ i → (s.pcs.set k y)[i]? = some (.idle r) := by
    intro k y hk
    rw [get_set_ne (fun e => hk e.symm)]
    exact hx
  cases hs with
  | run k z s' hz hr =>
    have hk : k ≠ i := by
      rintro rfl
      rw [hx] at hz
      cases hz
      cases hr with
      | stay x q hc hq hn => cases hc
    cases hr with
    | stay x q hc hq hn => exact hx
    | spawnOne n j hj =>
      have hji : j ≠ i := by
        rintro rfl
        rw [hx] at hj
        cases hj
      show ((s.pcs.set j .next).set k (.spawn n))[i]? = _
      rw [get_set_ne (fun e => hk e.symm)]
      exact hset j _ hji
    | _ => exact hset k _ hk
  | start k r op hz =>
    refine hset k _ ?_
    rintro rfl
    exact hl op rfl
  | spurious k q hq => exact hx
  | timeout k q hq => exact hx

/-- What acts for thread `i`. -/
theorem acting_cases {s : State T} {i k : Nat} (h : acting c d s i = some k) :
    (i < c ∧ k = i) ∨ (c + d ≤ i ∧ inTask s i = true ∧ busy s (i - d) = true ∧ k = i - d) ∨
      (c + d ≤ i ∧ k = i ∧ (inTask s i = false ∨ busy s (i - d) = false)) := by
  unfold acting at h
  split at h
  · cases h; exact Or.inl ⟨‹_›, rfl⟩
  · split at h
    · cases h
    · split at h
      · rename_i hb
        cases h
        rw [Bool.and_eq_true] at hb
        exact Or.inr (Or.inl ⟨by omega, hb.1, hb.2, rfl⟩)
      · rename_i hb
        cases h
        rw [Bool.and_eq_true] at hb
        refine Or.inr (Or.inr ⟨by omega, rfl, ?_⟩)
        cases h1 : inTask s i with
        | false => exact Or.inl rfl
        | true => exact Or.inr (by simpa [h1] using hb)

theorem actual_run {s : State T} {l : Label (Op T)} {k : Nat} (h : actual c d s l = some (.run k)) :
    ∃ i, l = .run i ∧ acting c d s i = some k := by
  cases l with
  | start i op =>
    simp only [actual] at h
    split at h
    · cases h
    · split at h <;> cases h
  | run i =>
    simp only [actual, Option.map_eq_some_iff] at h
    obtain ⟨a, h1, h2⟩ := h
    cases h2
    exact ⟨i, rfl, h1⟩
  | spurious i =>
    simp only [actual, Option.map_eq_some_iff] at h
    obtain ⟨a, -, h2⟩ := h
    cases h2
  | timeout i =>
    simp only [actual, Option.map_eq_some_iff] at h
    obtain ⟨a, -, h2⟩ := h
    cases h2

theorem actual_start {s : State T} {l : Label (Op T)} {k : Nat} {op : Op T}
    (h : actual c d s l = some (.start k op)) :
    (k < c ∧ l = .start k op) ∨ (c ≤ k ∧ inTask s (k + d) = true ∧ l = .start (k + d) op) := by
  cases l with
  | start i op' =>
    simp only [actual] at h
    split at h
    · cases h; exact Or.inl ⟨‹_›, rfl⟩
    · split at h
      · rename_i hi
        cases h
        refine Or.inr ⟨by omega, ?_, ?_⟩
        · rw [show i - d + d = i by omega]; exact hi.2
        · rw [show i - d + d = i by omega]
      · cases h
  | run i =>
    simp only [actual, Option.map_eq_some_iff] at h
    obtain ⟨a, -, h2⟩ := h
    cases h2
  | spurious i =>
    simp only [actual, Option.map_eq_some_iff] at h
    obtain ⟨a, -, h2⟩ := h
    cases h2
  | timeout i =>
    simp only [actual, Option.map_eq_some_iff] at h
    obtain ⟨a, -, h2⟩ := h
    cases h2

theorem inTask_frame {s s' : State T} {l : Label (Op T)} (hs : Stepped s l s') {i : Nat}
    (h : inTask s i = true) (hl : l ≠ .run i) : inTask s' i = true := by
  obtain ⟨id, t, hx⟩ := inTask_iff.1 h
  exact inTask_iff.2 ⟨id, t, frame_own hs hx rfl hl⟩

theorem calls_step {s s' : State T} {l : Label (Op T)} (hp : polite c l) (hc : Calls c d s)
    (hst : (tasked T c d).step s l = some s') : Calls c d s' := by
  obtain ⟨l', ha, hs⟩ : ∃ l', actual c d s l = some l' ∧ Stepped s l' s' := by
    obtain ⟨l', ha, hs⟩ := Option.bind_eq_some_iff.1 (show (actual c d s l).bind (step s) = some s' from hst)
    exact ⟨l', ha, step_stepped hs⟩
  clear hst
  refine ⟨(length_kept hs).trans hc.length, ?_⟩
  intro h x' hh hx'
  have hlen : h < s.pcs.length := by
    rw [← length_kept hs]
    exact (List.getElem?_eq_some_iff.1 hx').1
  have hx : s.pcs[h]? = some s.pcs[h] := List.getElem?_eq_getElem hlen
  generalize s.pcs[h] = x at hx
  have hd : h ≠ h + d := by have := hh.1; have := hh.2; omega
  rcases hc.calls h x hh hx with ⟨r, rfl⟩ | ⟨hf, hi⟩
  · -- outside calls
    by_cases hl : ∃ op, l' = .start h op
    · obtain ⟨op, rfl⟩ := hl
      rcases actual_start ha with ⟨h1, -⟩ | ⟨-, h2, rfl⟩
      · exact absurd h1 (by have := hh.1; omega)
      · have hi' := inTask_frame hs h2 (by intro h; cases h)
        refine Or.inr ⟨?_, hi'⟩
        cases hs with
        | start k r op hz =>
          have hx' : (s.pcs.set h (entry op))[h]? = some x' := hx'
          rw [get_set_self hz] at hx'
          cases hx'
          cases op with
          | emit id => trivial
          | slot id t => trivial
          | _ => exact absurd (show h + d < c from hp) (by have := hh.1; omega)
    · have := frame_idle hs hx (fun op e => hl ⟨op, e⟩)
      rw [this] at hx'
      cases hx'
      exact Or.inl ⟨r, rfl⟩
  · have hb := front_busy hx hf
    have hlw : l' ≠ .run (h + d) := by
      rintro rfl
      obtain ⟨i, rfl, h1⟩ := actual_run ha
      rcases acting_cases h1 with ⟨h2, h3⟩ | ⟨h2, h3, h4, h5⟩ | ⟨h2, h3, h4⟩
      · have := hh.1; omega
      · have := hh.2
        have := inTask_lt h3
        have := hh.1
        have := hc.length
        omega
      · subst h3
        rw [Nat.add_sub_cancel, hi, hb] at h4
        rcases h4 with h4 | h4 <;> cases h4
    have hi' := inTask_frame hs hi hlw
    by_cases hl : l' = .run h
    · subst hl
      cases hs with
      | run k z s' hz hr =>
        rw [hx] at hz
        cases hz
        cases hr with
        | stay x q hc hq hn =>
          have : some x = some x' := hx.symm.trans hx'
          cases this
          exact Or.inr ⟨hf, hi'⟩
        | emitUnknown id hm hg =>
          have : some _ = some x' := (get_set_self hx).symm.trans hx'
          cases this
          exact Or.inl ⟨_, rfl⟩
        | emitKnown id t r hm hg hq =>
          have : some _ = some x' := (get_set_self hx).symm.trans hx'
          cases this
          exact Or.inr ⟨trivial, hi'⟩
        | emitRet id q r hq hr =>
          have : some _ = some x' := (get_set_self hx).symm.trans hx'
          cases this
          exact Or.inl ⟨_, rfl⟩
        | slotKnown id t t' hm hg =>
          have : some _ = some x' := (get_set_self hx).symm.trans hx'
          cases this
          exact Or.inl ⟨_, rfl⟩
        | slotNew id t hm hg =>
          have : some _ = some x' := (get_set_self hx).symm.trans hx'
          cases this
          exact Or.inl ⟨_, rfl⟩
        | _ => exact hf.elim
    · have := frame_own hs hx (front_own hf) hl
      rw [this] at hx'
      cases hx'
      exact Or.inr ⟨hf, hi'⟩

theorem calls_init (n : Nat) (picks : Nat → Nat) (ends : Nat → Ending) :
    Calls c d (taskedInit n c d picks ends : State T) := by
  refine ⟨by simp [taskedInit, init], ?_⟩
  intro h x hh hx
  have hx : (List.replicate (c + d) (PC.idle none) ++ List.replicate d PC.dormant)[h]? = some x := hx
  rw [List.getElem?_append_left (by rw [List.length_replicate]; exact hh.2)] at hx
  exact Or.inl ⟨none, (List.mem_replicate.1 (List.mem_of_getElem? hx)).2⟩

section
variable (e : (tasked T c d).Execution) (hp : ∀ m l, e.label m = some l → polite c l)

include hp in
theorem calls_exec (h0 : Calls c d (e.at_ 0)) (m : Nat) : Calls c d (e.at_ m) := by
  induction m with
  | zero => exact h0
  | succ m ih =>
    rcases e.next m with ⟨-, h⟩ | ⟨l, h1, h⟩
    · rw [h]; exact ih
    · exact calls_step (hp m l h1) ih h

theorem plain_label {m : Nat} {l : Label (Op T)} (h : e.label m = some l) :
    (plain e).label m = actual c d (e.at_ m) l := by
  show (e.label m).bind _ = _
  rw [h]
  rfl

/-- A thread that does not act stays where it is. -/
theorem stays {i n : Nat} {x : PC T} (hx : (e.at_ n).pcs[i]? = some x) (ho : x.own = true)
    (hno : ∀ m, n ≤ m → (plain e).label m ≠ some (.run i)) (m : Nat) (hm : n ≤ m) :
    (e.at_ m).pcs[i]? = some x := by
  induction hm with
  | refl => exact hx
  | step hm ih =>
    rename_i m
    rcases (plain e).next m with ⟨-, h⟩ | ⟨l, h1, h⟩
    · have h : e.at_ (m + 1) = e.at_ m := h
      rw [h]; exact ih
    · refine frame_own (step_stepped h) ih ho ?_
      rintro rfl
      exact hno m hm h1

include hp in
/-- The execution of the pool alone is fair to all threads that are not within a task. -/
theorem plain_outside (hf : e.Fair) (h0 : Calls c d (e.at_ 0)) : Outside (plain e) := by
  intro i n hio
  have hC := calls_exec e hp h0
  refine Classical.byContradiction fun hno => ?_
  have hno : ∀ m, n ≤ m → (plain e).label m ≠ some (.run i) := fun m hm h => hno ⟨m, hm, h⟩
  obtain ⟨k0, hk0, hr0, hn0⟩ := hio n (Nat.le_refl n)
  have hr0 : (run (e.at_ k0) i).isSome := hr0
  obtain ⟨x, hx, ho⟩ := run_own hr0
  have hst : ∀ m, k0 ≤ m → (e.at_ m).pcs[i]? = some x :=
    stays e hx ho fun m hm => hno m (Nat.le_trans hk0 hm)
  -- the thread for which `i` acts, whenever it can run
  have key : ∀ w, (∀ m, k0 ≤ m → acting c d (e.at_ m) w = some i) → False := by
    intro w hw
    obtain ⟨m, hm, hl⟩ := hf w k0 (fun m hm => by
      obtain ⟨k, hk, hr, -⟩ := hio m (by omega)
      refine ⟨k, hk, ?_⟩
      show ((actual c d (e.at_ k) (.run w)).bind (step (e.at_ k))).isSome
      simp only [actual, hw k (by omega), Option.map_some, Option.bind_some]
      exact hr)
    refine hno m (by omega) ?_
    rw [plain_label e hl]
    simp only [actual, hw m hm, Option.map_some]
    rfl
  by_cases h1 : i < c
  · exact key i fun m _ => by simp [acting, h1]
  · by_cases h2 : i < c + d
    · -- it executes the calls of a task
      have hh : helper c d i := ⟨by omega, h2⟩
      refine key (i + d) fun m hm => ?_
      rcases (hC m).calls i x hh (hst m hm) with ⟨r, rfl⟩ | ⟨hfr, hi⟩
      · cases ho
      · have hb := front_busy (hst m hm) hfr
        unfold acting
        rw [if_neg (by omega), if_neg (by omega), Nat.add_sub_cancel, hi, hb]
        rfl
    · refine key i fun m hm => ?_
      have hi : inTask (e.at_ m) i = false := by
        cases hi : inTask (e.at_ m) i with
        | false => rfl
        | true =>
          obtain ⟨id, t, h⟩ := inTask_iff.1 hi
          rw [hst m hm] at h
          cases h
          exact absurd hx (hn0 id t)
      unfold acting
      rw [if_neg h1, if_neg h2, hi]
      rfl

include hp in
/-- If no task makes calls for ever, it is fair to all threads. -/
theorem plain_fair (hf : e.Fair) (n : Nat) (picks : Nat → Nat) (ends : Nat → Ending)
    (h0 : e.at_ 0 = taskedInit n c d picks ends)
    (hfin : ∀ i m, ∃ k, m ≤ k ∧ (inTask (e.at_ k) i = false ∨
      ∀ k', k ≤ k' → ∀ op, e.label k' ≠ some (.start i op))) : (plain e).Fair := by
  intro i n hio
  have hC0 : Calls c d (e.at_ 0) := by rw [h0]; exact calls_init _ picks ends
  have hC := calls_exec e hp hC0
  have hO := plain_outside e hp hf hC0
  have hR : ∀ m, (system T).Reachable (init _ (c + d) d picks ends) ((plain e).at_ m) :=
    (plain e).reachable (by show (system T).Reachable _ (e.at_ 0); rw [h0]; exact .init)
  refine Classical.byContradiction fun hno => ?_
  have hno' : ∀ m, n ≤ m → (plain e).label m ≠ some (.run i) := fun m hm h => hno ⟨m, hm, h⟩
  obtain ⟨k0, hk0, hr0⟩ := hio n (Nat.le_refl n)
  have hr0 : (run (e.at_ k0) i).isSome := hr0
  obtain ⟨x, hx, ho⟩ := run_own hr0
  have hst : ∀ m, k0 ≤ m → (e.at_ m).pcs[i]? = some x :=
    stays e hx ho fun m hm => hno' m (Nat.le_trans hk0 hm)
  by_cases hin : ∃ id t, x = .inside id t
  · obtain ⟨id, t, rfl⟩ := hin
    have hiT : ∀ m, k0 ≤ m → inTask (e.at_ m) i = true := fun m hm => inTask_iff.2 ⟨id, t, hst m hm⟩
    have key : ∀ k2, k0 ≤ k2 → (∀ m, k2 ≤ m → acting c d (e.at_ m) i = some i) → False := by
      intro k2 hk2 hw
      obtain ⟨m, hm, hl⟩ := hf i k2 (fun m hm => by
        obtain ⟨k, hk, hr⟩ := hio m (by omega)
        refine ⟨k, hk, ?_⟩
        show ((actual c d (e.at_ k) (.run i)).bind (step (e.at_ k))).isSome
        simp only [actual, hw k (by omega), Option.map_some, Option.bind_some]
        exact hr)
      refine hno' m (by omega) ?_
      rw [plain_label e hl]
      simp only [actual, hw m hm, Option.map_some]
      rfl
    by_cases h1 : i < c
    · exact key k0 (Nat.le_refl _) fun m _ => by simp [acting, h1]
    · by_cases h2 : i < c + d
      · rcases (hC k0).calls i _ ⟨by omega, h2⟩ hx with ⟨r, h⟩ | ⟨h, -⟩
        · cases h
        · exact h
      · have hlt := inTask_lt (hiT k0 (Nat.le_refl _))
        rw [(hC k0).length] at hlt
        have hh : helper c d (i - d) := ⟨by omega, by omega⟩
        obtain ⟨k1, hk1, h⟩ := hfin i k0
        have hns : ∀ k', k1 ≤ k' → ∀ op, e.label k' ≠ some (.start i op) := by
          rcases h with h | h
          · rw [hiT k1 hk1] at h; cases h
          · exact h
        -- its call returns
        have hidle : ∃ (k2 : Nat) (r : Option Ret), k1 ≤ k2 ∧ (e.at_ k2).pcs[i - d]? = some (.idle r) := by
          obtain ⟨y, hy⟩ : ∃ y, (e.at_ k1).pcs[i - d]? = some y :=
            ⟨_, List.getElem?_eq_getElem (by rw [(hC k1).length]; omega)⟩
          rcases (hC k1).calls _ y hh hy with ⟨r, rfl⟩ | ⟨hfr, -⟩
          · exact ⟨k1, r, Nat.le_refl _, hy⟩
          · cases y with
            | emitLock id =>
              obtain ⟨k, r, hk, h⟩ := emit_returns (plain e) hR hO _ id k1 hy
              exact ⟨k, _, hk, h⟩
            | emitCall id =>
              obtain ⟨k, hk, h, -⟩ := emit_call_returns (plain e) hR hO _ id k1 hy
              exact ⟨k, _, hk, h⟩
            | slotLock id t =>
              obtain ⟨k, r, hk, h⟩ := slot_returns (plain e) hR hO _ id k1 t hy
              exact ⟨k, _, hk, h⟩
            | _ => exact hfr.elim
        obtain ⟨k2, r, hk2, hr⟩ := hidle
        have hst2 : ∀ m, k2 ≤ m → (e.at_ m).pcs[i - d]? = some (.idle r) := by
          intro m hm
          induction hm with
          | refl => exact hr
          | step hm ih =>
            rename_i m
            have hm : k2 ≤ m := hm
            rcases e.next m with ⟨-, h⟩ | ⟨l, hl, h⟩
            · rw [h]; exact ih
            · have h : (actual c d (e.at_ m) l).bind (step (e.at_ m)) = some (e.at_ (m + 1)) := h
              obtain ⟨l', ha, h⟩ := Option.bind_eq_some_iff.1 h
              refine frame_idle (step_stepped h) ih ?_
              rintro op rfl
              rcases actual_start ha with ⟨h3, -⟩ | ⟨-, -, rfl⟩
              · omega
              · rw [show i - d + d = i by omega] at hl
                exact hns m (by omega) op hl
        refine key k2 (by omega) fun m hm => ?_
        have hb : busy (e.at_ m) (i - d) = false := by
          unfold busy
          rw [hst2 m hm]
        unfold acting
        rw [if_neg h1, if_neg h2, hb, Bool.and_false]
        rfl
  · obtain ⟨m, hm, hl⟩ := hO i n (fun m hm => by
      obtain ⟨k, hk, hr⟩ := hio (max m k0) (by omega)
      refine ⟨k, by omega, hr, ?_⟩
      intro id t h
      have h : (e.at_ k).pcs[i]? = some (.inside id t) := h
      rw [hst k (by omega)] at h
      cases h
      exact hin ⟨id, t, rfl⟩)
    exact hno' m hm hl

end

end Verif.SlotThreadPool
