import Verif.Lemmas.EventHandler
/-!
Waits and liveness of the `EventHandler` program.
-/
namespace Verif.EventHandler
open Verif.Threads
open Verif.Spec.EventHandler (Call)

variable {C A : Type}

theorem woken_spec {x y : PC C A} (h : woken x = some y) : ∃ n, x = .asleep n ∧ y = .ready n := by
  cases x with
  | asleep n => cases h; exact ⟨n, rfl, rfl⟩
  | _ => cases h

theorem isSome_woken {x : PC C A} (h : (woken x).isSome) : ∃ n, x = .asleep n := by
  cases x with
  | asleep n => exact ⟨n, rfl⟩
  | _ => cases h

/-- `threads_waiting_` counts the threads in `wait`. -/
def Count (s : Conf (prog C A)) : Prop := s.sh.waiting = s.pcs.countP PC.inWait

theorem count_step {s s' : Conf (prog C A)} {l : Label (Op C A)} (hc : Count s)
    (hs : (prog C A).Stepped s l s') : Count s' := by
  refine Prog.count_step (P := prog C A) PC.inWait (fun sh => sh.waiting) ?_ ?_ ?_ ?_ hc hs
  · intro x op y h
    obtain ⟨⟨r, rfl⟩, -, -, h, -⟩ := start_idle h
    exact h
  · intro i x sh y b hx h
    change run i s.sh x = some (sh, y, b) at h
    cases x with
    | ready n =>
      have hpos : 0 < s.sh.waiting := by
        rw [hc]; exact countP_pos_of_get PC.inWait hx rfl
      simp only [run] at h
      split at h <;> cases h
      · show s.sh.waiting - 1 + 1 = s.sh.waiting + 0
        omega
      · rfl
    | _ =>
      simp only [run] at h
      (repeat' split at h) <;> cases h <;> first | rfl | (split <;> rfl)
  · intro x y h
    obtain ⟨n, rfl, rfl⟩ := woken_spec h
    rfl
  · intro x y h
    cases h

/-- Without a callback nobody waits, except while `unset_callback` wakes them. -/
def NoWait (s : Sh C A) : Prop := s.set = false → s.event = none → s.waiting = 0

/-- The same for the thread that holds `event_mutex_`. -/
def NoWaitLoc (s : Sh C A) (_ : Nat) (z : PC C A) : Prop :=
  match z with
  | .unsetTest | .setInternal _ | .setFlag _ => s.set = false → s.waiting = 0
  | .unsetRelease => s.waiting = 0
  | _ => True

theorem nowait_other {s s' : Sh C A} {j : Nat} {z : PC C A} (hz : NoWaitLoc s j z)
    (h : z.holdsE = true → s'.set = s.set ∧ (s.set = false ∨ z = .unsetRelease → s'.waiting ≤ s.waiting)) :
    NoWaitLoc s' j z := by
  cases z with
  | unsetTest =>
    obtain ⟨h1, h2⟩ := h rfl
    intro e
    rw [h1] at e
    have e2 : s.waiting = 0 := hz e
    have := h2 (Or.inl e)
    show s'.waiting = 0
    omega
  | setInternal c =>
    obtain ⟨h1, h2⟩ := h rfl
    intro e
    rw [h1] at e
    have e2 : s.waiting = 0 := hz e
    have := h2 (Or.inl e)
    show s'.waiting = 0
    omega
  | setFlag c =>
    obtain ⟨h1, h2⟩ := h rfl
    intro e
    rw [h1] at e
    have e2 : s.waiting = 0 := hz e
    have := h2 (Or.inl e)
    show s'.waiting = 0
    omega
  | unsetRelease =>
    obtain ⟨h1, h2⟩ := h rfl
    have e2 : s.waiting = 0 := hz
    have := h2 (Or.inr rfl)
    show s'.waiting = 0
    omega
  | _ => trivial

/-- Steps change the flag only with `event_mutex_` held, and the number of waiting threads grows only
while the callback is set. -/
theorem run_flag {s s' : Sh C A} {i : Nat} {x y : PC C A} {b : Bool} (h : run i s x = some (s', y, b)) :
    (x.holdsE = true ∨ s'.set = s.set) ∧ (s.set = true ∨ s'.waiting ≤ s.waiting) := by
  cases x with
  | waitLock n =>
    simp only [run] at h
    split at h
    · cases h; exact ⟨Or.inr rfl, Or.inr (Nat.le_refl _)⟩
    · rename_i ha
      cases h
      refine ⟨Or.inr rfl, Or.inl ?_⟩
      simp only [awake, Bool.or_eq_true, not_or] at ha
      simpa using ha.2
  | ready n =>
    simp only [run] at h
    split at h <;> cases h
    · exact ⟨Or.inr rfl, Or.inr (Nat.sub_le _ _)⟩
    · exact ⟨Or.inr rfl, Or.inr (Nat.le_refl _)⟩
  | _ =>
    simp only [run] at h
    (repeat' split at h) <;> cases h <;>
      first | exact ⟨Or.inr rfl, Or.inr (Nat.le_refl _)⟩ | exact ⟨Or.inl rfl, Or.inr (Nat.le_refl _)⟩

/-- Both invariants together. -/
structure Glob' (s : Sh C A) : Prop where
  glob : Glob s
  nowait : NoWait s

structure Loc' (s : Sh C A) (j : Nat) (z : PC C A) : Prop where
  loc : Loc s j z
  nowait : NoWaitLoc s j z

theorem nowait_run {s s' : Sh C A} {i : Nat} {x y : PC C A} {b : Bool} (hg : Glob' s) (hx : Loc' s i x)
    (h : run i s x = some (s', y, b)) : NoWait s' ∧ NoWaitLoc s' i y := by
  have hf := run_flag h
  have hev : x.holdsE = false → y.holdsE = false → s'.event = s.event → NoWait s' ∧ NoWaitLoc s' i y := by
    intro h1 h2 h3
    refine ⟨?_, ?_⟩
    · intro e1 e2
      rcases hf.1 with h | h
      · rw [h1] at h; cases h
      · rw [h] at e1
        rw [h3] at e2
        have h0 := hg.nowait e1 e2
        rcases hf.2 with h | h
        · rw [e1] at h; cases h
        · omega
    · cases y <;> first | trivial | cases h2
  have hheld : ∀ t : Sh C A, t.event = s.event → x.holdsE = true → NoWait t := by
    intro t h1 h2 _ e
    rw [h1, hx.loc.event.1 h2] at e
    cases e
  cases x with
  | idle r => cases h
  | asleep n => cases h
  | setEvent c =>
    simp only [run] at h
    split at h
    · cases h
    · rename_i he
      cases h
      exact ⟨fun _ => nofun, fun e => hg.nowait e (isSome_none he)⟩
  | unsetEvent =>
    simp only [run] at h
    split at h
    · cases h
    · rename_i he
      cases h
      exact ⟨fun _ => nofun, fun e => hg.nowait e (isSome_none he)⟩
  | setInternal c =>
    simp only [run] at h
    split at h
    · cases h
    · cases h; exact ⟨hheld _ rfl rfl, hx.nowait⟩
  | unsetInternal =>
    simp only [run] at h
    split at h
    · cases h
    · cases h; exact ⟨hheld _ rfl rfl, trivial⟩
  | evInternal a =>
    simp only [run] at h
    split at h
    · cases h
    · cases h; exact hev rfl rfl rfl
  | setFlag c => cases h; exact ⟨hheld _ rfl rfl, trivial⟩
  | setStore c => cases h; exact ⟨hheld _ rfl rfl, trivial⟩
  | setHook =>
    cases h
    refine ⟨?_, trivial⟩
    intro e
    have := hx.loc.on rfl
    change s.set = false at e
    rw [this] at e
    cases e
  | unsetTest =>
    simp only [run] at h
    split at h
    · cases h; exact ⟨hheld _ rfl rfl, trivial⟩
    · rename_i he
      cases h
      exact ⟨hheld _ rfl rfl, hx.nowait (by simpa using he)⟩
  | unsetFlag => cases h; exact ⟨hheld _ rfl rfl, trivial⟩
  | unsetStore => cases h; exact ⟨hheld _ rfl rfl, trivial⟩
  | unsetHook => cases h; exact ⟨hheld _ rfl rfl, trivial⟩
  | unsetNotify => cases h; exact ⟨hheld _ rfl rfl, trivial⟩
  | unsetExit =>
    simp only [run] at h
    cases h
    refine ⟨hheld _ rfl rfl, ?_⟩
    split
    · rename_i hw; exact hw
    · trivial
  | unsetRelease =>
    cases h
    exact ⟨fun _ _ => hx.nowait, trivial⟩
  | evTest a =>
    simp only [run] at h
    split at h <;> cases h <;> exact hev rfl rfl rfl
  | waitTest n =>
    simp only [run] at h
    cases h
    exact hev rfl (by split <;> rfl) rfl
  | waitLock n =>
    simp only [run] at h
    split at h <;> cases h <;> exact hev rfl rfl rfl
  | ready n =>
    simp only [run] at h
    split at h <;> cases h <;> exact hev rfl rfl rfl
  | _ => cases h; exact hev rfl rfl rfl

theorem local' (Al : Op C A → Prop) : (prog C A).Local Al Glob' Loc' where
  start := by
    intro s i x op y ha hg hx h
    refine ⟨(local_ Al).start s i x op y ha hg.glob hx.loc h, ?_⟩
    obtain ⟨-, h1, -⟩ := start_idle h
    cases y <;> first | trivial | cases h1
  shared := fun s i x s' y b hg hx h => ⟨(keeps_run hg.glob hx.loc h).1, (nowait_run hg hx h).1⟩
  run := fun s i x s' y b hg hx h => ⟨(keeps_run hg.glob hx.loc h).2.1, (nowait_run hg hx h).2⟩
  other := by
    intro s i x s' y b j z hg hx h hj hz
    refine ⟨(keeps_run hg.glob hx.loc h).2.2 j z hj hz.loc, nowait_other hz.nowait ?_⟩
    intro e
    obtain ⟨h1, h2⟩ := run_flag h
    have h3 : s'.set = s.set := by
      rcases h1 with h1 | h1
      · rw [not_event hx.loc hz.loc hj h1] at e; cases e
      · exact h1
    refine ⟨h3, ?_⟩
    intro h4
    have h5 : s.set = false := by
      rcases h4 with h4 | h4
      · exact h4
      · subst h4; exact hz.loc.off rfl
    rcases h2 with h2 | h2
    · rw [h5] at h2; cases h2
    · exact h2
  woken := by
    intro s i x y hx h
    obtain ⟨n, rfl, rfl⟩ := woken_spec h
    exact ⟨(local_ Al).woken s i _ _ hx.loc h, trivial⟩
  late := fun s i x y _ h => by cases h

/-- The mutex of a thread that does not exist is free. -/
def Mem (s : Conf (prog C A)) : Prop :=
  (∀ k, s.sh.event = some k → k < s.pcs.length) ∧ (∀ k, s.sh.internal = some k → k < s.pcs.length)

theorem run_mutex {s s' : Sh C A} {i : Nat} {x y : PC C A} {b : Bool} (h : run i s x = some (s', y, b)) :
    (s'.event = s.event ∨ s'.event = some i ∨ s'.event = none) ∧
    (s'.internal = s.internal ∨ s'.internal = some i ∨ s'.internal = none) := by
  cases x <;> simp only [run] at h <;> (repeat' split at h) <;> cases h <;>
    exact ⟨by first | exact Or.inl rfl | exact Or.inr (Or.inl rfl) | exact Or.inr (Or.inr rfl),
      by first | exact Or.inl rfl | exact Or.inr (Or.inl rfl) | exact Or.inr (Or.inr rfl)⟩

theorem mem_step {s s' : Conf (prog C A)} {l : Label (Op C A)} (h : Mem s)
    (hs : (prog C A).Stepped s l s') : Mem s' := by
  have hlen := Prog.stepped_length hs
  rcases Prog.stepped_sh hs with e | ⟨i, x, y, b, -, hx, hr⟩
  · unfold Mem; rw [e, hlen]; exact h
  · have hlt : i < s.pcs.length := (List.getElem?_eq_some_iff.1 hx).1
    obtain ⟨h1, h2⟩ := run_mutex (C := C) (A := A) hr
    unfold Mem
    rw [hlen]
    constructor
    · intro k hk
      rcases h1 with e | e | e
      · rw [e] at hk; exact h.1 k hk
      · rw [e] at hk; cases hk; exact hlt
      · rw [e] at hk; cases hk
    · intro k hk
      rcases h2 with e | e | e
      · rw [e] at hk; exact h.2 k hk
      · rw [e] at hk; cases hk; exact hlt
      · rw [e] at hk; cases hk

/-- About to notify because of something that happened. -/
def PC.pending : PC C A → Bool
  | .evNotify | .unsetStore | .unsetHook | .unsetNotify => true
  | _ => false

/-- Sleepers have a reason, or will be notified. -/
def Sleep (s : Conf (prog C A)) : Prop :=
  ∀ (j : Nat) (z : PC C A), s.pcs[j]? = some z → (woken z).isSome →
    (∀ n, z = .asleep n → awake s.sh n = false) ∨
    ∃ (k : Nat) (w : PC C A), s.pcs[k]? = some w ∧ w.pending = true

theorem sleep_step {s s' : Conf (prog C A)} {l : Label (Op C A)} (hI : Sleep s)
    (hs : (prog C A).Stepped s l s') : Sleep s' := by
  refine Prog.sleep_step (P := prog C A) (fun sh z => ∀ n, z = .asleep n → awake sh n = false)
    (fun w => w.pending = true) ?_ ?_ ?_ ?_ ?_ ?_ hI hs
  · intro x op y h
    obtain ⟨⟨r, rfl⟩, -, -, -, h⟩ := start_idle h
    exact ⟨h, nofun⟩
  · intro x y h
    obtain ⟨n, rfl, rfl⟩ := woken_spec h
    exact ⟨rfl, nofun⟩
  · intro x y h
    cases h
  · intro i x sh y b _ h hy n hn
    change run i s.sh x = some (sh, y, b) at h
    subst hn
    cases x with
    | waitLock m =>
      simp only [run] at h
      split at h
      · cases h
      · rename_i ha
        cases h
        simpa [awake] using ha
    | ready m =>
      simp only [run] at h
      split at h
      · cases h
      · rename_i ha
        cases h
        simpa [awake] using ha
    | _ =>
      simp only [run] at h
      (repeat' split at h) <;> first | (cases h; done) | skip
      all_goals
        simp only [Option.some.injEq, Prod.mk.injEq] at h
        have := h.2.1
        split at this <;> cases this
  · intro i x sh y _ h hp
    change run i s.sh x = some (sh, y, false) at h
    cases x with
    | evNotify => cases h
    | unsetNotify => cases h
    | unsetStore => cases h; rfl
    | unsetHook => cases h; rfl
    | _ => cases hp
  · intro i x sh y j z _ h _ _ hz hok
    change run i s.sh x = some (sh, y, false) at h
    obtain ⟨n, rfl⟩ := isSome_woken hz
    have hok := hok n rfl
    have key : awake sh n = false → (∀ m, PC.asleep (C := C) (A := A) n = .asleep m → awake sh m = false) ∨
        y.pending = true := by
      intro h; left; intro m hm; cases hm; exact h
    simp only [awake, Bool.or_eq_false_iff, decide_eq_false_iff_not, Bool.not_eq_false'] at hok
    cases x with
    | evCount a => cases h; exact Or.inr rfl
    | unsetFlag => cases h; exact Or.inr rfl
    | reset =>
      cases h
      refine key ?_
      simp only [awake, Bool.or_eq_false_iff, decide_eq_false_iff_not, Bool.not_eq_false']
      exact ⟨by omega, hok.2⟩
    | decrement =>
      cases h
      refine key ?_
      simp only [awake, Bool.or_eq_false_iff, decide_eq_false_iff_not, Bool.not_eq_false']
      refine ⟨?_, hok.2⟩
      split <;> omega
    | setFlag c =>
      cases h
      refine key ?_
      simp only [awake, Bool.or_eq_false_iff, decide_eq_false_iff_not, Bool.not_eq_false']
      exact ⟨hok.1, trivial⟩
    | _ =>
      simp only [run] at h
      (repeat' split at h) <;> cases h <;>
      · refine key ?_
        simp only [awake, Bool.or_eq_false_iff, decide_eq_false_iff_not, Bool.not_eq_false']
        exact hok

/-- All invariants. -/
structure Full (s : Conf (prog C A)) : Prop where
  inv : (prog C A).Inv Glob' Loc' s
  count : Count s
  mem : Mem s
  sleep : Sleep s

theorem full_step {s s' : Conf (prog C A)} {l : Label (Op C A)} (h : Full s)
    (hs : (prog C A).Stepped s l s') : Full s' :=
  ⟨(local' fun _ => True).step h.inv (Label.allowed_true l) hs, count_step h.count hs,
    mem_step h.mem hs, sleep_step h.sleep hs⟩

theorem full_init (n : Nat) : Full (init C A n) := by
  refine ⟨⟨⟨(inv_init n).glob, fun _ _ => rfl⟩, ?_⟩, ?_, ⟨nofun, nofun⟩, ?_⟩
  · intro j x h
    refine ⟨(inv_init n).loc j x h, ?_⟩
    rw [Prog.init_get h]
    trivial
  · show 0 = List.countP PC.inWait (List.replicate n (.idle .void))
    symm
    rw [List.countP_eq_zero]
    intro a ha
    rw [(List.mem_replicate.1 ha).2]
    nofun
  · intro j z h hz
    rw [Prog.init_get h] at hz
    cases hz

theorem full_reachable {n : Nat} {s : Conf (prog C A)}
    (h : (prog C A).system.Reachable (init C A n) s) : Full s :=
  System.Reachable.invariant (S := (prog C A).system) Full (full_init n)
    (fun _ _ _ hf hs => full_step hf (Prog.step_stepped hs)) h

/-- Neither outside calls nor asleep. -/
def PC.act : PC C A → Bool
  | .idle _ | .asleep _ => false
  | _ => true

theorem active {x : PC C A} (h : x.act = true) : (prog C A).Active x := by
  cases x with
  | idle r => cases h
  | asleep n => cases h
  | _ => exact ⟨fun op => by cases op <;> rfl, rfl, rfl⟩

section Liveness
variable (e : (prog C A).system.Execution) (hf : e.Fair) (hF : ∀ n, Full (e.at_ n))
include hf hF

/-- A step of an active thread that nothing can block. -/
theorem free_step (i : Nat) (x : PC C A) (ha : (prog C A).Active x) (Q : Conf (prog C A) → Prop)
    (hable : ∀ s : Sh C A, (run i s x).isSome)
    (hdone : ∀ s s' : Conf (prog C A), Full s → Full s' → s.pcs[i]? = some x →
      (prog C A).Stepped s (.run i) s' → Q s') :
    e.LeadsTo (fun s => s.pcs[i]? = some x) Q := by
  refine (Prog.runs' e hf Full hF i x ha (fun _ => True) Q (fun _ _ _ _ _ _ _ _ _ => Or.inl trivial)
    (fun s _ _ _ => hable s.sh) (fun s s' h1 h2 h3 _ h4 => hdone s s' h1 h2 h3 h4)).mono ?_ (fun _ h => h)
  exact fun s h => ⟨h, trivial⟩

/-- From `x` to `y`, unconditionally. -/
theorem free_goto (i : Nat) (x y : PC C A) (ha : (prog C A).Active x)
    (h : ∀ s : Sh C A, ∃ s' b, run i s x = some (s', y, b)) :
    e.LeadsTo (fun s => s.pcs[i]? = some x) (fun s => s.pcs[i]? = some y) := by
  refine free_step e hf hF i x ha _ ?_ ?_
  · intro s
    obtain ⟨s', b, h⟩ := h s
    rw [h]
    rfl
  · intro s s' _ _ hx hs
    obtain ⟨sh, z, b, hr, -, hz⟩ := Prog.stepped_run hs hx
    obtain ⟨s1, b1, h1⟩ := h s.sh
    have := h1.symm.trans hr
    simp only [Option.some.injEq, Prod.mk.injEq] at this
    rw [this.2.1]
    exact hz

/-- A thread that holds `internal_callback_mutex_` releases it. -/
theorem internal_ends (i : Nat) (x : PC C A) (hx : x.holdsI = true) :
    e.LeadsTo (fun s => s.pcs[i]? = some x) (fun s => s.sh.internal = none) := by
  have last : ∀ y : PC C A, y.act = true → (∀ s : Sh C A, ∃ s' z b, run i s y = some (s', z, b) ∧
      s'.internal = none) → e.LeadsTo (fun s => s.pcs[i]? = some y) (fun s => s.sh.internal = none) := by
    intro y hy h
    refine free_step e hf hF i y (active hy) _ ?_ ?_
    · intro s
      obtain ⟨s', z, b, h, -⟩ := h s
      rw [h]
      rfl
    · intro s s' _ _ hx hs
      obtain ⟨sh, z, b, hr, e1, -⟩ := Prog.stepped_run hs hx
      obtain ⟨s1, z1, b1, h1, h2⟩ := h s.sh
      have := h1.symm.trans hr
      simp only [Option.some.injEq, Prod.mk.injEq] at this
      rw [e1, ← this.1]
      exact h2
  have rel := last .evRelease rfl (fun s => ⟨_, _, _, rfl, rfl⟩)
  have ntf := (free_goto e hf hF i .evNotify .evRelease (active rfl) (fun s => ⟨_, _, rfl⟩)).trans rel
  have cnt : ∀ a, e.LeadsTo (fun s => s.pcs[i]? = some (.evCount a)) (fun s => s.sh.internal = none) :=
    fun a => (free_goto e hf hF i (.evCount a) .evNotify (active rfl) (fun s => ⟨_, _, rfl⟩)).trans ntf
  have ev : ∀ a, e.LeadsTo (fun s => s.pcs[i]? = some (.evIn a)) (fun s => s.sh.internal = none) :=
    fun a => (free_goto e hf hF i (.evIn a) (.evCount a) (active rfl) (fun s => ⟨_, _, rfl⟩)).trans (cnt a)
  have sst : ∀ c, e.LeadsTo (fun s => s.pcs[i]? = some (.setStore c)) (fun s => s.sh.internal = none) :=
    fun c => last (.setStore c) rfl (fun s => ⟨_, _, _, rfl, rfl⟩)
  have ust := last .unsetStore rfl (fun s => ⟨_, _, _, rfl, rfl⟩)
  cases x with
  | evRelease => exact rel
  | evNotify => exact ntf
  | evCount a => exact cnt a
  | evIn a => exact ev a
  | evTest a =>
    refine (free_step e hf hF i (.evTest a) (active rfl)
      (fun s => s.pcs[i]? = some (.evIn a) ∨ s.pcs[i]? = some .evNotify) ?_ ?_).trans (.or (ev a) ntf)
    · intro s
      simp only [run]
      split <;> rfl
    · intro s s' _ _ hx hs
      obtain ⟨sh, z, b, hr, -, hz⟩ := Prog.stepped_run hs hx
      change run i s.sh (.evTest a) = _ at hr
      simp only [run] at hr
      split at hr <;> cases hr
      · exact Or.inl hz
      · exact Or.inr hz
  | setStore c => exact sst c
  | setFlag c =>
    exact (free_goto e hf hF i (.setFlag c) (.setStore c) (active rfl) (fun s => ⟨_, _, rfl⟩)).trans (sst c)
  | unsetStore => exact ust
  | unsetFlag =>
    exact (free_goto e hf hF i .unsetFlag .unsetStore (active rfl) (fun s => ⟨_, _, rfl⟩)).trans ust
  | _ => cases hx

/-- `internal_callback_mutex_` is free again and again. -/
theorem internal_free : e.LeadsTo (fun _ => True) (fun s => s.sh.internal = none) := by
  intro n _
  cases hi : (e.at_ n).sh.internal with
  | none => exact ⟨n, Nat.le_refl n, hi⟩
  | some k =>
    have hk := (hF n).mem.2 k hi
    have hg : (e.at_ n).pcs[k]? = some (e.at_ n).pcs[k] := List.getElem?_eq_getElem hk
    have hl := ((hF n).inv.loc k _ hg).loc.internal.2 hi
    exact internal_ends e hf hF k _ hl n hg

/-- A thread that waits for `internal_callback_mutex_` gets it. -/
theorem internal_taken (i : Nat) (x y : PC C A) (hx : x.act = true)
    (h : ∀ s : Sh C A, run i s x = if s.internal.isSome then none else
      some ({ s with internal := some i }, y, false)) :
    e.LeadsTo (fun s => s.pcs[i]? = some x) (fun s => s.pcs[i]? = some y) := by
  have key := Prog.runs e hf Full hF i x (active hx) (fun _ => True) (fun s => s.pcs[i]? = some y)
    (fun _ _ _ _ _ _ _ _ _ => Or.inl trivial) ?_ ?_
  · exact key.mono (fun s h => ⟨h, trivial⟩) (fun _ h => h)
  · intro n hn
    obtain ⟨m, hm, hfree⟩ := internal_free e hf hF n trivial
    -- the thread is still there, or has moved
    rcases e.until_ (fun s => s.pcs[i]? = some x ∧ Full s) (fun s => s.pcs[i]? = some y) (by
        intro s l s' hs hst
        have hst' := Prog.step_stepped hst
        have hfull := full_step hs.2 hst'
        by_cases hl : l = .run i
        · subst hl
          obtain ⟨sh, z, b, hr, -, hz⟩ := Prog.stepped_run hst' hs.1
          have hr' : run i s.sh x = some (sh, z, b) := hr
          rw [h] at hr'
          split at hr'
          · cases hr'
          · cases hr'; exact Or.inr hz
        · exact Or.inl ⟨Prog.frame_active hst' hs.1 (active hx) hl, hfull⟩) n ⟨hn.1, hF n⟩ m hm with hp | ⟨k, hk, hq⟩
    · refine ⟨m, hm, Or.inl ⟨hp.1, ?_⟩⟩
      show (run i (e.at_ m).sh x).isSome
      rw [h, hfree]
      rfl
    · exact ⟨k, hk, Or.inr hq⟩
  · intro s s' _ _ hx' _ hst
    obtain ⟨sh, z, b, hr, -, hz⟩ := Prog.stepped_run hst hx'
    have hr' : run i s.sh x = some (sh, z, b) := hr
    rw [h] at hr'
    split at hr'
    · cases hr'
    · cases hr'; exact hz

/-- In the loop of `awake_all_waiting_threads_nts_`. -/
def InLoop (i : Nat) (s : Conf (prog C A)) : Prop :=
  s.pcs[i]? = some .unsetNotify ∨ s.pcs[i]? = some .unsetExit

omit hf hF in
/-- The loop goes on or ends; meanwhile the number of waiting threads does not grow. -/
theorem loop_keep (i : Nat) (k : Nat) {s s' : Conf (prog C A)} {l : Label (Op C A)} (hs : Full s)
    (hst : (prog C A).Stepped s l s') (hi : InLoop i s) (hw : s.sh.waiting ≤ k) :
    (InLoop i s' ∧ s'.sh.waiting ≤ k) ∨ s'.pcs[i]? = some .unsetRelease := by
  have hset : s.sh.set = false := by
    rcases hi with h | h
    · exact (hs.inv.loc i _ h).loc.off rfl
    · exact (hs.inv.loc i _ h).loc.off rfl
  have hw' : s'.sh.waiting ≤ k := by
    rcases Prog.stepped_sh hst with h | ⟨j, x, y, b, -, -, hr⟩
    · rw [h]; exact hw
    · rcases (run_flag (C := C) (A := A) hr).2 with h | h
      · rw [hset] at h; cases h
      · exact Nat.le_trans h hw
  by_cases hl : l = .run i
  · subst hl
    rcases hi with h | h
    · obtain ⟨sh, z, b, hr, -, hz⟩ := Prog.stepped_run hst h
      change run i s.sh .unsetNotify = _ at hr
      cases hr
      exact Or.inl ⟨Or.inr hz, hw'⟩
    · obtain ⟨sh, z, b, hr, -, hz⟩ := Prog.stepped_run hst h
      change run i s.sh .unsetExit = _ at hr
      simp only [run] at hr
      by_cases h0 : s.sh.waiting = 0
      · rw [if_pos h0] at hr; cases hr; exact Or.inr hz
      · rw [if_neg h0] at hr; cases hr; exact Or.inl ⟨Or.inl hz, hw'⟩
  · rcases hi with h | h
    · exact Or.inl ⟨Or.inl (Prog.frame_active hst h (active rfl) hl), hw'⟩
    · exact Or.inl ⟨Or.inr (Prog.frame_active hst h (active rfl) hl), hw'⟩

/-- A woken thread leaves the wait while the loop runs. -/
theorem loop_ready (i j n k : Nat) :
    e.LeadsTo (fun s => s.pcs[j]? = some (.ready n) ∧ InLoop i s ∧ s.sh.waiting ≤ k + 1)
      (fun s => (InLoop i s ∧ s.sh.waiting ≤ k) ∨ s.pcs[i]? = some .unsetRelease) := by
  refine Prog.runs' e hf Full hF j (.ready n) (active rfl) (fun s => InLoop i s ∧ s.sh.waiting ≤ k + 1) _ ?_ ?_ ?_
  · intro s l s' hs _ _ hk hst _
    rcases loop_keep i (k + 1) hs hst hk.1 hk.2 with h | h
    · exact Or.inl h
    · exact Or.inr (Or.inr h)
  · intro s _ _ _
    show (run j s.sh (.ready n)).isSome
    simp only [run]
    split <;> rfl
  · intro s s' hs hs' hx hk hst
    have hset : s.sh.set = false := by
      rcases hk.1 with h | h
      · exact (hs.inv.loc i _ h).loc.off rfl
      · exact (hs.inv.loc i _ h).loc.off rfl
    rcases loop_keep i (k + 1) hs hst hk.1 hk.2 with h | h
    · left
      refine ⟨h.1, ?_⟩
      obtain ⟨sh, z, b, hr, e1, -⟩ := Prog.stepped_run hst hx
      change run j s.sh (.ready n) = _ at hr
      simp only [run, awake, hset] at hr
      simp at hr
      rw [e1, ← hr.1]
      show s.sh.waiting - 1 ≤ k
      have := hk.2
      omega
    · exact Or.inr h

/-- The loop of `awake_all_waiting_threads_nts_` ends. -/
theorem loop_ends (i : Nat) :
    e.LeadsTo (InLoop i) (fun s => s.pcs[i]? = some .unsetRelease) := by
  -- from the test to the notification, or the end
  have exit_ : ∀ k, e.LeadsTo (fun s => s.pcs[i]? = some .unsetExit ∧ s.sh.waiting ≤ k)
      (fun s => (s.pcs[i]? = some .unsetNotify ∧ s.sh.waiting ≤ k ∧ 0 < s.sh.waiting) ∨
        s.pcs[i]? = some .unsetRelease) := by
    intro k
    refine Prog.runs' e hf Full hF i .unsetExit (active rfl) (fun s => s.sh.waiting ≤ k) _ ?_ ?_ ?_
    · intro s l s' hs _ hx hk hst hl
      rcases loop_keep i k hs hst (Or.inr hx) hk with h | h
      · exact Or.inl h.2
      · exact Or.inr (Or.inr h)
    · intro s _ _ _; rfl
    · intro s s' hs hs' hx hk hst
      obtain ⟨sh, z, b, hr, e1, hz⟩ := Prog.stepped_run hst hx
      change run i s.sh .unsetExit = _ at hr
      simp only [run] at hr
      by_cases h0 : s.sh.waiting = 0
      · rw [if_pos h0] at hr; cases hr; exact Or.inr hz
      · rw [if_neg h0] at hr
        cases hr
        refine Or.inl ⟨hz, ?_⟩
        rw [e1]
        exact ⟨hk, by omega⟩
  -- the notification: every waiting thread is woken
  have ntf : ∀ k, e.LeadsTo (fun s => s.pcs[i]? = some .unsetNotify ∧ s.sh.waiting ≤ k)
      (fun s => s.pcs[i]? = some .unsetExit ∧ s.sh.waiting ≤ k ∧
        ∀ (j : Nat) (n : Nat), s.pcs[j]? ≠ some (.asleep n)) := by
    intro k
    refine Prog.runs' e hf Full hF i .unsetNotify (active rfl) (fun s => s.sh.waiting ≤ k) _ ?_ ?_ ?_
    · intro s l s' hs _ hx hk hst hl
      rcases loop_keep i k hs hst (Or.inl hx) hk with h | h
      · exact Or.inl h.2
      · have := Prog.frame_active hst hx (active rfl) hl
        rw [this] at h
        cases h
    · intro s _ _ _; rfl
    · intro s s' hs hs' hx hk hst
      cases hst with
      | run _ w y sh hw hy =>
        rw [hx] at hw
        cases hw
        cases hy
      | notify _ w y sh hw hy =>
        rw [hx] at hw
        cases hw
        cases hy
        have hx' : (s.pcs.map (prog C A).wake)[i]? = some ((prog C A).wake .unsetNotify) := by
          rw [List.getElem?_map, hx]; rfl
        refine ⟨get_set_self hx', hk, ?_⟩
        intro j n hj
        rcases set_get hj with ⟨-, h, -⟩ | ⟨-, hj⟩
        · cases h
        · obtain ⟨a, -, ha⟩ := map_get hj
          cases a <;> cases ha
  -- one round
  have round : ∀ k, e.LeadsTo (fun s => s.pcs[i]? = some .unsetExit ∧ s.sh.waiting ≤ k + 1 ∧
        ∀ (j : Nat) (n : Nat), s.pcs[j]? ≠ some (.asleep n))
      (fun s => (InLoop i s ∧ s.sh.waiting ≤ k) ∨ s.pcs[i]? = some .unsetRelease) := by
    intro k m hm
    by_cases h0 : (e.at_ m).sh.waiting = 0
    · exact ⟨m, Nat.le_refl m, Or.inl ⟨Or.inr hm.1, by rw [h0]; exact Nat.zero_le k⟩⟩
    · have hc := (hF m).count
      obtain ⟨j, x, hj, hx⟩ := exists_of_countP_pos PC.inWait (l := (e.at_ m).pcs)
        (Nat.pos_of_ne_zero (fun e => h0 (hc.trans e)))
      cases x with
      | asleep n => exact absurd hj (hm.2.2 j n)
      | ready n => exact loop_ready e hf hF i j n k m ⟨hj, Or.inr hm.1, hm.2.1⟩
      | _ => cases hx
  have main : ∀ k, e.LeadsTo (fun s => InLoop i s ∧ s.sh.waiting ≤ k)
      (fun s => s.pcs[i]? = some .unsetRelease) := by
    intro k
    induction k with
    | zero =>
      have h1 : e.LeadsTo (fun s => s.pcs[i]? = some .unsetExit ∧ s.sh.waiting ≤ 0)
          (fun s => s.pcs[i]? = some .unsetRelease) := by
        refine (exit_ 0).mono (fun _ h => h) ?_
        rintro s (⟨-, h1, h2⟩ | h)
        · omega
        · exact h
      have h2 : e.LeadsTo (fun s => s.pcs[i]? = some .unsetNotify ∧ s.sh.waiting ≤ 0)
          (fun s => s.pcs[i]? = some .unsetRelease) :=
        ((ntf 0).mono (fun _ h => h) (fun s h => ⟨h.1, h.2.1⟩)).trans h1
      refine (System.Execution.LeadsTo.or h2 h1).mono ?_ (fun _ h => h)
      rintro s ⟨h | h, hw⟩
      · exact Or.inl ⟨h, hw⟩
      · exact Or.inr ⟨h, hw⟩
    | succ k ih =>
      have h0 : e.LeadsTo (fun s => (InLoop i s ∧ s.sh.waiting ≤ k) ∨ s.pcs[i]? = some .unsetRelease)
          (fun s => s.pcs[i]? = some .unsetRelease) := .or ih (.refl e fun _ h => h)
      have h2 : e.LeadsTo (fun s => s.pcs[i]? = some .unsetNotify ∧ s.sh.waiting ≤ k + 1)
          (fun s => s.pcs[i]? = some .unsetRelease) := ((ntf (k + 1)).trans (round k)).trans h0
      have h1 : e.LeadsTo (fun s => s.pcs[i]? = some .unsetExit ∧ s.sh.waiting ≤ k + 1)
          (fun s => s.pcs[i]? = some .unsetRelease) := by
        refine (exit_ (k + 1)).trans ?_
        refine (System.Execution.LeadsTo.or h2 (.refl e fun _ h => h)).mono ?_ (fun _ h => h)
        rintro s (⟨h1, h2, -⟩ | h)
        · exact Or.inl ⟨h1, h2⟩
        · exact Or.inr h
      refine (System.Execution.LeadsTo.or h2 h1).mono ?_ (fun _ h => h)
      rintro s ⟨h | h, hw⟩
      · exact Or.inl ⟨h, hw⟩
      · exact Or.inr ⟨h, hw⟩
  intro m hm
  exact main _ m ⟨hm, Nat.le_refl _⟩

/-- `unset_callback` ends once it has `event_mutex_`. -/
theorem unset_ends (i : Nat) (x : PC C A) (h : x = .unsetTest ∨ x = .unsetInternal ∨ x = .unsetFlag ∨
      x = .unsetStore ∨ x = .unsetHook ∨ x = .unsetNotify ∨ x = .unsetExit ∨ x = .unsetRelease) :
    e.LeadsTo (fun s => s.pcs[i]? = some x) (fun s => s.pcs[i]? = some .unsetRelease) := by
  have lp := loop_ends e hf hF i
  have l1 : e.LeadsTo (fun s => s.pcs[i]? = some .unsetExit) (fun s => s.pcs[i]? = some .unsetRelease) :=
    lp.mono (fun _ h => Or.inr h) (fun _ h => h)
  have l2 : e.LeadsTo (fun s => s.pcs[i]? = some .unsetNotify) (fun s => s.pcs[i]? = some .unsetRelease) :=
    lp.mono (fun _ h => Or.inl h) (fun _ h => h)
  have l3 := (free_goto e hf hF i .unsetHook .unsetNotify (active rfl) (fun s => ⟨_, _, rfl⟩)).trans l2
  have l4 := (free_goto e hf hF i .unsetStore .unsetHook (active rfl) (fun s => ⟨_, _, rfl⟩)).trans l3
  have l5 := (free_goto e hf hF i .unsetFlag .unsetStore (active rfl) (fun s => ⟨_, _, rfl⟩)).trans l4
  have l6 := (internal_taken e hf hF i .unsetInternal .unsetFlag rfl (fun s => rfl)).trans l5
  have l7 : e.LeadsTo (fun s => s.pcs[i]? = some .unsetTest) (fun s => s.pcs[i]? = some .unsetRelease) := by
    refine (free_step e hf hF i .unsetTest (active rfl)
      (fun s => s.pcs[i]? = some .unsetInternal ∨ s.pcs[i]? = some .unsetRelease) ?_ ?_).trans
      (.or l6 (.refl e fun _ h => h))
    · intro s
      simp only [run]
      split <;> rfl
    · intro s s' _ _ hx hs
      obtain ⟨sh, z, b, hr, -, hz⟩ := Prog.stepped_run hs hx
      change run i s.sh .unsetTest = _ at hr
      simp only [run] at hr
      split at hr <;> cases hr
      · exact Or.inl hz
      · exact Or.inr hz
  rcases h with rfl | rfl | rfl | rfl | rfl | rfl | rfl | rfl
  · exact l7
  · exact l6
  · exact l5
  · exact l4
  · exact l3
  · exact l2
  · exact l1
  · exact .refl e fun _ h => h

/-- `set_callback` ends once it has `event_mutex_`. -/
theorem set_ends (i : Nat) (x : PC C A) (h : (∃ c, x = .setInternal c ∨ x = .setFlag c ∨ x = .setStore c) ∨
      x = .setHook) :
    e.LeadsTo (fun s => s.pcs[i]? = some x) (fun s => s.pcs[i]? = some .setHook) := by
  have l1 : ∀ c, e.LeadsTo (fun s => s.pcs[i]? = some (.setStore c)) (fun s => s.pcs[i]? = some .setHook) :=
    fun c => free_goto e hf hF i (.setStore c) .setHook (active rfl) (fun s => ⟨_, _, rfl⟩)
  have l2 : ∀ c, e.LeadsTo (fun s => s.pcs[i]? = some (.setFlag c)) (fun s => s.pcs[i]? = some .setHook) :=
    fun c => (free_goto e hf hF i (.setFlag c) (.setStore c) (active rfl) (fun s => ⟨_, _, rfl⟩)).trans (l1 c)
  rcases h with ⟨c, rfl | rfl | rfl⟩ | rfl
  · exact (internal_taken e hf hF i (.setInternal c) (.setFlag c) rfl (fun s => rfl)).trans (l2 c)
  · exact l2 c
  · exact l1 c
  · exact .refl e fun _ h => h

/-- `event_mutex_` is free again and again. -/
theorem event_free : e.LeadsTo (fun _ => True) (fun s => s.sh.event = none) := by
  intro n _
  cases hi : (e.at_ n).sh.event with
  | none => exact ⟨n, Nat.le_refl n, hi⟩
  | some k =>
    have hk := (hF n).mem.1 k hi
    have hg : (e.at_ n).pcs[k]? = some (e.at_ n).pcs[k] := List.getElem?_eq_getElem hk
    have hl := ((hF n).inv.loc k _ hg).loc.event.2 hi
    have last : ∀ y : PC C A, y.act = true → (∀ s : Sh C A, ∃ s' z b, run k s y = some (s', z, b) ∧
        s'.event = none) → e.LeadsTo (fun s => s.pcs[k]? = some y) (fun s => s.sh.event = none) := by
      intro y hy h
      refine free_step e hf hF k y (active hy) _ ?_ ?_
      · intro s
        obtain ⟨s', z, b, h, -⟩ := h s
        rw [h]
        rfl
      · intro s s' _ _ hx hs
        obtain ⟨sh, z, b, hr, e1, -⟩ := Prog.stepped_run hs hx
        obtain ⟨s1, z1, b1, h1, h2⟩ := h s.sh
        have := h1.symm.trans hr
        simp only [Option.some.injEq, Prod.mk.injEq] at this
        rw [e1, ← this.1]
        exact h2
    have r1 := last .unsetRelease rfl (fun s => ⟨_, _, _, rfl, rfl⟩)
    have r2 := last .setHook rfl (fun s => ⟨_, _, _, rfl, rfl⟩)
    generalize (e.at_ n).pcs[k] = x at hg hl
    cases x with
    | setInternal c => exact (set_ends e hf hF k _ (Or.inl ⟨c, Or.inl rfl⟩)).trans r2 n hg
    | setFlag c => exact (set_ends e hf hF k _ (Or.inl ⟨c, Or.inr (Or.inl rfl)⟩)).trans r2 n hg
    | setStore c => exact (set_ends e hf hF k _ (Or.inl ⟨c, Or.inr (Or.inr rfl)⟩)).trans r2 n hg
    | setHook => exact r2 n hg
    | unsetTest => exact (unset_ends e hf hF k _ (by simp)).trans r1 n hg
    | unsetInternal => exact (unset_ends e hf hF k _ (by simp)).trans r1 n hg
    | unsetFlag => exact (unset_ends e hf hF k _ (by simp)).trans r1 n hg
    | unsetStore => exact (unset_ends e hf hF k _ (by simp)).trans r1 n hg
    | unsetHook => exact (unset_ends e hf hF k _ (by simp)).trans r1 n hg
    | unsetNotify => exact (unset_ends e hf hF k _ (by simp)).trans r1 n hg
    | unsetExit => exact (unset_ends e hf hF k _ (by simp)).trans r1 n hg
    | unsetRelease => exact r1 n hg
    | _ => cases hl

/-- A thread that waits for `event_mutex_` gets it. -/
theorem event_taken (i : Nat) (x y : PC C A) (hx : x.act = true)
    (h : ∀ s : Sh C A, run i s x = if s.event.isSome then none else
      some ({ s with event := some i }, y, false)) :
    e.LeadsTo (fun s => s.pcs[i]? = some x) (fun s => s.pcs[i]? = some y) := by
  have key := Prog.runs e hf Full hF i x (active hx) (fun _ => True) (fun s => s.pcs[i]? = some y)
    (fun _ _ _ _ _ _ _ _ _ => Or.inl trivial) ?_ ?_
  · exact key.mono (fun s h => ⟨h, trivial⟩) (fun _ h => h)
  · intro n hn
    obtain ⟨m, hm, hfree⟩ := event_free e hf hF n trivial
    rcases e.until_ (fun s => s.pcs[i]? = some x ∧ Full s) (fun s => s.pcs[i]? = some y) (by
        intro s l s' hs hst
        have hst' := Prog.step_stepped hst
        have hfull := full_step hs.2 hst'
        by_cases hl : l = .run i
        · subst hl
          obtain ⟨sh, z, b, hr, -, hz⟩ := Prog.stepped_run hst' hs.1
          have hr' : run i s.sh x = some (sh, z, b) := hr
          rw [h] at hr'
          split at hr'
          · cases hr'
          · cases hr'; exact Or.inr hz
        · exact Or.inl ⟨Prog.frame_active hst' hs.1 (active hx) hl, hfull⟩) n ⟨hn.1, hF n⟩ m hm with hp | ⟨k, hk, hq⟩
    · refine ⟨m, hm, Or.inl ⟨hp.1, ?_⟩⟩
      show (run i (e.at_ m).sh x).isSome
      rw [h, hfree]
      rfl
    · exact ⟨k, hk, Or.inr hq⟩
  · intro s s' _ _ hx' _ hst
    obtain ⟨sh, z, b, hr, -, hz⟩ := Prog.stepped_run hst hx'
    have hr' : run i s.sh x = some (sh, z, b) := hr
    rw [h] at hr'
    split at hr'
    · cases hr'
    · cases hr'; exact hz

end Liveness

end Verif.EventHandler
