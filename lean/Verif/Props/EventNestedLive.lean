import Verif.Props.EventNested
/-!
C180, what holds: events return when callbacks raise events of their own handler and read or change its count, but do not
set, unset or wait.
-/
namespace Verif.EventNested
open Verif.Threads

variable {C A : Type}

/-- What callbacks do here: they raise events (with arguments that get smaller, so that the nesting ends), read the count,
reset it or decrement it. -/
def Quiet (μ : A → Nat) (k : Nat) : Op C A → Prop
  | .event a => μ a < k
  | .reset | .decrement | .eventCount => True
  | .setCallback _ | .unsetCallback | .wait _ => False

/-- Every callback does. -/
def AllQuiet (body : C → A → List (Op C A)) (μ : A → Nat) : Prop := ∀ c a, ∀ op ∈ body c a, Quiet μ (μ a) op

/-- A frame of a thread that is in a callback. -/
def Inner (μ : A → Nat) : Fr C A → Prop
  | .evIn rest => ∀ op ∈ rest, ∃ k, Quiet μ k op
  | .evInternal _ | .evTest _ | .evCount | .evNotify | .evRelease | .reset | .decrement | .readCount => True
  | _ => False

/-- Calls within a callback are events and changes of the count. -/
def Nest (μ : A → Nat) : List (Fr C A) → Prop
  | [] => True
  | [f] => ∀ rest, f = .evIn rest → ∀ op ∈ rest, ∃ k, Quiet μ k op
  | f :: g :: fs => Inner μ f ∧ (∃ rest, g = .evIn rest) ∧ Nest μ (g :: fs)

theorem nest_tail {μ : A → Nat} {f : Fr C A} {fs : List (Fr C A)} (h : Nest μ (f :: fs)) : Nest μ fs := by
  cases fs with
  | nil => trivial
  | cons g gs => exact h.2.2

/-- Replacing the innermost call. -/
theorem nest_swap {μ : A → Nat} {f g : Fr C A} {fs : List (Fr C A)} (h : Nest μ (f :: fs))
    (h1 : Inner μ f → Inner μ g) (h2 : ∀ rest, g = .evIn rest → ∀ op ∈ rest, ∃ k, Quiet μ k op) : Nest μ (g :: fs) := by
  cases fs with
  | nil => exact h2
  | cons e es => exact ⟨h1 h.1, h.2.1, h.2.2⟩

theorem nest_next {body : C → A → List (Op C A)} {μ : A → Nat} (hb : AllQuiet body μ) {i : Nat} {s s' : Sh C}
    {f : Fr C A} {fs ys : List (Fr C A)} {b : Bool} (h : Nest μ (f :: fs)) (hn : next body i s f = some (s', ys, b)) :
    Nest μ (ys ++ fs) := by
  have pop : ys = [] → Nest μ (ys ++ fs) := fun e => by rw [e]; exact nest_tail h
  have swap : ∀ g, ys = [g] → (Inner μ f → Inner μ g) → (∀ rest, g = .evIn rest → ∀ op ∈ rest, ∃ k, Quiet μ k op) →
      Nest μ (ys ++ fs) := fun g e h1 h2 => by rw [e]; exact nest_swap h h1 h2
  cases f with
  | asleep n => cases hn
  | waitTest n => cases hn; split <;> exact nest_swap h (by simp [Inner]) nofun
  | waitLock n => simp only [next] at hn; split at hn <;> (cases hn; exact swap _ rfl (by simp [Inner]) nofun)
  | ready n => simp only [next] at hn; split at hn <;> (cases hn; exact swap _ rfl (by simp [Inner]) nofun)
  | waitRet n => cases hn; exact pop rfl
  | setEvent c =>
    simp only [next, Option.map_eq_some_iff] at hn
    obtain ⟨m, -, hn⟩ := hn
    cases hn; exact swap _ rfl (by simp [Inner]) nofun
  | setInternal c =>
    simp only [next, Option.map_eq_some_iff] at hn
    obtain ⟨m, -, hn⟩ := hn
    cases hn; exact swap _ rfl (by simp [Inner]) nofun
  | setFlag c => cases hn; exact swap _ rfl (by simp [Inner]) nofun
  | setStore c => cases hn; exact swap _ rfl (by simp [Inner]) nofun
  | setHook => cases hn; exact pop rfl
  | unsetEvent =>
    simp only [next, Option.map_eq_some_iff] at hn
    obtain ⟨m, -, hn⟩ := hn
    cases hn; exact swap _ rfl (by simp [Inner]) nofun
  | unsetTest => cases hn; split <;> exact nest_swap h (by simp [Inner]) nofun
  | unsetInternal =>
    simp only [next, Option.map_eq_some_iff] at hn
    obtain ⟨m, -, hn⟩ := hn
    cases hn; exact swap _ rfl (by simp [Inner]) nofun
  | unsetFlag => cases hn; exact swap _ rfl (by simp [Inner]) nofun
  | unsetStore => cases hn; exact swap _ rfl (by simp [Inner]) nofun
  | unsetNotify => cases hn; exact swap _ rfl (by simp [Inner]) nofun
  | unsetExit => cases hn; split <;> exact nest_swap h (by simp [Inner]) nofun
  | unsetRelease => cases hn; exact pop rfl
  | evInternal a =>
    simp only [next, Option.map_eq_some_iff] at hn
    obtain ⟨m, -, hn⟩ := hn
    cases hn; exact swap _ rfl (by simp [Inner]) nofun
  | evTest a =>
    have hq : ∀ op ∈ calls body s a, ∃ k, Quiet μ k op := by
      intro op hop
      unfold calls at hop
      split at hop
      · exact ⟨_, hb _ a op hop⟩
      · cases hop
    cases hn
    split
    · exact nest_swap (g := .evIn (calls body s a)) h (fun _ => hq) (fun rest e => by cases e; exact hq)
    · exact nest_swap h (by simp [Inner]) nofun
  | evIn rest =>
    cases rest with
    | nil => cases hn; exact swap _ rfl (by simp [Inner]) nofun
    | cons op rest =>
      cases hn
      have hrest : ∀ o ∈ op :: rest, ∃ k, Quiet μ k o := by
        cases fs with
        | nil => exact h _ rfl
        | cons g gs => exact h.1
      have h1 : Nest μ (.evIn rest :: fs) :=
        nest_swap h (fun _ o ho => hrest o (List.mem_cons_of_mem _ ho))
          (fun r e => by cases e; exact fun o ho => hrest o (List.mem_cons_of_mem _ ho))
      refine ⟨?_, ⟨rest, rfl⟩, h1⟩
      obtain ⟨k, hk⟩ := hrest op List.mem_cons_self
      cases op <;> first | exact hk.elim | trivial
  | evCount => cases hn; exact swap _ rfl (by simp [Inner]) nofun
  | evNotify => cases hn; exact swap _ rfl (by simp [Inner]) nofun
  | evRelease => cases hn; exact pop rfl
  | reset => cases hn; exact pop rfl
  | decrement => cases hn; exact pop rfl
  | readCount => cases hn; exact pop rfl

theorem nest_local {body : C → A → List (Op C A)} {μ : A → Nat} (hb : AllQuiet body μ) :
    (prog body).Local (fun _ => True) (fun _ => True) (fun _ _ x => Nest μ x) where
  start := by
    intro sh i x op y _ _ _ hs
    cases x with
    | nil =>
      cases hs
      intro rest e
      cases op <;> cases e
    | cons f fs => cases hs
  shared := fun _ _ _ _ _ _ _ _ _ => trivial
  run := by
    intro sh i x sh' y b _ hl hr
    obtain ⟨f, fs, ys, rfl, hn, rfl⟩ := run_next hr
    exact nest_next hb hl hn
  other := fun _ _ _ _ _ _ _ _ _ _ _ _ h => h
  woken := by
    intro sh i x y hl hw
    change woken x = some y at hw
    unfold woken at hw
    split at hw
    · cases hw; exact nest_swap hl (by simp [Inner]) nofun
    · cases hw
  late := nofun

/-- What holds in every state that can be reached. -/
structure Good (body : C → A → List (Op C A)) (μ : A → Nat) (s : Conf (prog body)) : Prop where
  held : ∀ (j : Nat) (x : List (Fr C A)), s.pcs[j]? = some x → locked s.sh.internal j = depth x
  nest : ∀ (j : Nat) (x : List (Fr C A)), s.pcs[j]? = some x → Nest μ x
  owner : ∀ j d, s.sh.internal = some (j, d) → 1 ≤ d ∧ ∃ x, s.pcs[j]? = some x

theorem take_owner {i j d : Nat} {m : Option (Nat × Nat)} (h : take i m = some (some (j, d))) : j = i ∧ 1 ≤ d := by
  unfold take at h
  split at h
  · cases h; exact ⟨rfl, Nat.le_refl _⟩
  · split at h
    · cases h; exact ⟨rfl, Nat.succ_pos _⟩
    · cases h

theorem take_some {i : Nat} {m m' : Option (Nat × Nat)} (h : take i m = some m') : ∃ d, m' = some (i, d) := by
  unfold take at h
  split at h
  · cases h; exact ⟨_, rfl⟩
  · split at h
    · cases h; exact ⟨_, rfl⟩
    · cases h

/-- The owner after a step is the thread, or the owner before. -/
theorem next_owner {body : C → A → List (Op C A)} {i : Nat} {s s' : Sh C} {f : Fr C A} {ys : List (Fr C A)} {b : Bool}
    (h : next body i s f = some (s', ys, b)) {j d : Nat} (hj : s'.internal = some (j, d)) :
    1 ≤ d ∧ j = i ∨ (∃ d', s.internal = some (j, d') ∧ (1 ≤ d' → 1 ≤ d)) := by
  have same : s'.internal = s.internal → 1 ≤ d ∧ j = i ∨ (∃ d', s.internal = some (j, d') ∧ (1 ≤ d' → 1 ≤ d)) :=
    fun e => .inr ⟨d, by rw [← e]; exact hj, id⟩
  have tak : take i s.internal = some s'.internal →
      1 ≤ d ∧ j = i ∨ (∃ d', s.internal = some (j, d') ∧ (1 ≤ d' → 1 ≤ d)) := by
    intro e
    rw [hj] at e
    have := take_owner e
    exact .inl ⟨this.2, this.1⟩
  have rel : s'.internal = release s.internal →
      1 ≤ d ∧ j = i ∨ (∃ d', s.internal = some (j, d') ∧ (1 ≤ d' → 1 ≤ d)) := by
    intro e
    rw [hj] at e
    unfold release at e
    split at e
    · rename_i k d' e'
      split at e
      · cases e
      · injection e with e
        injection e with e1 e2
        subst e1
        exact .inr ⟨d', e', fun _ => by omega⟩
    · cases e
  cases f with
  | asleep n => cases h
  | waitTest n => cases h; exact same rfl
  | waitLock n => simp only [next] at h; split at h <;> (cases h; exact same rfl)
  | ready n => simp only [next] at h; split at h <;> (cases h; exact same rfl)
  | setEvent c =>
    simp only [next, Option.map_eq_some_iff] at h
    obtain ⟨m, -, h⟩ := h
    cases h; exact same rfl
  | setInternal c =>
    simp only [next, Option.map_eq_some_iff] at h
    obtain ⟨m, hm, h⟩ := h
    cases h; exact tak hm
  | unsetEvent =>
    simp only [next, Option.map_eq_some_iff] at h
    obtain ⟨m, -, h⟩ := h
    cases h; exact same rfl
  | unsetInternal =>
    simp only [next, Option.map_eq_some_iff] at h
    obtain ⟨m, hm, h⟩ := h
    cases h; exact tak hm
  | evInternal a =>
    simp only [next, Option.map_eq_some_iff] at h
    obtain ⟨m, hm, h⟩ := h
    cases h; exact tak hm
  | setStore c => cases h; exact rel rfl
  | unsetStore => cases h; exact rel rfl
  | evRelease => cases h; exact rel rfl
  | evIn rest => cases rest <;> (cases h; exact same rfl)
  | _ => cases h; exact same rfl

theorem good_reachable {body : C → A → List (Op C A)} {μ : A → Nat} (hb : AllQuiet body μ) {n : Nat}
    {s : Conf (prog body)} (hr : (prog body).system.Reachable (init body n) s) : Good body μ s := by
  have hnest : ∀ (j : Nat) (x : List (Fr C A)), s.pcs[j]? = some x → Nest μ x := by
    have h0 : (prog body).Inv (fun _ => True) (fun _ _ x => Nest μ x) (init body n) := by
      refine ⟨trivial, fun j x hx => ?_⟩
      have := Prog.init_get hx
      subst this
      trivial
    exact ((nest_local hb).reachable h0 hr).loc
  refine ⟨fun j x hx => held hr hx, hnest, ?_⟩
  refine System.Reachable.invariant (S := (prog body).system)
    (fun s => ∀ j d, s.sh.internal = some (j, d) → 1 ≤ d ∧ ∃ x, s.pcs[j]? = some x) (by intro j d h; cases h) ?_ hr
  intro s l s' ih hst j d hj
  have hst := Prog.step_stepped hst
  have hlen := Prog.stepped_length hst
  have ex : (∃ x, s.pcs[j]? = some x) → ∃ x, s'.pcs[j]? = some x := by
    rintro ⟨x, hx⟩
    have : j < s.pcs.length := (List.getElem?_eq_some_iff.1 hx).1
    exact ⟨_, List.getElem?_eq_getElem (by omega)⟩
  rcases Prog.stepped_sh hst with e | ⟨i, x, y, b, -, hx, hy⟩
  · rw [e] at hj
    exact ⟨(ih j d hj).1, ex (ih j d hj).2⟩
  · change run body i s.sh x = some (s'.sh, y, b) at hy
    obtain ⟨f, fs, ys, rfl, hn, -⟩ := run_next hy
    rcases next_owner hn hj with ⟨h1, rfl⟩ | ⟨d', h1, h2⟩
    · exact ⟨h1, ex ⟨_, hx⟩⟩
    · exact ⟨h2 (ih j d' h1).1, ex (ih j d' h1).2⟩

/-! ### Liveness -/

theorem active (body : C → A → List (Op C A)) {f : Fr C A} (fs : List (Fr C A)) (h : ∀ n, f ≠ .asleep n) :
    (prog body).Active (f :: fs) := by
  refine ⟨fun _ => rfl, ?_, rfl⟩
  change woken (f :: fs) = none
  unfold woken
  split
  · rename_i e; cases e; exact absurd rfl (h _)
  · rfl

section
variable {body : C → A → List (Op C A)} {μ : A → Nat} (e : (prog body).system.Execution) (hf : e.Fair)
  (hG : ∀ n, Good body μ (e.at_ n)) (i : Nat)
include hf hG

/-- A step that does not depend on the state. -/
theorem go {f : Fr C A} {fs ys : List (Fr C A)} (ha : ∀ n, f ≠ .asleep n)
    (h : ∀ s : Conf (prog body), Good body μ s → s.pcs[i]? = some (f :: fs) →
      ∃ s' b, next body i s.sh f = some (s', ys, b)) :
    e.LeadsTo (fun s => s.pcs[i]? = some (f :: fs)) (fun s => s.pcs[i]? = some (ys ++ fs)) := by
  refine Prog.goto e hf (Good body μ) hG i (f :: fs) (ys ++ fs) (active body fs ha) ?_
  intro s hs hx
  obtain ⟨s', b, h⟩ := h s hs hx
  exact ⟨s', b, by change run body i s.sh (f :: fs) = _; simp [run, h]⟩

/-- After the callback. -/
theorem from_count (fs : List (Fr C A)) :
    e.LeadsTo (fun s => s.pcs[i]? = some (.evCount :: fs)) (fun s => s.pcs[i]? = some (.evRelease :: fs)) :=
  (go e hf hG i (ys := [.evNotify]) (by intro _ h; cases h) fun s _ _ => ⟨_, _, rfl⟩).trans
    (go e hf hG i (ys := [.evRelease]) (by intro _ h; cases h) fun s _ _ => ⟨_, _, rfl⟩)

/-- What is left to do in the callback, if each of it returns. -/
theorem from_in (fs : List (Fr C A)) (rest : List (Op C A))
    (hrest : ∀ op ∈ rest, ∀ gs : List (Fr C A), 1 ≤ depth gs →
      e.LeadsTo (fun s => s.pcs[i]? = some (enter op :: gs)) (fun s => s.pcs[i]? = some gs)) :
    e.LeadsTo (fun s => s.pcs[i]? = some (.evIn rest :: fs)) (fun s => s.pcs[i]? = some (.evRelease :: fs)) := by
  induction rest with
  | nil => exact (go e hf hG i (ys := [.evCount]) (by intro _ h; cases h) fun s _ _ => ⟨_, _, rfl⟩).trans (from_count e hf hG i fs)
  | cons op rest ih =>
    refine (go e hf hG i (ys := [enter op, .evIn rest]) (by intro _ h; cases h) fun s _ _ => ⟨_, _, rfl⟩).trans ?_
    refine (hrest op List.mem_cons_self (.evIn rest :: fs) (by simp only [depth, Fr.holds]; omega)).trans ?_
    exact ih fun o ho => hrest o (List.mem_cons_of_mem _ ho)

/-- An event whose callback does things that return. -/
theorem from_test (hb : AllQuiet body μ) (a : A) (fs : List (Fr C A))
    (hrest : ∀ op : Op C A, Quiet μ (μ a) op → ∀ gs : List (Fr C A), 1 ≤ depth gs →
      e.LeadsTo (fun s => s.pcs[i]? = some (enter op :: gs)) (fun s => s.pcs[i]? = some gs)) :
    e.LeadsTo (fun s => s.pcs[i]? = some (.evTest a :: fs)) (fun s => s.pcs[i]? = some (.evRelease :: fs)) := by
  have h1 : e.LeadsTo (fun s => s.pcs[i]? = some (.evTest a :: fs))
      (fun s => s.pcs[i]? = some (.evNotify :: fs) ∨
        ∃ rest, (∀ op ∈ rest, Quiet μ (μ a) op) ∧ s.pcs[i]? = some (.evIn rest :: fs)) := by
    refine Prog.free_step e hf (Good body μ) hG i _ (active body fs (by intro _ h; cases h)) _ (fun s _ _ => rfl) ?_
    intro s s' _ _ hx hst
    obtain ⟨sh, y, b, hy, -, hz⟩ := Prog.stepped_run hst hx
    change run body i s.sh (.evTest a :: fs) = some (sh, y, b) at hy
    simp only [run, next, Option.map_some] at hy
    injection hy with hy
    injection hy with _ hy
    injection hy with hy _
    rw [hz, ← hy]
    by_cases hset : s.sh.set = true
    · refine .inr ⟨calls body s.sh a, ?_, by simp [hset]⟩
      intro op hop
      unfold calls at hop
      split at hop
      · exact hb _ a op hop
      · cases hop
    · exact .inl (by simp [hset])
  intro n hn
  obtain ⟨m, hm, h⟩ := h1 n hn
  rcases h with h | ⟨rest, hq, h⟩
  · obtain ⟨k, hk, h⟩ := go e hf hG i (fs := fs) (ys := [.evRelease]) (by intro _ h; cases h) (fun s _ _ => ⟨_, _, rfl⟩) m h
    exact ⟨k, Nat.le_trans hm hk, h⟩
  · obtain ⟨k, hk, h⟩ := from_in e hf hG i fs rest (fun op hop => hrest op (hq op hop)) m h
    exact ⟨k, Nat.le_trans hm hk, h⟩

/-- The thread holds the mutex already. -/
theorem retake (a : A) (fs : List (Fr C A)) (hd : 1 ≤ depth fs) :
    e.LeadsTo (fun s => s.pcs[i]? = some (.evInternal a :: fs)) (fun s => s.pcs[i]? = some (.evTest a :: fs)) := by
  refine go e hf hG i (ys := [.evTest a]) (by intro _ h; cases h) ?_
  intro s hs hx
  have hl := hs.held i _ hx
  simp only [depth, Fr.holds] at hl
  have : ∃ m, take i s.sh.internal = some m := by
    unfold locked at hl
    split at hl
    · split at hl
      · rename_i e1 e2
        rw [e1]
        exact ⟨_, by simp [take, e2]; rfl⟩
      · omega
    · omega
  obtain ⟨m, hm⟩ := this
  exact ⟨_, _, by simp [next, hm]; exact ⟨rfl, rfl⟩⟩

/-- What a callback does here returns. -/
theorem quiet_returns (hb : AllQuiet body μ) (k : Nat) : ∀ op : Op C A, Quiet μ k op → ∀ gs : List (Fr C A), 1 ≤ depth gs →
    e.LeadsTo (fun s => s.pcs[i]? = some (enter op :: gs)) (fun s => s.pcs[i]? = some gs) := by
  induction k using Nat.strongRecOn with
  | ind k ih =>
    intro op hop gs hd
    cases op with
    | setCallback c => exact hop.elim
    | unsetCallback => exact hop.elim
    | wait n => exact hop.elim
    | reset => exact go e hf hG i (f := .reset) (ys := []) (by intro _ h; cases h) fun s _ _ => ⟨_, _, rfl⟩
    | decrement => exact go e hf hG i (f := .decrement) (ys := []) (by intro _ h; cases h) fun s _ _ => ⟨_, _, rfl⟩
    | eventCount => exact go e hf hG i (f := .readCount) (ys := []) (by intro _ h; cases h) fun s _ _ => ⟨_, _, rfl⟩
    | event a =>
      refine (retake e hf hG i a gs hd).trans ?_
      refine (from_test e hf hG i hb a gs (ih (μ a) hop)).trans ?_
      exact go e hf hG i (ys := []) (by intro _ h; cases h) fun s _ _ => ⟨_, _, rfl⟩

/-- A thread in a callback comes to the end of its outermost event. -/
theorem to_release (hb : AllQuiet body μ) (fs : List (Fr C A)) (rest : List (Op C A)) (hn : Nest μ (.evIn rest :: fs)) :
    ∀ gs, .evIn rest :: fs = gs → e.LeadsTo (fun s => s.pcs[i]? = some gs) (fun s => s.pcs[i]? = some [.evRelease]) := by
  induction fs generalizing rest with
  | nil =>
    rintro gs rfl
    refine from_in e hf hG i [] rest ?_
    intro op hop
    obtain ⟨k, hk⟩ := hn _ rfl op hop
    exact quiet_returns e hf hG i hb k op hk
  | cons g fs ih =>
    rintro gs rfl
    obtain ⟨h1, ⟨rest', rfl⟩, h3⟩ := hn
    refine (from_in e hf hG i _ rest ?_).trans ?_
    · intro op hop
      obtain ⟨k, hk⟩ := h1 op hop
      exact quiet_returns e hf hG i hb k op hk
    · refine (go e hf hG i (ys := []) (by intro _ h; cases h) fun s _ _ => ⟨_, _, rfl⟩).trans ?_
      exact ih rest' h3 _ rfl

/-- The last release. -/
theorem free_after {f : Fr C A} (hh : f.holds = 1) (ha : ∀ n, f ≠ .asleep n)
    (h : ∀ s : Sh C, ∃ s' ys b, next body i s f = some (s', ys, b) ∧ s'.internal = release s.internal) :
    e.LeadsTo (fun s => s.pcs[i]? = some [f]) (fun s => s.sh.internal = none) := by
  refine Prog.free_step e hf (Good body μ) hG i _ (active body [] ha) _ ?_ ?_
  · intro s _ _
    obtain ⟨s', ys, b, h, -⟩ := h s.sh
    change (run body i s.sh [f]).isSome
    simp [run, h]
  · intro s s' hs _ hx hst
    obtain ⟨sh, y, b, hy, hz, -⟩ := Prog.stepped_run hst hx
    obtain ⟨s1, ys, b1, h, h2⟩ := h s.sh
    change run body i s.sh [f] = some (sh, y, b) at hy
    simp only [run, h, Option.map_some] at hy
    injection hy with hy
    injection hy with hy _
    rw [hz, ← hy, h2]
    have hl := hs.held i _ hx
    simp only [depth, hh] at hl
    unfold locked at hl
    split at hl
    · split at hl
      · rename_i e1 _
        rw [e1]
        simp only [release]
        rw [if_pos (by omega)]
      · omega
    · omega

end

section
variable {body : C → A → List (Op C A)} {μ : A → Nat} (e : (prog body).system.Execution) (hf : e.Fair)
  (hG : ∀ n, Good body μ (e.at_ n))
include hf hG

/-- `internal_callback_mutex_` becomes free. -/
theorem freed (hb : AllQuiet body μ) : e.LeadsTo (fun s => ¬ s.sh.internal = none) (fun s => s.sh.internal = none) := by
  intro n hn
  cases hm : (e.at_ n).sh.internal with
  | none => exact absurd hm hn
  | some p =>
    obtain ⟨j, d⟩ := p
    obtain ⟨hd, x, hx⟩ := (hG n).owner j d hm
    have hl := (hG n).held j x hx
    rw [hm] at hl
    simp only [locked, if_true] at hl
    have hne := (hG n).nest j x hx
    have release_free : e.LeadsTo (fun s => s.pcs[j]? = some [.evRelease]) (fun s => s.sh.internal = none) :=
      free_after e hf hG j rfl (by intro _ h; cases h) fun s => ⟨_, _, _, rfl, rfl⟩
    cases x with
    | nil => simp only [depth] at hl; omega
    | cons f fs =>
      cases fs with
      | nil =>
        simp only [depth] at hl
        cases f with
        | setFlag c =>
          exact ((go e hf hG j (ys := [.setStore c]) (by intro _ h; cases h) fun s _ _ => ⟨_, _, rfl⟩).trans
            (free_after e hf hG j rfl (by intro _ h; cases h) fun s => ⟨_, _, _, rfl, rfl⟩)) n hx
        | setStore c => exact free_after e hf hG j (f := .setStore c) rfl (by intro _ h; cases h) (fun s => ⟨_, _, _, rfl, rfl⟩) n hx
        | unsetFlag =>
          exact ((go e hf hG j (ys := [.unsetStore]) (by intro _ h; cases h) fun s _ _ => ⟨_, _, rfl⟩).trans
            (free_after e hf hG j rfl (by intro _ h; cases h) fun s => ⟨_, _, _, rfl, rfl⟩)) n hx
        | unsetStore => exact free_after e hf hG j (f := .unsetStore) rfl (by intro _ h; cases h) (fun s => ⟨_, _, _, rfl, rfl⟩) n hx
        | evTest a =>
          exact ((from_test e hf hG j hb a [] (quiet_returns e hf hG j hb (μ a))).trans release_free) n hx
        | evIn rest => exact ((to_release e hf hG j hb [] rest hne _ rfl).trans release_free) n hx
        | evCount => exact ((from_count e hf hG j []).trans release_free) n hx
        | evNotify =>
          exact ((go e hf hG j (ys := [.evRelease]) (by intro _ h; cases h) fun s _ _ => ⟨_, _, rfl⟩).trans release_free) n hx
        | evRelease => exact release_free n hx
        | _ => simp only [Fr.holds] at hl; omega
      | cons g gs =>
        obtain ⟨h1, ⟨rest, rfl⟩, h3⟩ := hne
        have hd' : 1 ≤ depth (Fr.evIn rest :: gs) := by simp only [depth, Fr.holds]; omega
        have rest_free := (to_release e hf hG j hb gs rest h3 _ rfl).trans release_free
        have pop : e.LeadsTo (fun s => s.pcs[j]? = some (.evRelease :: .evIn rest :: gs))
            (fun s => s.pcs[j]? = some (.evIn rest :: gs)) :=
          go e hf hG j (ys := []) (by intro _ h; cases h) fun s _ _ => ⟨_, _, rfl⟩
        cases f with
        | evInternal a =>
          exact (((retake e hf hG j a _ hd').trans (from_test e hf hG j hb a _ (quiet_returns e hf hG j hb (μ a)))).trans
            (pop.trans rest_free)) n hx
        | evTest a =>
          exact ((from_test e hf hG j hb a _ (quiet_returns e hf hG j hb (μ a))).trans (pop.trans rest_free)) n hx
        | evIn r =>
          exact ((from_in e hf hG j _ r (fun op hop => by
            obtain ⟨k, hk⟩ := h1 op hop
            exact quiet_returns e hf hG j hb k op hk)).trans (pop.trans rest_free)) n hx
        | evCount => exact ((from_count e hf hG j _).trans (pop.trans rest_free)) n hx
        | evNotify =>
          exact ((go e hf hG j (ys := [.evRelease]) (by intro _ h; cases h) fun s _ _ => ⟨_, _, rfl⟩).trans (pop.trans rest_free)) n hx
        | evRelease => exact (pop.trans rest_free) n hx
        | reset => exact ((go e hf hG j (ys := []) (by intro _ h; cases h) fun s _ _ => ⟨_, _, rfl⟩).trans rest_free) n hx
        | decrement => exact ((go e hf hG j (ys := []) (by intro _ h; cases h) fun s _ _ => ⟨_, _, rfl⟩).trans rest_free) n hx
        | readCount => exact ((go e hf hG j (ys := []) (by intro _ h; cases h) fun s _ _ => ⟨_, _, rfl⟩).trans rest_free) n hx
        | _ => exact h1.elim

end

/-- C180, as far as it holds: if callbacks raise events of their own handler (with arguments that get smaller by some
measure, so that the nesting ends), read its count, reset it or decrement it, but do not set, unset or wait, then every
event that a client raises is over in the end, with all events within, whatever the other threads do, which may set, unset
and wait at any time.  Missing: callbacks that wait or that set or unset, see the negations. -/
theorem C180_events_return_partial (body : C → A → List (Op C A)) (μ : A → Nat)
    (hb : ∀ c a, ∀ op ∈ body c a,
      (∃ a', op = .event a' ∧ μ a' < μ a) ∨ op = .reset ∨ op = .decrement ∨ op = .eventCount)
    (n : Nat) (e : (prog body).system.Execution) (hf : e.Fair)
    (h0 : (prog body).system.Reachable (init body n) (e.at_ 0)) (i : Nat) (a : A) :
    e.LeadsTo (fun s => s.pcs[i]? = some [enter (.event a)]) (fun s => s.pcs[i]? = some []) := by
  have hb' : AllQuiet body μ := by
    intro c a op hop
    rcases hb c a op hop with ⟨a', rfl, h⟩ | rfl | rfl | rfl
    · exact h
    · trivial
    · trivial
    · trivial
  have hG : ∀ k, Good body μ (e.at_ k) := fun k => good_reachable hb' (e.reachable h0 k)
  have h1 : e.LeadsTo (fun s => s.pcs[i]? = some [.evInternal a]) (fun s => s.pcs[i]? = some [.evTest a]) := by
    refine Prog.acquire e hf (Good body μ) hG i [.evInternal a] (active body [] (by intro _ h; cases h)) (fun _ => True)
      (fun sh => sh.internal = none) _ (fun _ _ _ => trivial) ?_ ?_ ?_
    · exact (freed e hf hG hb').mono (fun s h => h.2) (fun _ h => h)
    · intro s _ _ hfree
      change (run body i s.sh [.evInternal a]).isSome
      change s.sh.internal = none at hfree
      simp [run, next, hfree, take]
    · intro s s' _ _ hx hst
      obtain ⟨sh, y, b, hy, -, hz⟩ := Prog.stepped_run hst hx
      change run body i s.sh [.evInternal a] = some (sh, y, b) at hy
      simp only [run, next, Option.map_map, Option.map_eq_some_iff] at hy
      obtain ⟨m, -, hy⟩ := hy
      injection hy with _ hy
      injection hy with hy _
      rw [hz, ← hy]
      rfl
  exact (h1.trans (from_test e hf hG i hb' a [] (quiet_returns e hf hG i hb' (μ a)))).trans
    (go e hf hG i (ys := []) (by intro _ h; cases h) fun s _ _ => ⟨_, _, rfl⟩)

/-- A callback that raises the event with each smaller number, and reads the count. -/
example : ∀ (_ : Unit) (a : Nat), ∀ op ∈ (match a with
      | 0 => [.eventCount]
      | a + 1 => [.event a, .eventCount] : List (Op Unit Nat)),
    (∃ a', op = .event a' ∧ a' < a) ∨ op = .reset ∨ op = .decrement ∨ op = .eventCount := by
  intro _ a op h
  cases a with
  | zero => exact .inr (.inr (.inr (List.mem_singleton.1 h)))
  | succ a =>
    rcases List.mem_cons.1 h with rfl | h
    · exact .inl ⟨a, rfl, Nat.lt_succ_self a⟩
    · exact .inr (.inr (.inr (List.mem_singleton.1 h)))

end Verif.EventNested
