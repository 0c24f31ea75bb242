import Verif.Lemmas.WaitHandlerLive
/-!
Sleeping threads of the `WaitHandler` program: none is forgotten.
-/
namespace Verif.WaitHandler
open Verif.Threads

variable {T : Type}

/-- A notification is about to be sent. -/
def PC.pending : PC T → Bool
  | .setNotify | .disableNotify _ => true
  | _ => false

/-- The calls in progress are allowed ones. -/
def PC.ok (A : Op T → Prop) : PC T → Prop
  | .enter p t | .asleep p t | .ready p t _ | .leaving p t _ => A (.wait p t)
  | .set f false => ∃ v, A (.setValue v false) ∧ f = fun _ => v
  | _ => True

structure SInv (A : Op T → Prop) (s : State T) : Prop where
  ok : ∀ (j : Nat) (pc : PC T), s.pcs[j]? = some pc → pc.ok A
  sleep : ∀ (j : Nat) (p : T → Bool) (t : Bool), s.pcs[j]? = some (.asleep p t) →
    (s.enabled = true ∧ p s.value = false) ∨
      ∃ (k : Nat) (pc : PC T), s.pcs[k]? = some pc ∧ pc.pending = true

theorem sinv_init (A : Op T → Prop) (v : T) (b : Bool) (n : Nat) : SInv A (init v b n) := by
  have h : ∀ (j : Nat) (pc : PC T), (init v b n).pcs[j]? = some pc → pc = .idle none := fun j pc h =>
    (List.mem_replicate.1 (List.mem_of_getElem? h)).2
  constructor
  · intro j pc hj
    rw [h j pc hj]
    trivial
  · intro j p t hj
    have := h j _ hj
    cases this

theorem sinv_goto {A : Op T → Prop} {s s' : State T} {i : Nat} {x y : PC T} (h : SInv A s)
    (hx : s.pcs[i]? = some x) (hp : s'.pcs = s.pcs.set i y) (hok : y.ok A)
    (hpend : x.pending = true → y.pending = true)
    (hy : ∀ p t, y = .asleep p t → s'.enabled = true ∧ p s'.value = false)
    (hv : ∀ p t, A (.wait p t) → s.enabled = true → p s.value = false →
      (s'.enabled = true ∧ p s'.value = false) ∨ y.pending = true) : SInv A s' := by
  have hyi : s'.pcs[i]? = some y := by rw [hp]; exact get_set_self hx
  constructor
  · intro j pc hj
    rw [hp] at hj
    rcases set_get hj with ⟨rfl, rfl, _⟩ | ⟨hne, hj⟩
    · exact hok
    · exact h.ok j pc hj
  · intro j p t hj
    rw [hp] at hj
    rcases set_get hj with ⟨rfl, e, _⟩ | ⟨hne, hj⟩
    · exact Or.inl (hy p t e.symm)
    · rcases h.sleep j p t hj with ⟨h1, h2⟩ | ⟨k, pc, hk, hpc⟩
      · rcases hv p t (h.ok j _ hj) h1 h2 with h | h
        · exact Or.inl h
        · exact Or.inr ⟨i, y, hyi, h⟩
      · by_cases hki : k = i
        · subst hki
          rw [hx] at hk
          cases hk
          exact Or.inr ⟨k, y, hyi, hpend hpc⟩
        · exact Or.inr ⟨k, pc, by rw [hp, get_set_ne hki]; exact hk, hpc⟩

theorem ok_wake {A : Op T → Prop} {pc : PC T} (h : pc.ok A) : (wake pc).ok A := by
  cases pc <;> exact h

theorem sinv_notify {A : Op T → Prop} {s : State T} {i : Nat} {y : PC T} (h : SInv A s)
    (hok : y.ok A) (hy : ∀ p t, y ≠ .asleep p t) : SInv A (goto (notifyAll s) i y) := by
  constructor
  · intro j pc hj
    rcases set_get hj with ⟨rfl, rfl, _⟩ | ⟨hne, hj⟩
    · exact hok
    · obtain ⟨a, ha, rfl⟩ := map_get hj
      exact ok_wake (h.ok j a ha)
  · intro j p t hj
    exfalso
    rcases set_get hj with ⟨rfl, e, _⟩ | ⟨hne, hj⟩
    · exact hy p t e.symm
    · obtain ⟨a, ha, e⟩ := map_get hj
      cases a <;> cases e

theorem sinv_run {A : Op T → Prop}
    (hA : ∀ p t v, A (.wait p t) → A (.setValue v false) → p v = false)
    {s s' : State T} {i : Nat} (h : SInv A s) (hs : run s i = some s') : SInv A s' := by
  unfold run at hs
  cases hx : s.pcs[i]? with
  | none => rw [hx] at hs; cases hs
  | some x =>
    rw [hx] at hs
    have hok := h.ok i x hx
    have same : ∀ (p : T → Bool) (t : Bool) (y : PC T), A (.wait p t) → s.enabled = true →
        p s.value = false → (s.enabled = true ∧ p s.value = false) ∨ y.pending = true :=
      fun p t y _ h1 h2 => Or.inl ⟨h1, h2⟩
    cases x with
    | idle r => cases hs
    | asleep p t => cases hs
    | enter p t =>
      simp only at hs
      split at hs
      · cases hs
      · split at hs
        · cases hs
          exact sinv_goto h hx rfl hok (fun c => by cases c) (fun _ _ c => by cases c)
            (fun p t => same p t _)
        · rename_i he
          split at hs
          · cases hs
            exact sinv_goto h hx rfl hok (fun c => by cases c) (fun _ _ c => by cases c)
              (fun p t => same p t _)
          · rename_i ha
            cases hs
            refine sinv_goto h hx rfl hok (fun c => by cases c) ?_ (fun p t => same p t _)
            intro p' t' c
            cases c
            simp [awake] at ha
            exact ha
    | ready p t late =>
      simp only at hs
      split at hs
      · cases hs
      · split at hs
        · cases hs
          exact sinv_goto h hx rfl hok (fun c => by cases c) (fun _ _ c => by cases c)
            (fun p t => same p t _)
        · rename_i ha
          split at hs
          · cases hs
            exact sinv_goto h hx rfl hok (fun c => by cases c) (fun _ _ c => by cases c)
              (fun p t => same p t _)
          · cases hs
            refine sinv_goto h hx rfl hok (fun c => by cases c) ?_ (fun p t => same p t _)
            intro p' t' c
            cases c
            simp [awake] at ha
            exact ha
    | leaving p t f =>
      cases hs
      exact sinv_goto h hx rfl trivial (fun c => by cases c) (fun _ _ c => by cases c)
        (fun p t => same p t _)
    | set f notify =>
      simp only at hs
      split at hs
      · cases hs
      · cases hs
        cases notify with
        | true =>
          exact sinv_goto h hx rfl trivial (fun c => by cases c) (fun _ _ c => by cases c)
            (fun p t _ _ _ => Or.inr rfl)
        | false =>
          refine sinv_goto h hx rfl trivial (fun c => by cases c) (fun _ _ c => by cases c) ?_
          intro p t hp h1 _
          obtain ⟨v, hv, rfl⟩ := hok
          exact Or.inl ⟨h1, hA p t v hp hv⟩
    | setNotify => cases hs; exact sinv_notify h trivial (fun _ _ c => by cases c)
    | acquire o =>
      simp only at hs
      split at hs
      · cases hs
      · cases hs
        exact sinv_goto h hx rfl (by cases o <;> trivial) (fun c => by cases c)
          (fun _ _ c => by cases o <;> cases c) (fun p t => same p t _)
    | enableTest o =>
      cases hs
      cases he : s.enabled
      · exact sinv_goto h hx rfl trivial (fun c => by cases c) (fun _ _ c => by cases c)
          (fun p t => same p t _)
      · exact sinv_goto h hx rfl trivial (fun c => by cases c) (fun _ _ c => by cases c)
          (fun p t => same p t _)
    | enableStore o =>
      simp only at hs
      split at hs
      · cases hs
      · cases hs
        exact sinv_goto h hx rfl trivial (fun c => by cases c) (fun _ _ c => by cases c)
          (fun p t _ _ h2 => Or.inl ⟨rfl, h2⟩)
    | disableTest o =>
      cases hs
      cases he : s.enabled
      · exact sinv_goto h hx rfl (by cases o <;> trivial) (fun c => by cases c)
          (fun _ _ c => by cases o <;> cases c) (fun p t => same p t _)
      · exact sinv_goto h hx rfl trivial (fun c => by cases c) (fun _ _ c => by cases c)
          (fun p t => same p t _)
    | disableStore o =>
      simp only at hs
      split at hs
      · cases hs
      · cases hs
        exact sinv_goto h hx rfl trivial (fun c => by cases c) (fun _ _ c => by cases c)
          (fun p t _ _ _ => Or.inr rfl)
    | disableNotify o =>
      cases hs
      exact sinv_notify h (by cases o <;> trivial) (fun _ _ c => by cases o <;> cases c)
    | drainTest o =>
      cases hs
      by_cases hw : 0 < s.waiting
      · rw [if_pos hw]
        exact sinv_goto h hx rfl trivial (fun c => by cases c) (fun _ _ c => by cases c)
          (fun p t => same p t _)
      · rw [if_neg hw]
        exact sinv_goto h hx rfl (by cases o <;> trivial) (fun c => by cases c)
          (fun _ _ c => by cases o <;> cases c) (fun p t => same p t _)
    | drainLock o =>
      simp only at hs
      split at hs
      · cases hs
      · cases hs
        exact sinv_goto h hx rfl trivial (fun c => by cases c) (fun _ _ c => by cases c)
          (fun p t => same p t _)
    | drainNotify o => cases hs; exact sinv_notify h trivial (fun _ _ c => by cases c)
    | stopTest o =>
      cases hs
      cases he : s.enabled
      · exact sinv_goto h hx rfl trivial (fun c => by cases c) (fun _ _ c => by cases c)
          (fun p t => same p t _)
      · exact sinv_goto h hx rfl trivial (fun c => by cases c) (fun _ _ c => by cases c)
          (fun p t => same p t _)
    | release o =>
      cases hs
      exact sinv_goto h hx rfl trivial (fun c => by cases c) (fun _ _ c => by cases c)
        (fun p t => same p t _)

theorem sinv_step {A : Op T → Prop}
    (hA : ∀ p t v, A (.wait p t) → A (.setValue v false) → p v = false)
    {s s' : State T} {l : Label (Op T)} (h : SInv A s) (hl : l.Allowed A) (hs : step s l = some s') :
    SInv A s' := by
  cases l with
  | run i => exact sinv_run hA h hs
  | start i op =>
    simp only [step, start] at hs
    split at hs
    · rename_i r hx
      cases hs
      cases op with
      | wait p t =>
        exact sinv_goto h hx rfl hl (fun c => by cases c) (fun _ _ c => by cases c)
          (fun p t _ h1 h2 => Or.inl ⟨h1, h2⟩)
      | setValue v b =>
        refine sinv_goto h hx rfl ?_ (fun c => by cases c) (fun _ _ c => by cases c)
          (fun p t _ h1 h2 => Or.inl ⟨h1, h2⟩)
        cases b with
        | true => trivial
        | false => exact ⟨v, hl, rfl⟩
      | update f =>
        exact sinv_goto h hx rfl trivial (fun c => by cases c) (fun _ _ c => by cases c)
          (fun p t _ h1 h2 => Or.inl ⟨h1, h2⟩)
      | status o =>
        exact sinv_goto h hx rfl trivial (fun c => by cases c) (fun _ _ c => by cases c)
          (fun p t _ h1 h2 => Or.inl ⟨h1, h2⟩)
    · cases hs
  | spurious i =>
    simp only [step] at hs
    split at hs
    · rename_i p t hx
      have hok := h.ok i _ hx
      cases hs
      exact sinv_goto h hx rfl hok (fun c => by cases c) (fun _ _ c => by cases c)
        (fun p t _ h1 h2 => Or.inl ⟨h1, h2⟩)
    · cases hs
  | timeout i =>
    simp only [step] at hs
    split at hs
    · rename_i p hx
      have hok := h.ok i _ hx
      cases hs
      exact sinv_goto h hx rfl hok (fun c => by cases c) (fun _ _ c => by cases c)
        (fun p t _ h1 h2 => Or.inl ⟨h1, h2⟩)
    · cases hs

theorem sinv_reachable {A : Op T → Prop}
    (hA : ∀ p t v, A (.wait p t) → A (.setValue v false) → p v = false)
    {v : T} {b : Bool} {n : Nat} {s : State T}
    (h : (system T).ReachableBy A (init v b n) s) : SInv A s :=
  System.ReachableBy.invariant (SInv A) (sinv_init A v b n)
    (fun _ _ _ hI hl hs => sinv_step hA hI hl hs) h

theorem pending_able {s : State T} {i : Nat} {x : PC T} (hx : s.pcs[i]? = some x)
    (hp : x.pending = true) : (run s i).isSome := by
  unfold run
  rw [hx]
  cases x <;> first | (cases hp; done) | rfl

theorem pending_run {s s' : State T} {i : Nat} {x : PC T} (hx : s.pcs[i]? = some x)
    (hp : x.pending = true) (h : run s i = some s') :
    ∀ (j : Nat) (p : T → Bool) (t : Bool), s'.pcs[j]? ≠ some (.asleep p t) := by
  intro j p t c
  unfold run at h
  rw [hx] at h
  cases x with
  | setNotify =>
    cases h
    rcases set_get c with ⟨-, c, -⟩ | ⟨-, c⟩
    · cases c
    · obtain ⟨a, -, ha⟩ := map_get c
      cases a <;> cases ha
  | disableNotify o =>
    cases h
    rcases set_get c with ⟨-, c, -⟩ | ⟨-, c⟩
    · cases o <;> cases c
    · obtain ⟨a, -, ha⟩ := map_get c
      cases a <;> cases ha
  | _ => cases hp

end Verif.WaitHandler
