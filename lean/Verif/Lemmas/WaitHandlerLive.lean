import Verif.Lemmas.WaitHandler
/-!
Liveness of the `WaitHandler` program under fair scheduling.
-/
namespace Verif.WaitHandler
open Verif.Threads

variable {T : Type}

theorem mutex_step {s s' : State T} {l : Label (Op T)} {j : Nat} (hm : s.mutex = some j)
    (h : step s l = some s') : s'.mutex = some j ∨ s'.mutex = none := by
  cases l with
  | run i =>
    simp only [step, run] at h
    cases hx : s.pcs[i]? with
    | none => rw [hx] at h; cases h
    | some x =>
      rw [hx] at h
      cases x <;> simp only [hm] at h <;> (repeat' split at h) <;> first
        | cases h; done
        | (simp at h; done)
        | (cases h; exact Or.inl hm)
        | (cases h; exact Or.inl rfl)
        | (cases h; exact Or.inr rfl)
        | (simp at *; done)
  | start i op =>
    simp only [step, start] at h
    split at h <;> first | cases h; done | (cases h; exact Or.inl hm)
  | spurious i =>
    simp only [step] at h
    split at h <;> first | cases h; done | (cases h; exact Or.inl hm)
  | timeout i =>
    simp only [step] at h
    split at h <;> first | cases h; done | (cases h; exact Or.inl hm)

theorem leaving_run {s s' : State T} {i : Nat} {p : T → Bool} {t : Bool} {f : Option Bool}
    (hx : s.pcs[i]? = some (.leaving p t f)) (h : run s i = some s') :
    s' = goto { s with mutex := none } i (.idle (some (reason s f))) := by
  simp only [run, hx] at h
  exact (Option.some.inj h).symm

theorem status_leaving_able {s : State T} {i : Nat} {x : PC T} (hx : s.pcs[i]? = some x)
    (hl : x.isLeaving = true) : (run s i).isSome := by
  unfold run
  rw [hx]
  cases x <;> first | (cases hl; done) | rfl

variable (e : (system T).Execution) (hf : e.Fair)

include hf in
/-- The condition variable mutex is free again and again. -/
theorem mutex_free : e.LeadsTo Inv (fun s => s.mutex = none) := by
  intro n hn
  cases hm : (e.at_ n).mutex with
  | none => exact ⟨n, Nat.le_refl n, hm⟩
  | some j =>
    refine e.leadsTo' hf j (fun s => Inv s ∧ s.mutex = some j) (fun s => s.mutex = none) ?_ ?_ ?_ n
      ⟨hn, hm⟩
    · intro s l s' hp hs
      rcases mutex_step hp.2 hs with h | h
      · exact Or.inl ⟨inv_step hp.1 hs, h⟩
      · exact Or.inr h
    · rintro s ⟨hI, hm⟩
      have hlt := hI.mutex j hm
      have hx : s.pcs[j]? = some s.pcs[j] := List.getElem?_eq_getElem hlt
      exact status_leaving_able hx ((hI.loc j _ hx).leaving.2 hm)
    · rintro s s' ⟨hI, hm⟩ hs
      have hlt := hI.mutex j hm
      have hx : s.pcs[j]? = some s.pcs[j] := List.getElem?_eq_getElem hlt
      have hl := (hI.loc j _ hx).leaving.2 hm
      cases hpc : s.pcs[j] with
      | leaving p t f =>
        rw [hpc] at hx
        rw [leaving_run hx hs]
        rfl
      | _ => rw [hpc] at hl; cases hl

include hf in
/-- A thread whose next step needs at most the condition variable mutex takes it; `K` is what is kept
meanwhile. -/
theorem runs (i : Nat) (x : PC T) (ha : x.active = true) (hn : ∀ o, x ≠ .acquire o)
    (K : State T → Prop)
    (hK : ∀ s l s', Inv s → K s → s.pcs[i]? = some x → step s l = some s' → l ≠ .run i → K s') :
    e.LeadsTo (fun s => Inv s ∧ s.pcs[i]? = some x ∧ K s)
      (fun s' => ∃ s, Inv s ∧ s.pcs[i]? = some x ∧ K s ∧ run s i = some s') := by
  have keep : ∀ s l s', (Inv s ∧ s.pcs[i]? = some x ∧ K s) → (system T).step s l = some s' →
      (Inv s' ∧ s'.pcs[i]? = some x ∧ K s') ∨
      (∃ s, Inv s ∧ s.pcs[i]? = some x ∧ K s ∧ run s i = some s') := by
    rintro s l s' ⟨hI, hx, hk⟩ hs
    by_cases hl : l = .run i
    · subst hl
      exact Or.inr ⟨s, hI, hx, hk, hs⟩
    · exact Or.inl ⟨inv_step hI hs, frame_active hs hx ha hl, hK s l s' hI hk hx hs hl⟩
  refine e.leadsTo hf i _ _ keep ?_ ?_
  · intro n hp
    obtain ⟨m, hm, hfree⟩ := mutex_free e hf n hp.1
    rcases e.until_ _ _ keep n hp m hm with h | ⟨k, hk, h⟩
    · exact ⟨m, hm, Or.inl (able h.2.1 ha hfree (Or.inr hn))⟩
    · exact ⟨k, hk, Or.inr h⟩
  · rintro s s' ⟨hI, hx, hk⟩ hs
    exact ⟨s, hI, hx, hk, hs⟩

/-- Only the holder of `status_mutex_` changes `enabled_`. -/
theorem enabled_step {s s' : State T} {l : Label (Op T)} {i : Nat} {x : PC T} (hI : Inv s)
    (hx : s.pcs[i]? = some x) (hh : x.holds = true) (h : step s l = some s') (hl : l ≠ .run i) :
    s'.enabled = s.enabled := by
  cases l with
  | run j =>
    have hj : j ≠ i := fun c => hl (by rw [c])
    simp only [step, run] at h
    cases hy : s.pcs[j]? with
    | none => rw [hy] at h; cases h
    | some y =>
      rw [hy] at h
      have hny : y.holds = false := by
        cases hb : y.holds with
        | false => rfl
        | true => exact absurd (holds_unique (hI.loc i x hx) (hI.loc j y hy) hh hb) hj
      cases y <;> first | (cases hny; done) | skip
      all_goals simp only at h
      all_goals (repeat' split at h) <;> first
        | cases h; done
        | (cases h; rfl)
  | start j op =>
    simp only [step, start] at h
    split at h <;> first | cases h; done | (cases h; rfl)
  | spurious j =>
    simp only [step] at h
    split at h <;> first | cases h; done | (cases h; rfl)
  | timeout j =>
    simp only [step] at h
    split at h <;> first | cases h; done | (cases h; rfl)

/-- While the handler is disabled nobody registers as waiting. -/
theorem waiting_step {s s' : State T} {l : Label (Op T)} (he : s.enabled = false)
    (h : step s l = some s') : s'.waiting ≤ s.waiting := by
  cases l with
  | run j =>
    simp only [step, run] at h
    cases hy : s.pcs[j]? with
    | none => rw [hy] at h; cases h
    | some y =>
      rw [hy] at h
      cases y <;> simp only [he] at h <;> (repeat' split at h) <;> first
        | cases h; done
        | (cases h; exact Nat.le_refl _)
        | (cases h; exact Nat.sub_le _ _)
        | (simp at *; done)
  | start j op =>
    simp only [step, start] at h
    split at h <;> first | cases h; done | (cases h; exact Nat.le_refl _)
  | spurious j =>
    simp only [step] at h
    split at h <;> first | cases h; done | (cases h; exact Nat.le_refl _)
  | timeout j =>
    simp only [step] at h
    split at h <;> first | cases h; done | (cases h; exact Nat.le_refl _)

/-- Thread `i` is in the loop of `blocking_disable`. -/
def Draining (i : Nat) (o : StatusOp) (s : State T) : Prop :=
  s.pcs[i]? = some (.drainTest o) ∨ s.pcs[i]? = some (.drainLock o) ∨ s.pcs[i]? = some (.drainNotify o)

theorem draining_off {s : State T} {i : Nat} {o : StatusOp} (hI : Inv s) (h : Draining i o s) :
    s.enabled = false := by
  rcases h with h | h | h <;> exact (hI.loc i _ h).off rfl

theorem draining_step {s s' : State T} {l : Label (Op T)} {i : Nat} {o : StatusOp}
    (h : Draining i o s) (hs : step s l = some s') :
    Draining i o s' ∨ s'.pcs[i]? = some (afterDrain o) := by
  by_cases hl : l = .run i
  · subst hl
    rcases h with h | h | h
    · simp only [step, run, h] at hs
      by_cases hw : 0 < s.waiting
      · rw [if_pos hw] at hs
        cases hs
        exact Or.inl (Or.inr (Or.inl (get_set_self h)))
      · rw [if_neg hw] at hs
        cases hs
        exact Or.inr (get_set_self h)
    · simp only [step, run, h] at hs
      split at hs
      · cases hs
      · cases hs
        exact Or.inl (Or.inr (Or.inr (get_set_self h)))
    · simp only [step, run, h] at hs
      cases hs
      refine Or.inl (Or.inl ?_)
      have : (s.pcs.map wake)[i]? = some (wake (.drainNotify o)) := by
        rw [List.getElem?_map, h]; rfl
      exact get_set_self this
  · left
    rcases h with h | h | h
    · exact Or.inl (frame_active hs h rfl hl)
    · exact Or.inr (Or.inl (frame_active hs h rfl hl))
    · exact Or.inr (Or.inr (frame_active hs h rfl hl))

/-- What is kept while draining. -/
theorem drain_keep {k i : Nat} {o : StatusOp} {s s' : State T} {l : Label (Op T)}
    (hI : Inv s) (hw : s.waiting ≤ k) (hd : Draining i o s) (hs : step s l = some s') :
    s'.waiting ≤ k :=
  Nat.le_trans (waiting_step (draining_off hI hd) hs) hw

include hf in
/-- The loop of `blocking_disable` comes to notify again, or ends. -/
theorem drain_notifies (i : Nat) (o : StatusOp) (k : Nat) :
    e.LeadsTo (fun s => Inv s ∧ Draining i o s ∧ s.waiting ≤ k)
      (fun s => (Inv s ∧ Draining i o s ∧ s.waiting ≤ k ∧
        ∀ (j : Nat) (p : T → Bool) (t : Bool), s.pcs[j]? ≠ some (.asleep p t)) ∨
        (Inv s ∧ s.pcs[i]? = some (afterDrain o))) := by
  have hN : e.LeadsTo (fun s => Inv s ∧ s.pcs[i]? = some (.drainNotify o) ∧ s.waiting ≤ k)
      (fun s => (Inv s ∧ Draining i o s ∧ s.waiting ≤ k ∧
        ∀ (j : Nat) (p : T → Bool) (t : Bool), s.pcs[j]? ≠ some (.asleep p t)) ∨
        (Inv s ∧ s.pcs[i]? = some (afterDrain o))) := by
    refine (runs e hf i (.drainNotify o) rfl (fun _ c => by cases c) (fun s => s.waiting ≤ k)
      (fun s l s' hI hw hx hs _ => drain_keep hI hw (Or.inr (Or.inr hx)) hs)).mono (fun _ h => h) ?_
    rintro s' ⟨s, hI, hx, hw, hs⟩
    left
    have hI' := inv_run hI hs
    have hd := draining_step (l := .run i) (Or.inr (Or.inr hx)) hs
    simp only [run, hx] at hs
    cases hs
    have hxw : (s.pcs.map wake)[i]? = some (wake (.drainNotify o)) := by
      rw [List.getElem?_map, hx]; rfl
    refine ⟨hI', Or.inl (get_set_self hxw), hw, ?_⟩
    intro j p t c
    rcases set_get c with ⟨-, c, -⟩ | ⟨-, c⟩
    · cases c
    · obtain ⟨a, -, ha⟩ := map_get c
      cases a <;> cases ha
  have hL : e.LeadsTo (fun s => Inv s ∧ s.pcs[i]? = some (.drainLock o) ∧ s.waiting ≤ k)
      (fun s => Inv s ∧ s.pcs[i]? = some (.drainNotify o) ∧ s.waiting ≤ k) := by
    refine (runs e hf i (.drainLock o) rfl (fun _ c => by cases c) (fun s => s.waiting ≤ k)
      (fun s l s' hI hw hx hs _ => drain_keep hI hw (Or.inr (Or.inl hx)) hs)).mono (fun _ h => h) ?_
    rintro s' ⟨s, hI, hx, hw, hs⟩
    have hI' := inv_run hI hs
    simp only [run, hx] at hs
    split at hs
    · cases hs
    · cases hs
      exact ⟨hI', get_set_self hx, hw⟩
  have hT : e.LeadsTo (fun s => Inv s ∧ s.pcs[i]? = some (.drainTest o) ∧ s.waiting ≤ k)
      (fun s => (Inv s ∧ s.pcs[i]? = some (.drainLock o) ∧ s.waiting ≤ k) ∨
        (Inv s ∧ s.pcs[i]? = some (afterDrain o))) := by
    refine (runs e hf i (.drainTest o) rfl (fun _ c => by cases c) (fun s => s.waiting ≤ k)
      (fun s l s' hI hw hx hs _ => drain_keep hI hw (Or.inl hx) hs)).mono (fun _ h => h) ?_
    rintro s' ⟨s, hI, hx, hw, hs⟩
    have hI' := inv_run hI hs
    simp only [run, hx] at hs
    by_cases hp : 0 < s.waiting
    · rw [if_pos hp] at hs
      cases hs
      exact Or.inl ⟨hI', get_set_self hx, hw⟩
    · rw [if_neg hp] at hs
      cases hs
      exact Or.inr ⟨hI', get_set_self hx⟩
  rintro n ⟨hI, hd | hd | hd, hw⟩
  · obtain ⟨m, hm, h | h⟩ := hT n ⟨hI, hd, hw⟩
    · obtain ⟨m', hm', h'⟩ := (hL.trans hN) m h
      exact ⟨m', Nat.le_trans hm hm', h'⟩
    · exact ⟨m, hm, Or.inr h⟩
  · exact (hL.trans hN) n ⟨hI, hd, hw⟩
  · exact hN n ⟨hI, hd, hw⟩

include hf in
/-- The loop of `blocking_disable` ends. -/
theorem drain_ends (i : Nat) (o : StatusOp) :
    e.LeadsTo (fun s => Inv s ∧ Draining i o s) (fun s => Inv s ∧ s.pcs[i]? = some (afterDrain o)) := by
  refine e.leadsTo_measure _ _ (fun s => s.waiting) ?_
  intro k
  rintro n ⟨⟨hI, hd⟩, hk⟩
  obtain ⟨m, hm, h | h⟩ := drain_notifies e hf i o k n ⟨hI, hd, Nat.le_of_eq hk⟩
  · obtain ⟨hI, hd, hw, hns⟩ := h
    by_cases hlt : (e.at_ m).waiting < k
    · exact ⟨m, hm, Or.inl ⟨⟨hI, hd⟩, hlt⟩⟩
    · have hweq : (e.at_ m).waiting = k := by have := hw; omega
      by_cases hk0 : k = 0
      · -- nobody waits: one more round
        have hT := runs e hf i (.drainTest o) rfl (fun _ c => by cases c) (fun s => s.waiting ≤ k)
          (fun s l s' hI hw hx hs _ => drain_keep hI hw (Or.inl hx) hs)
        have hN := drain_notifies e hf i o k
        rcases hd with hd | hd | hd
        · obtain ⟨m', hm', s, hI, hx, hw, hs⟩ := hT m ⟨hI, hd, hw⟩
          have hI' := inv_run hI hs
          have hs0 : ¬ 0 < s.waiting := by omega
          simp only [run, hx] at hs
          rw [if_neg hs0] at hs
          refine ⟨m', Nat.le_trans hm hm', Or.inr ⟨hI', ?_⟩⟩
          rw [← Option.some.inj hs]
          exact get_set_self hx
        · -- drainLock
          have h1 := runs e hf i (.drainLock o) rfl (fun _ c => by cases c) (fun s => s.waiting ≤ k)
            (fun s l s' hI hw hx hs _ => drain_keep hI hw (Or.inr (Or.inl hx)) hs)
          obtain ⟨m1, hm1, s, hI1, hx, hw1, hs⟩ := h1 m ⟨hI, hd, hw⟩
          have hI' := inv_run hI1 hs
          have hd1 : (e.at_ m1).pcs[i]? = some (.drainNotify o) ∧ (e.at_ m1).waiting ≤ k := by
            simp only [run, hx] at hs
            split at hs
            · cases hs
            · rw [← Option.some.inj hs]
              exact ⟨get_set_self hx, hw1⟩
          have h2 := runs e hf i (.drainNotify o) rfl (fun _ c => by cases c) (fun s => s.waiting ≤ k)
            (fun s l s' hI hw hx hs _ => drain_keep hI hw (Or.inr (Or.inr hx)) hs)
          obtain ⟨m2, hm2, s2, hI2, hx2, hw2, hs2⟩ := h2 m1 ⟨hI', hd1.1, hd1.2⟩
          have hI2' := inv_run hI2 hs2
          have hd2 : (e.at_ m2).pcs[i]? = some (.drainTest o) ∧ (e.at_ m2).waiting ≤ k := by
            simp only [run, hx2] at hs2
            rw [← Option.some.inj hs2]
            have : (s2.pcs.map wake)[i]? = some (wake (.drainNotify o)) := by
              rw [List.getElem?_map, hx2]; rfl
            exact ⟨get_set_self this, hw2⟩
          obtain ⟨m', hm', s, hI, hx, hw, hs⟩ := hT m2 ⟨hI2', hd2.1, hd2.2⟩
          have hI' := inv_run hI hs
          have hs0 : ¬ 0 < s.waiting := by omega
          simp only [run, hx] at hs
          rw [if_neg hs0] at hs
          refine ⟨m', Nat.le_trans hm (Nat.le_trans hm1 (Nat.le_trans hm2 hm')), Or.inr ⟨hI', ?_⟩⟩
          rw [← Option.some.inj hs]
          exact get_set_self hx
        · have h2 := runs e hf i (.drainNotify o) rfl (fun _ c => by cases c) (fun s => s.waiting ≤ k)
            (fun s l s' hI hw hx hs _ => drain_keep hI hw (Or.inr (Or.inr hx)) hs)
          obtain ⟨m2, hm2, s2, hI2, hx2, hw2, hs2⟩ := h2 m ⟨hI, hd, hw⟩
          have hI2' := inv_run hI2 hs2
          have hd2 : (e.at_ m2).pcs[i]? = some (.drainTest o) ∧ (e.at_ m2).waiting ≤ k := by
            simp only [run, hx2] at hs2
            rw [← Option.some.inj hs2]
            have : (s2.pcs.map wake)[i]? = some (wake (.drainNotify o)) := by
              rw [List.getElem?_map, hx2]; rfl
            exact ⟨get_set_self this, hw2⟩
          obtain ⟨m', hm', s, hI, hx, hw, hs⟩ := hT m2 ⟨hI2', hd2.1, hd2.2⟩
          have hI' := inv_run hI hs
          have hs0 : ¬ 0 < s.waiting := by omega
          simp only [run, hx] at hs
          rw [if_neg hs0] at hs
          refine ⟨m', Nat.le_trans hm (Nat.le_trans hm2 hm'), Or.inr ⟨hI', ?_⟩⟩
          rw [← Option.some.inj hs]
          exact get_set_self hx
      · -- somebody was woken: it leaves
        obtain ⟨j, x, hx, hwx⟩ := exists_of_countP_pos PC.inWait (l := (e.at_ m).pcs)
          (by have := hI.count; omega)
        cases x with
        | asleep p t => exact absurd hx (hns j p t)
        | ready p t late =>
          have keep : ∀ s l s', (Inv s ∧ Draining i o s ∧ s.waiting ≤ k ∧
              s.pcs[j]? = some (.ready p t late)) → (system T).step s l = some s' →
              (Inv s' ∧ Draining i o s' ∧ s'.waiting ≤ k ∧ s'.pcs[j]? = some (.ready p t late)) ∨
              ((Inv s' ∧ Draining i o s') ∧ s'.waiting < k ∨
                Inv s' ∧ s'.pcs[i]? = some (afterDrain o)) := by
            rintro s l s' ⟨hI, hd, hw, hx⟩ hs
            have hI' := inv_step hI hs
            rcases draining_step hd hs with hd' | hd'
            · by_cases hl : l = .run j
              · right
                left
                refine ⟨⟨hI', hd'⟩, ?_⟩
                have he := draining_off hI hd
                have hpos : 0 < s.waiting := by rw [hI.count]; exact countP_pos_of_get _ hx rfl
                subst hl
                change run s j = some s' at hs
                have ha : awake s p = true := by simp [awake, he]
                simp only [run, hx, ha] at hs
                split at hs
                · cases hs
                · cases hs
                  show s.waiting - 1 < k
                  omega
              · exact Or.inl ⟨hI', hd', drain_keep hI hw hd hs, frame_active hs hx rfl hl⟩
            · exact Or.inr (Or.inr ⟨hI', hd'⟩)
          obtain ⟨m', hm', h⟩ := e.leadsTo hf j _ _ keep (by
              intro n hp
              obtain ⟨m, hm, hfree⟩ := mutex_free e hf n hp.1
              rcases e.until_ _ _ keep n hp m hm with h | ⟨k, hk, h⟩
              · exact ⟨m, hm, Or.inl (able h.2.2.2 rfl hfree (Or.inr fun _ c => by cases c))⟩
              · exact ⟨k, hk, Or.inr h⟩) (by
              rintro s s' hp hs
              rcases keep s _ s' hp hs with ⟨-, -, -, h4⟩ | h
              · exfalso
                have he := draining_off hp.1 hp.2.1
                have ha : awake s p = true := by simp [awake, he]
                change run s j = some s' at hs
                simp only [run, hp.2.2.2, ha] at hs
                split at hs
                · cases hs
                · cases hs
                  rw [show (endWait s j p t true).pcs[j]? = some (.leaving p t (some true)) from
                    get_set_self hp.2.2.2] at h4
                  cases h4
              · exact h) m ⟨hI, hd, hw, hx⟩
          exact ⟨m', Nat.le_trans hm hm', h⟩
        | _ => cases hwx
  · exact ⟨m, hm, Or.inr h⟩

/-- Thread `i` is at `x`. -/
def At (i : Nat) (x : PC T) (s : State T) : Prop := Inv s ∧ s.pcs[i]? = some x

include hf in
theorem nxt (i : Nat) (x : PC T) (ha : x.active = true) (hn : ∀ o, x ≠ .acquire o)
    (Q : State T → Prop)
    (hq : ∀ s s', Inv s → Inv s' → s.pcs[i]? = some x → run s i = some s' → Q s') :
    e.LeadsTo (At i x) Q := by
  refine (runs e hf i x ha hn (fun _ => True) (fun _ _ _ _ _ _ _ _ => trivial)).mono
    (fun s h => ⟨h.1, h.2, trivial⟩) ?_
  rintro s' ⟨s, hI, hx, -, hs⟩
  exact hq s s' hI (inv_run hI hs) hx hs

/-- A thread that reached `release o`. -/
abbrev Rel (i : Nat) (o : StatusOp) : State T → Prop := At i (.release o)

include hf in
theorem rel_enableStore (i : Nat) (o : StatusOp) : e.LeadsTo (At i (.enableStore o)) (Rel i o) := by
  refine nxt e hf i _ rfl (fun _ c => by cases c) _ ?_
  intro s s' _ hI' hx hs
  simp only [run, hx] at hs
  split at hs
  · cases hs
  · cases hs
    exact ⟨hI', get_set_self hx⟩

include hf in
theorem rel_enableTest (i : Nat) (o : StatusOp) : e.LeadsTo (At i (.enableTest o)) (Rel i o) := by
  have : e.LeadsTo (At i (.enableTest o)) (fun s => At i (.enableStore o) s ∨ Rel i o s) := by
    refine nxt e hf i _ rfl (fun _ c => by cases c) _ ?_
    intro s s' _ hI' hx hs
    simp only [run, hx] at hs
    cases he : s.enabled <;> rw [he] at hs <;> cases hs
    · exact Or.inl ⟨hI', get_set_self hx⟩
    · exact Or.inr ⟨hI', get_set_self hx⟩
  exact this.trans ((rel_enableStore e hf i o).or (.refl e fun _ h => h))

include hf in
theorem rel_drain (i : Nat) (o : StatusOp) : e.LeadsTo (fun s => Inv s ∧ Draining i o s) (Rel i o) := by
  refine (drain_ends e hf i o).trans ?_
  cases o with
  | stopAndContinue => exact rel_enableTest e hf i _
  | enable => exact .refl e fun _ h => h
  | disable => exact .refl e fun _ h => h
  | blockingDisable => exact .refl e fun _ h => h

include hf in
theorem rel_afterDisable (i : Nat) (o : StatusOp) : e.LeadsTo (At i (afterDisable o)) (Rel i o) := by
  cases o with
  | enable => exact .refl e fun _ h => h
  | disable => exact .refl e fun _ h => h
  | blockingDisable =>
    exact (rel_drain e hf i _).mono (fun s h => ⟨h.1, Or.inl h.2⟩) (fun _ h => h)
  | stopAndContinue =>
    exact (rel_drain e hf i _).mono (fun s h => ⟨h.1, Or.inl h.2⟩) (fun _ h => h)

include hf in
theorem rel_disableNotify (i : Nat) (o : StatusOp) :
    e.LeadsTo (At i (.disableNotify o)) (Rel i o) := by
  refine System.Execution.LeadsTo.trans ?_ (rel_afterDisable e hf i o)
  refine nxt e hf i _ rfl (fun _ c => by cases c) _ ?_
  intro s s' _ hI' hx hs
  simp only [run, hx] at hs
  cases hs
  have : (s.pcs.map wake)[i]? = some (wake (.disableNotify o)) := by
    rw [List.getElem?_map, hx]; rfl
  exact ⟨hI', get_set_self this⟩

include hf in
theorem rel_disableStore (i : Nat) (o : StatusOp) :
    e.LeadsTo (At i (.disableStore o)) (Rel i o) := by
  refine System.Execution.LeadsTo.trans ?_ (rel_disableNotify e hf i o)
  refine nxt e hf i _ rfl (fun _ c => by cases c) _ ?_
  intro s s' _ hI' hx hs
  simp only [run, hx] at hs
  split at hs
  · cases hs
  · cases hs
    exact ⟨hI', get_set_self hx⟩

include hf in
theorem rel_disableTest (i : Nat) (o : StatusOp) :
    e.LeadsTo (At i (.disableTest o)) (Rel i o) := by
  refine System.Execution.LeadsTo.trans ?_
    ((rel_disableStore e hf i o).or (rel_afterDisable e hf i o))
  refine nxt e hf i _ rfl (fun _ c => by cases c) _ ?_
  intro s s' _ hI' hx hs
  simp only [run, hx] at hs
  cases he : s.enabled <;> rw [he] at hs <;> cases hs
  · exact Or.inr ⟨hI', get_set_self hx⟩
  · exact Or.inl ⟨hI', get_set_self hx⟩

include hf in
theorem rel_stopTest (i : Nat) (o : StatusOp) :
    e.LeadsTo (At i (.stopTest o)) (Rel i o) := by
  refine System.Execution.LeadsTo.trans ?_
    ((rel_disableTest e hf i o).or (rel_enableTest e hf i o))
  refine nxt e hf i _ rfl (fun _ c => by cases c) _ ?_
  intro s s' _ hI' hx hs
  simp only [run, hx] at hs
  cases he : s.enabled <;> rw [he] at hs <;> cases hs
  · exact Or.inr ⟨hI', get_set_self hx⟩
  · exact Or.inl ⟨hI', get_set_self hx⟩

/-- The call a holder of `status_mutex_` is executing. -/
def PC.call : PC T → StatusOp
  | .enableTest o | .enableStore o | .disableTest o | .disableStore o | .disableNotify o
  | .drainTest o | .drainLock o | .drainNotify o | .stopTest o | .release o => o
  | _ => .enable

include hf in
theorem rel_holder (i : Nat) (x : PC T) (hh : x.holds = true) : e.LeadsTo (At i x) (Rel i x.call) := by
  cases x with
  | enableTest o => exact rel_enableTest e hf i o
  | enableStore o => exact rel_enableStore e hf i o
  | disableTest o => exact rel_disableTest e hf i o
  | disableStore o => exact rel_disableStore e hf i o
  | disableNotify o => exact rel_disableNotify e hf i o
  | drainTest o =>
    exact (rel_drain e hf i o).mono (fun s h => ⟨h.1, Or.inl h.2⟩) (fun _ h => h)
  | drainLock o =>
    exact (rel_drain e hf i o).mono (fun s h => ⟨h.1, Or.inr (Or.inl h.2)⟩) (fun _ h => h)
  | drainNotify o =>
    exact (rel_drain e hf i o).mono (fun s h => ⟨h.1, Or.inr (Or.inr h.2)⟩) (fun _ h => h)
  | stopTest o => exact rel_stopTest e hf i o
  | release o => exact .refl e fun _ h => h
  | _ => cases hh

include hf in
theorem release_idle (i : Nat) (o : StatusOp) :
    e.LeadsTo (Rel i o) (fun s => s.status = none ∧ s.pcs[i]? = some (.idle none)) := by
  refine nxt e hf i _ rfl (fun _ c => by cases c) _ ?_
  intro s s' _ _ hx hs
  simp only [run, hx] at hs
  cases hs
  exact ⟨rfl, get_set_self hx⟩

include hf in
/-- `status_mutex_` is free again and again. -/
theorem status_free : e.LeadsTo Inv (fun s => s.status = none) := by
  intro n hI
  cases hs : (e.at_ n).status with
  | none => exact ⟨n, Nat.le_refl n, hs⟩
  | some j =>
    have hlt := hI.status j hs
    have hx : (e.at_ n).pcs[j]? = some (e.at_ n).pcs[j] := List.getElem?_eq_getElem hlt
    have hh := (hI.loc j _ hx).holds.2 hs
    obtain ⟨m, hm, h⟩ := ((rel_holder e hf j _ hh).trans (release_idle e hf j _)) n ⟨hI, hx⟩
    exact ⟨m, hm, h.1⟩

include hf in
/-- A call that needs `status_mutex_` gets it. -/
theorem acquires (i : Nat) (o : StatusOp) : e.LeadsTo (At i (.acquire o)) (At i (first o)) := by
  have keep : ∀ s l s', At i (.acquire o) s → (system T).step s l = some s' →
      At i (.acquire o) s' ∨ At i (first o) s' := by
    rintro s l s' ⟨hI, hx⟩ hs
    have hI' := inv_step hI hs
    by_cases hl : l = .run i
    · subst hl
      right
      change run s i = some s' at hs
      simp only [run, hx] at hs
      split at hs
      · cases hs
      · cases hs
        exact ⟨hI', get_set_self hx⟩
    · exact Or.inl ⟨hI', frame_active hs hx rfl hl⟩
  refine e.leadsTo hf i _ _ keep ?_ ?_
  · intro n hp
    obtain ⟨m, hm, hfree⟩ := status_free e hf n hp.1
    rcases e.until_ _ _ keep n hp m hm with h | ⟨k, hk, h⟩
    · refine ⟨m, hm, Or.inl ?_⟩
      show (run _ i).isSome
      simp only [run, h.2, hfree]
      rfl
    · exact ⟨k, hk, Or.inr h⟩
  · rintro s s' ⟨hI, hx⟩ hs
    rcases keep s _ s' ⟨hI, hx⟩ hs with h | h
    · exfalso
      change run s i = some s' at hs
      have h2 := h.2
      simp only [run, hx] at hs
      split at hs
      · cases hs
      · cases hs
        rw [show (goto { s with status := some i } i (first o)).pcs[i]? = some (first o) from
          get_set_self hx] at h2
        cases o <;> cases h2
    · exact h

include hf in
theorem rel_acquire (i : Nat) (o : StatusOp) : e.LeadsTo (At i (.acquire o)) (Rel i o) := by
  refine (acquires e hf i o).trans ?_
  cases o with
  | enable => exact rel_enableTest e hf i _
  | disable => exact rel_disableTest e hf i _
  | blockingDisable => exact rel_disableTest e hf i _
  | stopAndContinue => exact rel_stopTest e hf i _

end Verif.WaitHandler
