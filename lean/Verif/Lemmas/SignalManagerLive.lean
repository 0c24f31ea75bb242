import Verif.Lemmas.SignalManager
/-!
Liveness of the signal manager.
-/
namespace Verif.SignalManager
open Verif.Threads

variable {C : Type}

/-- While the thread sleeps the flag is not set, or its notification is to come. -/
def Sleep (s : Conf (prog C)) : Prop :=
  ∀ (j : Nat) (z : PC C), s.pcs[j]? = some z → (woken z).isSome →
    s.sh.stop = false ∨ ∃ (k : Nat) (w : PC C), s.pcs[k]? = some w ∧ w = .dNotify

structure Full (s : Conf (prog C)) : Prop where
  inv : Inv s
  handler : ∃ x, s.pcs[0]? = some x
  sleep : Sleep s

theorem sleep_step {s s' : Conf (prog C)} {l : Label (Op C)} (hi : Inv s) (h : Sleep s)
    (hs : (prog C).Stepped s l s') : Sleep s' := by
  refine Prog.sleep_step (P := prog C) (fun sh _ => sh.stop = false) (fun w => w = .dNotify)
    ?_ ?_ ?_ ?_ ?_ ?_ h hs
  · intro x op y hy
    obtain ⟨⟨r, rfl⟩, h⟩ := start_spec hy
    clear hy
    rcases h with rfl | ⟨c, rfl⟩ | ⟨n, rfl⟩ | rfl <;> exact ⟨rfl, nofun⟩
  · intro x y hy
    obtain ⟨rfl, rfl⟩ := woken_spec hy
    exact ⟨rfl, nofun⟩
  · intro x y hy; cases hy
  · intro i x sh y b hx hr hy
    obtain ⟨z, hz⟩ := Option.isSome_iff_exists.1 hy
    obtain ⟨rfl, -⟩ := woken_spec hz
    have hr : run i s.sh x = some (sh, .asleep, b) := hr
    have hl := hi.loc i x hx
    cases x with
    | hSleep => cases hr; exact hl.sleep rfl
    | hCall rest => cases rest <;> cases hr
    | _ => exfalso; simp only [run] at hr; (repeat' split at hr) <;> simp_all
  · intro i x sh y hx hr hp
    subst hp
    cases hr
  · intro i x sh y j z hx hr hne hj hz hok
    have hr : run i s.sh x = some (sh, y, false) := hr
    have hl := hi.loc i x hx
    cases hh : x.handler with
    | true =>
      have := eq_zero hl hh
      subst this
      left
      show sh.stop = false
      rw [(handler_run hh hl hr).2.1]
      exact hok
    | false =>
      cases x with
      | dStore => right; simp only [run] at hr; split at hr <;> cases hr; rfl
      | idle r => cases hr
      | sigInc => left; cases hr; exact hok
      | sigNotify => cases hr
      | register c => left; simp only [run] at hr; split at hr <;> cases hr; exact hok
      | unregister id =>
        left
        simp only [run] at hr
        split at hr
        · cases hr
        · split at hr <;> cases hr <;> exact hok
      | dNotify => cases hr
      | dJoin => left; simp only [run] at hr; split at hr <;> cases hr; exact hok
      | _ => cases hh

theorem full_reachable {n : Nat} {s : Conf (prog C)} (h : (prog C).system.Reachable (init C n) s) : Full s := by
  refine ⟨inv_reachable h, handler_exists h, ?_⟩
  refine (System.Reachable.invariant (S := (prog C).system) (fun s : Conf (prog C) => Inv s ∧ Sleep s) ?_ ?_ h).2
  · refine ⟨inv_init n, ?_⟩
    intro j z hj hz
    exact Or.inl rfl
  · intro s l s' h hs
    have hst := Prog.step_stepped hs
    exact ⟨Prog.Local.step local_ h.1 (Label.allowed_true _) hst, sleep_step h.1 h.2 hst⟩

/-- Neither outside calls nor asleep nor finished. -/
def PC.act : PC C → Bool
  | .idle _ | .asleep => false
  | _ => true

theorem active {x : PC C} (h : x.act = true) : (prog C).Active x := by
  cases x with
  | idle r => cases h
  | asleep => cases h
  | _ => exact ⟨fun op => by cases op <;> rfl, rfl, rfl⟩

/-- The handler can always execute its next step, unless it sleeps or has finished. -/
theorem handler_able {s : Conf (prog C)} (hF : Full s) {x : PC C} (hx : s.pcs[0]? = some x)
    (hh : x.handler = true) (h1 : x ≠ .asleep) (h2 : x ≠ .hEnd) : (run 0 s.sh x).isSome := by
  have hl := hF.inv.loc 0 x hx
  have hm := hl.mutex rfl
  have hc := hl.cb rfl
  cases x with
  | hLoop => simp only [run]; split <;> rfl
  | hLock => simp only [run, hm]; rfl
  | hReady => simp only [run, hm]; rfl
  | hCb => simp only [run, hc]; rfl
  | hCall rest => cases rest <;> rfl
  | asleep => exact absurd rfl h1
  | hEnd => exact absurd rfl h2
  | hTest => rfl
  | hTest2 => rfl
  | hSleep => rfl
  | hStop => rfl
  | hMore => rfl
  | hDec => rfl
  | hUnlock => rfl
  | hBreak => rfl
  | _ => cases hh

section Liveness
variable (e : (prog C).system.Execution) (hf : e.Fair) (hF : ∀ n, Full (e.at_ n))
include hf hF

/-- A step of the handler thread, while the other threads keep `K`. -/
theorem hstep (x : PC C) (ha : x.act = true) (hh : x.handler = true) (h2 : x ≠ .hEnd)
    (K Q : Conf (prog C) → Prop)
    (hkeep : ∀ s l s' : _, Full s → Full s' → K s → (prog C).Stepped s l s' → l ≠ .run 0 → K s' ∨ Q s')
    (hdone : ∀ (s s' : Conf (prog C)) y b, Full s → Full s' → K s → run 0 s.sh x = some (s'.sh, y, b) →
      s'.pcs[0]? = some y → Q s') :
    e.LeadsTo (fun s => s.pcs[0]? = some x ∧ K s) Q := by
  refine Prog.runs' e hf Full hF 0 x (active ha) K Q (fun s l s' h1 h2 _ h4 h5 h6 => hkeep s l s' h1 h2 h4 h5 h6)
    (fun s h1 h2' _ => handler_able h1 h2' hh (by rintro rfl; cases ha) h2) ?_
  intro s s' h1 h2 h3 h4 h5
  obtain ⟨sh, z, b, hr, e1, hz⟩ := Prog.stepped_run h5 h3
  exact hdone s s' z b h1 h2 h4 (by rw [e1]; exact hr) hz

/-- The same without `K`. -/
theorem hstep' (x : PC C) (ha : x.act = true) (hh : x.handler = true) (h2 : x ≠ .hEnd)
    (Q : Conf (prog C) → Prop)
    (hdone : ∀ (s s' : Conf (prog C)) y b, Full s → Full s' → run 0 s.sh x = some (s'.sh, y, b) →
      s'.pcs[0]? = some y → Q s') :
    e.LeadsTo (fun s => s.pcs[0]? = some x) Q :=
  (hstep e hf hF x ha hh h2 (fun _ => True) Q (fun _ _ _ _ _ _ _ _ => Or.inl trivial)
    (fun s s' y b h1 h2 _ h4 h5 => hdone s s' y b h1 h2 h4 h5)).mono (fun _ h => ⟨h, trivial⟩) (fun _ h => h)

/-- The handler thread releases `signal_received_cv_mutex_`. -/
theorem mutex_released : e.LeadsTo (fun s => s.sh.mutex = true) (fun s => s.sh.mutex = false) := by
  let F : Conf (prog C) → Prop := fun s => s.sh.mutex = false
  have rel : ∀ x : PC C, x = .hUnlock ∨ x = .hBreak ∨ x = .hSleep →
      e.LeadsTo (fun s => s.pcs[0]? = some x) F := by
    intro x hx
    refine hstep' e hf hF x (by rcases hx with rfl | rfl | rfl <;> rfl)
      (by rcases hx with rfl | rfl | rfl <;> rfl) (by rcases hx with rfl | rfl | rfl <;> nofun) F ?_
    intro s s' y b _ _ hr _
    show s'.sh.mutex = false
    generalize s'.sh = t at hr
    rcases hx with rfl | rfl | rfl <;> cases hr <;> rfl
  have call : ∀ rest : List (Nat × C), e.LeadsTo (fun s => s.pcs[0]? = some (.hCall rest)) F := by
    intro rest
    induction rest with
    | nil =>
      refine (hstep' e hf hF (.hCall []) rfl rfl nofun (fun s => s.pcs[0]? = some .hUnlock) ?_).trans (rel _ (Or.inl rfl))
      intro s s' y b _ _ hr hy
      generalize s'.sh = t at hr
      cases hr
      exact hy
    | cons p rest ih =>
      refine (hstep' e hf hF (.hCall (p :: rest)) rfl rfl nofun (fun s => s.pcs[0]? = some (.hCall rest)) ?_).trans ih
      intro s s' y b _ _ hr hy
      generalize s'.sh = t at hr
      cases hr
      exact hy
  have cb : e.LeadsTo (fun s => s.pcs[0]? = some .hCb) F := by
    refine (hstep' e hf hF .hCb rfl rfl nofun (fun s => ∃ rest, s.pcs[0]? = some (.hCall rest)) ?_).trans ?_
    · intro s s' y b _ _ hr hy
      generalize s'.sh = t at hr
      simp only [run] at hr
      split at hr <;> cases hr
      exact ⟨_, hy⟩
    · rintro n ⟨rest, h⟩
      exact call rest n h
  have dec : e.LeadsTo (fun s => s.pcs[0]? = some .hDec) F := by
    refine (hstep' e hf hF .hDec rfl rfl nofun (fun s => s.pcs[0]? = some .hCb) ?_).trans cb
    intro s s' y b _ _ hr hy
    simp only [run, Option.some.injEq, Prod.mk.injEq] at hr
    rw [hy, ← hr.2.1]
  have fork : ∀ x a b : PC C, x.act = true → x.handler = true → x ≠ .hEnd →
      (∀ (s t : Sh C) y c, run 0 s x = some (t, y, c) → y = a ∨ y = b) →
      e.LeadsTo (fun s => s.pcs[0]? = some a) F → e.LeadsTo (fun s => s.pcs[0]? = some b) F →
      e.LeadsTo (fun s => s.pcs[0]? = some x) F := by
    intro x a b h1 h2 h3 h4 ha hb
    refine (hstep' e hf hF x h1 h2 h3 (fun s => s.pcs[0]? = some a ∨ s.pcs[0]? = some b) ?_).trans (.or ha hb)
    intro s s' y c _ _ hr hy
    rcases h4 _ _ _ _ hr with rfl | rfl
    · exact Or.inl hy
    · exact Or.inr hy
  have more := fork .hMore .hDec .hUnlock rfl rfl nofun (by
    intro s t y c h
    simp only [run] at h
    split at h <;> cases h
    · exact Or.inl rfl
    · exact Or.inr rfl) dec (rel _ (Or.inl rfl))
  have stop := fork .hStop .hBreak .hMore rfl rfl nofun (by
    intro s t y c h
    simp only [run] at h
    split at h <;> cases h
    · exact Or.inl rfl
    · exact Or.inr rfl) (rel _ (Or.inr (Or.inl rfl))) more
  have test2 := fork .hTest2 .hStop .hSleep rfl rfl nofun (by
    intro s t y c h
    simp only [run] at h
    split at h <;> cases h
    · exact Or.inl rfl
    · exact Or.inr rfl) stop (rel _ (Or.inr (Or.inr rfl)))
  have test := fork .hTest .hStop .hTest2 rfl rfl nofun (by
    intro s t y c h
    simp only [run] at h
    split at h <;> cases h
    · exact Or.inl rfl
    · exact Or.inr rfl) stop test2
  intro n hn
  obtain ⟨x, hx⟩ := (hF n).handler
  have hl := (hF n).inv.loc 0 x hx
  have hm := hl.mutex rfl
  rw [hn] at hm
  cases x with
  | hTest => exact test n hx
  | hTest2 => exact test2 n hx
  | hSleep => exact rel _ (Or.inr (Or.inr rfl)) n hx
  | hStop => exact stop n hx
  | hMore => exact more n hx
  | hDec => exact dec n hx
  | hCb => exact cb n hx
  | hCall rest => exact call rest n hx
  | hUnlock => exact rel _ (Or.inl rfl) n hx
  | hBreak => exact rel _ (Or.inr (Or.inl rfl)) n hx
  | _ => cases hm

/-- Once the flag is set it stays set. -/
theorem stop_stable : ∀ (s : Conf (prog C)) (l : Label (Op C)) (s' : Conf (prog C)), Full s → s.sh.stop = true →
    (prog C).Stepped s l s' → s'.sh.stop = true := by
  intro s l s' hF h hs
  rcases Prog.stepped_sh hs with e | ⟨i, x, y, b, -, hx, hr⟩
  · rw [e]; exact h
  · have hr : run i s.sh x = some (s'.sh, y, b) := hr
    have hl := hF.inv.loc i x hx
    cases hh : x.handler with
    | true =>
      have := eq_zero hl hh
      subst this
      rw [(handler_run hh hl hr).2.1]
      exact h
    | false => exact client_stop (client_run hh hr).1 h

/-- Once the flag is set the handler thread finishes. -/
theorem thread_ends : e.LeadsTo (fun s => s.sh.stop = true) (fun s => s.sh.ended = true) := by
  let F : Conf (prog C) → Prop := fun s => s.sh.ended = true
  let K : Conf (prog C) → Prop := fun s => s.sh.stop = true
  have keep : ∀ (Q : Conf (prog C) → Prop) (s : Conf (prog C)) (l : Label (Op C)) (s' : Conf (prog C)),
      Full s → Full s' → K s → (prog C).Stepped s l s' → l ≠ .run 0 → K s' ∨ Q s' :=
    fun Q s l s' h1 _ h3 h4 _ => Or.inl (stop_stable e hf hF s l s' h1 h3 h4)
  -- a step to a known place
  have go : ∀ x : PC C, x.act = true → x.handler = true → x ≠ .hEnd →
      (∀ (s t : Sh C) y c, s.stop = true → run 0 s x = some (t, y, c) → t.stop = true ∧
        (t.ended = true ∨ e.LeadsTo (fun s => s.pcs[0]? = some y ∧ K s) F)) →
      e.LeadsTo (fun s => s.pcs[0]? = some x ∧ K s) F := by
    intro x h1 h2 h3 h4
    refine (hstep e hf hF x h1 h2 h3 K (fun s => ∃ y, (s.pcs[0]? = some y ∧ K s) ∧
      (s.sh.ended = true ∨ e.LeadsTo (fun s => s.pcs[0]? = some y ∧ K s) F)) (keep _) ?_).trans ?_
    · intro s s' y b _ _ hK hr hy
      obtain ⟨h5, h6⟩ := h4 _ _ _ _ hK hr
      exact ⟨y, ⟨hy, h5⟩, h6⟩
    · rintro n ⟨y, h5, h6 | h6⟩
      · exact ⟨n, Nat.le_refl n, h6⟩
      · exact h6 n h5
  have brk := go .hBreak rfl rfl nofun (by
    intro s t y c hs hr
    cases hr
    exact ⟨hs, Or.inl rfl⟩)
  have loop := go .hLoop rfl rfl nofun (by
    intro s t y c hs hr
    simp only [run, hs] at hr
    cases hr
    exact ⟨rfl, Or.inl rfl⟩)
  have unlock := go .hUnlock rfl rfl nofun (by
    intro s t y c hs hr
    cases hr
    exact ⟨hs, Or.inr loop⟩)
  have call : ∀ rest : List (Nat × C), e.LeadsTo (fun s => s.pcs[0]? = some (.hCall rest) ∧ K s) F := by
    intro rest
    induction rest with
    | nil =>
      refine go _ rfl rfl nofun ?_
      intro s t y c hs hr
      cases hr
      exact ⟨hs, Or.inr unlock⟩
    | cons p rest ih =>
      refine go _ rfl rfl nofun ?_
      intro s t y c hs hr
      cases hr
      exact ⟨hs, Or.inr ih⟩
  have cb := go .hCb rfl rfl nofun (by
    intro s t y c hs hr
    simp only [run] at hr
    split at hr <;> cases hr
    exact ⟨hs, Or.inr (call _)⟩)
  have dec := go .hDec rfl rfl nofun (by
    intro s t y c hs hr
    simp only [run, Option.some.injEq, Prod.mk.injEq] at hr
    obtain ⟨rfl, rfl, -⟩ := hr
    exact ⟨hs, Or.inr cb⟩)
  have more := go .hMore rfl rfl nofun (by
    intro s t y c hs hr
    simp only [run] at hr
    split at hr <;> cases hr
    · exact ⟨hs, Or.inr dec⟩
    · exact ⟨hs, Or.inr unlock⟩)
  have stop := go .hStop rfl rfl nofun (by
    intro s t y c hs hr
    simp only [run, hs] at hr
    cases hr
    exact ⟨hs, Or.inr brk⟩)
  have test2 := go .hTest2 rfl rfl nofun (by
    intro s t y c hs hr
    simp only [run, hs] at hr
    cases hr
    exact ⟨hs, Or.inr stop⟩)
  have test := go .hTest rfl rfl nofun (by
    intro s t y c hs hr
    simp only [run] at hr
    split at hr <;> cases hr
    · exact ⟨hs, Or.inr stop⟩
    · exact ⟨hs, Or.inr test2⟩)
  have lock := go .hLock rfl rfl nofun (by
    intro s t y c hs hr
    simp only [run] at hr
    split at hr <;> cases hr
    exact ⟨hs, Or.inr test⟩)
  have ready := go .hReady rfl rfl nofun (by
    intro s t y c hs hr
    simp only [run] at hr
    split at hr <;> cases hr
    exact ⟨hs, Or.inr test⟩)
  have asleep : e.LeadsTo (fun s => s.pcs[0]? = some .asleep ∧ K s) F := by
    intro n hn
    rcases (hF n).sleep 0 _ hn.1 rfl with h | ⟨k, w, hk, rfl⟩
    · have : (e.at_ n).sh.stop = true := hn.2
      rw [h] at this
      cases this
    · have hk0 : 0 ≠ k := by
        rintro rfl
        rw [hn.1] at hk
        cases hk
      have step : e.LeadsTo (fun s => s.pcs[k]? = some .dNotify ∧ (s.pcs[0]? = some .asleep ∧ K s))
          (fun s => s.pcs[0]? = some .hReady ∧ K s) := by
        refine Prog.runs' e hf Full hF k .dNotify (active rfl) _ _ ?_ (fun _ _ _ _ => rfl) ?_
        · intro s l s' h1 h2 _ h4 h5 _
          have h6 := stop_stable e hf hF s l s' h1 h4.2 h5
          rcases Prog.frame_sleep h5 h4.1 (y := .hReady) rfl (fun op => by cases op <;> rfl) (fun _ => rfl) with
            h | h | ⟨z, h, -⟩
          · exact Or.inl ⟨h, h6⟩
          · exact Or.inr ⟨h, h6⟩
          · cases h
        · intro s s' h1 h2 h3 h4 h5
          obtain ⟨z, hz⟩ := h2.handler
          obtain ⟨w, hw, rfl⟩ := Prog.stepped_notify h5 h3 (y := .dJoin) (sh := s.sh) rfl hk0 hz
          rw [h4.1] at hw
          cases hw
          exact ⟨hz, stop_stable e hf hF s _ s' h1 h4.2 h5⟩
      exact (step.trans ready) n ⟨hk, hn⟩
  intro n hn
  obtain ⟨x, hx⟩ := (hF n).handler
  have hl := (hF n).inv.loc 0 x hx
  cases x with
  | hLoop => exact loop n ⟨hx, hn⟩
  | hLock => exact lock n ⟨hx, hn⟩
  | hTest => exact test n ⟨hx, hn⟩
  | hTest2 => exact test2 n ⟨hx, hn⟩
  | hSleep =>
    have := hl.sleep rfl
    rw [this] at hn
    cases hn
  | asleep => exact asleep n ⟨hx, hn⟩
  | hReady => exact ready n ⟨hx, hn⟩
  | hStop => exact stop n ⟨hx, hn⟩
  | hMore => exact more n ⟨hx, hn⟩
  | hDec => exact dec n ⟨hx, hn⟩
  | hCb => exact cb n ⟨hx, hn⟩
  | hCall rest => exact call rest n ⟨hx, hn⟩
  | hUnlock => exact unlock n ⟨hx, hn⟩
  | hBreak => exact brk n ⟨hx, hn⟩
  | hEnd => exact ⟨n, Nat.le_refl n, hl.ended rfl⟩
  | _ => have := hl.role; cases this

end Liveness

end Verif.SignalManager
