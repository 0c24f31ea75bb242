import Verif.Lemmas.EventHandlerLive
/-!
C46, C47, C48, C79: `EventHandler`.
-/
namespace Verif.EventHandler
open Verif.Threads
open Verif.Spec.EventHandler (Call)

variable {C A : Type}

/-! ### C46 -/

/-- C46: at any moment of any execution with any number of threads, the calls of the callback made so far
are those of the calls that took effect, executed one after the other (plus one that is being executed and
not counted yet), never of the default callback, and the number of events is the one of the sequential
history as long as there are fewer than 2^32 events. -/
theorem C46_refines (n : Nat) (s : Conf (prog C A))
    (hr : (prog C A).system.Reachable (init C A n) s) :
    (s.sh.calls = (Spec.EventHandler.run (s.sh.hist.map Prod.snd)).calls.map (fun p => (some p.1, p.2)) ∨
      ∃ (i : Nat) (a : A) (c : C), (s.pcs[i]? = some (.evIn a) ∨ s.pcs[i]? = some (.evCount a)) ∧
        (Spec.EventHandler.run (s.sh.hist.map Prod.snd)).callback = some c ∧
        s.sh.calls = (Spec.EventHandler.run (s.sh.hist.map Prod.snd)).calls.map (fun p => (some p.1, p.2)) ++
          [(some c, a)]) ∧
    (s.sh.hist.countP (fun | (_, .event _) => true | _ => false) < 2 ^ 32 →
      s.sh.count = (Spec.EventHandler.run (s.sh.hist.map Prod.snd)).count) := by
  have hF := full_reachable hr
  have hI := hF.inv
  constructor
  · cases hi : s.sh.internal with
    | none => exact Or.inl (hI.glob.glob.calls hi)
    | some k =>
      have hk := hF.mem.2 k hi
      have hg : s.pcs[k]? = some s.pcs[k] := List.getElem?_eq_getElem hk
      generalize s.pcs[k] = x at hg
      have hl := (hI.loc k _ hg).loc
      have hc := hl.calls (hl.internal.2 hi)
      have pend : ∀ a, x.pend = some a → x.on = true → x.holdsE ≠ x.holdsI →
          ∃ c, (abs s.sh).callback = some c ∧
          s.sh.calls = (abs s.sh).calls.map (fun p => (some p.1, p.2)) ++ [(some c, a)] := by
        intro a ha hon hne
        have hlink := link_of hI.glob.glob hl hne
        rw [hl.on hon] at hlink
        obtain ⟨c, hcb⟩ := Option.isSome_iff_exists.1 hlink.2.symm
        refine ⟨c, hcb, ?_⟩
        rw [hc, ha, hcb]
      cases x with
      | evIn a =>
        obtain ⟨c, h1, h2⟩ := pend a rfl rfl nofun
        exact Or.inr ⟨k, a, c, Or.inl hg, h1, h2⟩
      | evCount a =>
        obtain ⟨c, h1, h2⟩ := pend a rfl rfl nofun
        exact Or.inr ⟨k, a, c, Or.inr hg, h1, h2⟩
      | _ => exact Or.inl (hc.trans (List.append_nil _))
  · intro h
    exact hI.glob.glob.count h

/-- The effect that the call executed by a thread still has to have. -/
def PC.todo : PC C A → List (Call C A)
  | .setEvent c | .setInternal c | .setFlag c | .setStore c => [.set c]
  | .unsetEvent | .unsetTest | .unsetInternal | .unsetFlag => [.unset]
  | .evInternal a | .evTest a | .evIn a | .evCount a => [.event a]
  | .reset => [.reset]
  | .decrement => [.decrement]
  | _ => []

/-- The effects of thread `i`. -/
def mine (i : Nat) (s : Sh C A) : List (Call C A) := (s.hist.filter (fun p => p.1 == i)).map Prod.snd

theorem run_todo {s s' : Sh C A} {i : Nat} {x y : PC C A} {b : Bool} (h : run i s x = some (s', y, b)) :
    (s'.hist = s.hist ∧ y.todo = x.todo) ∨ ∃ c, s'.hist = s.hist ++ [(i, c)] ∧ x.todo = [c] ∧ y.todo = [] := by
  cases x <;> simp only [run] at h <;> (repeat' split at h) <;> cases h <;>
    first
      | exact Or.inl ⟨rfl, rfl⟩
      | exact Or.inr ⟨_, rfl, rfl, rfl⟩
      | (split <;> exact Or.inl ⟨rfl, rfl⟩)

theorem wake_todo (x : PC C A) : ((prog C A).wake x).todo = x.todo := by cases x <;> rfl

theorem todo_step {s s' : Conf (prog C A)} {l : Label (Op C A)} (hs : (prog C A).Stepped s l s') {i : Nat}
    (hl : ∀ op, l ≠ .start i op) {x : PC C A} (hx : s.pcs[i]? = some x) :
    ∃ y, s'.pcs[i]? = some y ∧ mine i s'.sh ++ y.todo = mine i s.sh ++ x.todo := by
  obtain ⟨y, hy, h⟩ := Prog.track hs hx
  refine ⟨y, hy, ?_⟩
  rcases h with ⟨op, h, -⟩ | ⟨-, b, h⟩ | ⟨-, h1, h2⟩
  · exact absurd h (hl op)
  · have h : run i s.sh x = some (s'.sh, y, b) := h
    rcases run_todo h with ⟨h, h'⟩ | ⟨c, h, h1, h2⟩
    · simp only [mine, h, h']
    · simp [mine, h, List.filter_append, h1, h2]
  · have ht : y.todo = x.todo := by
      rcases h1 with h | h | h
      · rw [h]
      · obtain ⟨n, rfl, rfl⟩ := woken_spec h
        rfl
      · cases h
    rw [ht]
    congr 1
    rcases h2 with h | ⟨k, w, z, b, hk, -, -, h⟩
    · rw [h]
    · have h : run k s.sh w = some (s'.sh, z, b) := h
      rcases run_todo h with ⟨h, -⟩ | ⟨c, h, -⟩
      · simp only [mine, h]
      · have : (k == i) = false := by simpa using hk
        simp [mine, h, List.filter_append, this]

theorem todo_exec {i : Nat} (ls : List (Label (Op C A))) (hls : ∀ l ∈ ls, ∀ op, l ≠ .start i op)
    {s s' : Conf (prog C A)} (he : (prog C A).system.exec s ls = some s') {x : PC C A}
    (hx : s.pcs[i]? = some x) :
    ∃ y, s'.pcs[i]? = some y ∧ mine i s'.sh ++ y.todo = mine i s.sh ++ x.todo :=
  Prog.exec_keep (P := prog C A) (fun t y => mine i t.sh ++ y.todo = mine i s.sh ++ x.todo) i
    (fun _ _ _ _ hs hl hx h => by
      obtain ⟨y, hy, e⟩ := todo_step hs hl hx
      exact ⟨y, hy, e.trans h⟩) ls hls he hx rfl

/-- C46: from its start to its return a call takes effect exactly once, with its own arguments; waiting and
reading the count have no effect.  (So the order in which calls take effect is an order of the calls in
which a call that returned before another started comes first.) -/
theorem C46_once (s0 s1 s : Conf (prog C A)) (i : Nat) (op : Op C A)
    (hc : (prog C A).system.step s0 (.start i op) = some s1)
    (ls : List (Label (Op C A))) (hls : ∀ l ∈ ls, ∀ op, l ≠ .start i op)
    (he : (prog C A).system.exec s1 ls = some s) (r : Ret) (hret : s.pcs[i]? = some (.idle r)) :
    (s.sh.hist.filter (fun p => p.1 == i)).map Prod.snd =
      (s0.sh.hist.filter (fun p => p.1 == i)).map Prod.snd ++
      (match op with
        | .setCallback c => [.set c]
        | .unsetCallback => [.unset]
        | .event a => [.event a]
        | .reset => [.reset]
        | .decrement => [.decrement]
        | .wait _ => []
        | .eventCount => []) := by
  obtain ⟨x, y, hx, hy, e0, hx1⟩ := Prog.stepped_start (Prog.step_stepped hc)
  obtain ⟨z, hz, e⟩ := todo_exec ls hls he hx1
  have hz := hret.symm.trans hz
  cases hz
  refine (List.append_nil _).symm.trans (e.trans ?_)
  rw [e0]
  show mine i s0.sh ++ y.todo = _
  obtain ⟨⟨q, rfl⟩, -⟩ := start_idle hy
  cases op <;> cases hy <;> rfl

/-- C46: `event_count` returns the number of events registered. -/
theorem C46_count (s s' : Conf (prog C A)) (i k : Nat)
    (hs : (prog C A).system.step s (.run i) = some s')
    (hret : s'.pcs[i]? = some (.idle (.count k))) : k = s.sh.count := by
  have hst := Prog.step_stepped hs
  obtain ⟨x, hx⟩ := Prog.stepped_at hst
  obtain ⟨sh, y, b, hr, -, hy⟩ := Prog.stepped_run hst hx
  have hr' : run i s.sh x = some (sh, y, b) := hr
  rw [hret] at hy
  have hy : PC.idle (.count k) = y := Option.some.inj hy
  subst hy
  cases x with
  | readCount => simp only [run] at hr'; cases hr'; rfl
  | _ =>
    simp only [run] at hr'
    (repeat' split at hr') <;> simp_all

/-- Non-trivial case: two threads and the main one; the first event finds no callback, the second one
calls the callback set, the third one the callback that replaced it. -/
example : ∃ s : Conf (prog Nat Nat), (prog Nat Nat).system.Reachable (init Nat Nat 2) s ∧
    s.sh.calls = [(some 7, 2), (some 8, 3)] ∧ s.sh.count = 1 ∧
    s.sh.hist.map Prod.snd = [.event 1, .set 7, .event 2, .set 8, .reset, .event 3] :=
  ⟨_, (prog Nat Nat).system.exec_reachable'
    [.start 0 (.event 1), .start 1 (.setCallback 7), .run 0, .run 0, .run 0, .run 0, .run 1, .run 1,
      .run 1, .run 1, .run 1, .start 0 (.event 2), .run 0, .run 0, .run 0, .run 0, .run 0, .run 0,
      .start 1 (.setCallback 8), .run 1, .run 1, .run 1, .run 1, .run 1, .start 0 (.event 3), .run 0, .run 0,
      .start 1 .reset, .run 1, .run 0, .run 0] rfl, rfl, rfl, rfl⟩

/-- Non-trivial case for `C46_once`: an event on thread 0 while thread 1 sets a callback. -/
example : ∃ s0 s1 s : Conf (prog Nat Nat),
    (prog Nat Nat).system.step s0 (.start 0 (.event 1)) = some s1 ∧
    (prog Nat Nat).system.exec s1 [.start 1 (.setCallback 7), .run 1, .run 0, .run 0, .run 0, .run 0, .run 1] =
      some s ∧ s.pcs[0]? = some (.idle .void) ∧ s.sh.hist = [(0, .event 1)] :=
  ⟨init Nat Nat 2, _, _, rfl, rfl, rfl, rfl⟩

/-- Non-trivial case for `C46_count`. -/
example : ∃ s s' : Conf (prog Nat Nat),
    (prog Nat Nat).system.step s (.run 0) = some s' ∧ s'.pcs[0]? = some (.idle (.count 3)) :=
  ⟨⟨⟨true, some 1, 3, 0, none, none, [], []⟩, [.readCount]⟩, _, rfl, rfl⟩

/-! ### C47 -/

/-- C47: when no thread is about to notify (after an event or in `unset_callback`), a thread asleep in
`wait_for_event(n)` waits for something: the callback is set and fewer than `n` events are registered. -/
theorem C47_no_lost_wakeup (n : Nat) (s : Conf (prog C A))
    (hr : (prog C A).system.Reachable (init C A n) s)
    (hq : ∀ (k : Nat) (w : PC C A), s.pcs[k]? = some w →
      w ≠ .evNotify ∧ w ≠ .unsetStore ∧ w ≠ .unsetHook ∧ w ≠ .unsetNotify)
    (j m : Nat) (hj : s.pcs[j]? = some (.asleep m)) : s.sh.set = true ∧ s.sh.count < m := by
  rcases (full_reachable hr).sleep j _ hj rfl with h | ⟨k, w, hk, hw⟩
  · have := h m rfl
    simp only [awake, Bool.or_eq_false_iff, decide_eq_false_iff_not, Bool.not_eq_false'] at this
    exact ⟨this.2, by omega⟩
  · obtain ⟨h1, h2, h3, h4⟩ := hq k w hk
    cases w with
    | evNotify => exact absurd rfl h1
    | unsetStore => exact absurd rfl h2
    | unsetHook => exact absurd rfl h3
    | unsetNotify => exact absurd rfl h4
    | _ => cases hw

/-- The number of events a thread waits for. -/
def PC.target : PC C A → Option Nat
  | .waitTest n | .waitLock n | .asleep n | .ready n | .waitRet n => some n
  | _ => none

/-- C47: under fair scheduling a thread in `wait_for_event(n)` returns once `n` events are registered or the
callback is unset, unless that ceases to hold before. -/
theorem C47_wakes (n : Nat) (e : (prog C A).system.Execution) (hf : e.Fair)
    (h0 : (prog C A).system.Reachable (init C A n) (e.at_ 0)) (i m : Nat) :
    e.LeadsTo
      (fun s => (∃ x : PC C A, s.pcs[i]? = some x ∧ x.target = some m) ∧ (m ≤ s.sh.count ∨ s.sh.set = false))
      (fun s => (∃ b, s.pcs[i]? = some (.idle (.waited b))) ∨ ¬ (m ≤ s.sh.count ∨ s.sh.set = false)) := by
  have hF : ∀ k, Full (e.at_ k) := fun k => full_reachable (e.reachable h0 k)
  have hK : ∀ s : Conf (prog C A), (m ≤ s.sh.count ∨ s.sh.set = false) → awake s.sh m = true := by
    intro s h
    simp only [awake, Bool.or_eq_true, decide_eq_true_eq, Bool.not_eq_true']
    exact h
  have kp : ∀ s : Conf (prog C A), (m ≤ s.sh.count ∨ s.sh.set = false) ∨
      ((∃ b, s.pcs[i]? = some (.idle (.waited b))) ∨ ¬ (m ≤ s.sh.count ∨ s.sh.set = false)) := by
    intro s
    by_cases h : m ≤ s.sh.count ∨ s.sh.set = false
    · exact Or.inl h
    · exact Or.inr (Or.inr h)
  let Q : Conf (prog C A) → Prop := fun s =>
    (∃ b, s.pcs[i]? = some (.idle (.waited b))) ∨ ¬ (m ≤ s.sh.count ∨ s.sh.set = false)
  have ret : e.LeadsTo (fun s => s.pcs[i]? = some (.waitRet m)) Q := by
    refine free_step e hf hF i (.waitRet m) (active rfl) Q (fun s => rfl) ?_
    intro s s' _ _ hx hs
    obtain ⟨sh, z, b, hr, -, hz⟩ := Prog.stepped_run hs hx
    change run i s.sh (.waitRet m) = _ at hr
    cases hr
    exact Or.inl ⟨_, hz⟩
  have goto : ∀ x : PC C A, x.act = true →
      (∀ s : Sh C A, awake s m = true → ∃ s', run i s x = some (s', .waitRet m, false)) →
      e.LeadsTo (fun s => s.pcs[i]? = some x ∧ (m ≤ s.sh.count ∨ s.sh.set = false)) Q := by
    intro x hx h
    have hor : e.LeadsTo (fun s => s.pcs[i]? = some (.waitRet m) ∨ Q s) Q := .or ret (.refl e fun _ h => h)
    refine (Prog.runs' e hf Full hF i x (active hx) (fun s => m ≤ s.sh.count ∨ s.sh.set = false)
      (fun s => s.pcs[i]? = some (.waitRet m) ∨ Q s) ?_ ?_ ?_).trans hor
    · intro s l s' _ _ _ _ _ _
      rcases kp s' with h | h
      · exact Or.inl h
      · exact Or.inr (Or.inr h)
    · intro s _ _ hk
      obtain ⟨s', h⟩ := h s.sh (hK s hk)
      show (run i s.sh x).isSome
      rw [h]
      rfl
    · intro s s' _ _ hx hk hs
      obtain ⟨sh, z, b, hr, -, hz⟩ := Prog.stepped_run hs hx
      obtain ⟨s1, h⟩ := h s.sh (hK s hk)
      have := h.symm.trans hr
      cases this
      exact Or.inl hz
  have rdy := goto (.ready m) rfl (fun s h => ⟨_, by simp only [run, h]; rfl⟩)
  have lck := goto (.waitLock m) rfl (fun s h => ⟨_, by simp only [run, h]; rfl⟩)
  have tst : e.LeadsTo (fun s => s.pcs[i]? = some (.waitTest m) ∧ (m ≤ s.sh.count ∨ s.sh.set = false)) Q := by
    have hor : e.LeadsTo (fun s => (s.pcs[i]? = some (.waitLock m) ∧ (m ≤ s.sh.count ∨ s.sh.set = false)) ∨
        (s.pcs[i]? = some (.waitRet m) ∨ Q s)) Q := .or lck (.or ret (.refl e fun _ h => h))
    refine (Prog.runs' e hf Full hF i (.waitTest m) (active rfl) (fun s => m ≤ s.sh.count ∨ s.sh.set = false)
      _ ?_ (fun s _ _ _ => rfl) ?_).trans hor
    · intro s l s' _ _ _ _ _ _
      rcases kp s' with h | h
      · exact Or.inl h
      · exact Or.inr (Or.inr (Or.inr h))
    · intro s s' _ _ hx hk hs
      obtain ⟨sh, z, b, hr, -, hz⟩ := Prog.stepped_run hs hx
      change run i s.sh (.waitTest m) = _ at hr
      simp only [run] at hr
      split at hr <;> cases hr
      · rcases kp s' with h | h
        · exact Or.inl ⟨hz, h⟩
        · exact Or.inr (Or.inr h)
      · exact Or.inr (Or.inl hz)
  -- a sleeping thread is notified
  have slp : e.LeadsTo (fun s => s.pcs[i]? = some (.asleep m) ∧ (m ≤ s.sh.count ∨ s.sh.set = false)) Q := by
    have hor : e.LeadsTo (fun s => (s.pcs[i]? = some (.ready m) ∧ (m ≤ s.sh.count ∨ s.sh.set = false)) ∨
        Q s) Q := .or rdy (.refl e fun _ h => h)
    have stay : ∀ (s s' : Conf (prog C A)) (l : Label (Op C A)), (prog C A).Stepped s l s' →
        s.pcs[i]? = some (.asleep m) →
        (s'.pcs[i]? = some (.asleep m) ∧ (m ≤ s'.sh.count ∨ s'.sh.set = false)) ∨
        ((s'.pcs[i]? = some (.ready m) ∧ (m ≤ s'.sh.count ∨ s'.sh.set = false)) ∨ Q s') := by
      intro s s' l hs hx
      rcases kp s' with h | h
      · rcases Prog.frame_sleep hs hx (y := .ready m) rfl (fun op => by cases op <;> rfl) (fun _ => rfl) with
          h1 | h1 | ⟨z, h1, -⟩
        · exact Or.inl ⟨h1, h⟩
        · exact Or.inr (Or.inl ⟨h1, h⟩)
        · cases h1
      · exact Or.inr (Or.inr h)
    -- thread `k` on its way to a notification
    have free : ∀ (k : Nat) (x : PC C A), x.act = true → (∀ s : Sh C A, (run k s x).isSome) →
        ∀ R : Conf (prog C A) → Prop,
        (∀ s s' : Conf (prog C A), s.pcs[k]? = some x → (prog C A).Stepped s (.run k) s' →
          (s'.pcs[i]? = some (.asleep m) ∧ (m ≤ s'.sh.count ∨ s'.sh.set = false)) → R s') →
        e.LeadsTo (fun s => s.pcs[k]? = some x ∧
          (s.pcs[i]? = some (.asleep m) ∧ (m ≤ s.sh.count ∨ s.sh.set = false)))
          (fun s => R s ∨ ((s.pcs[i]? = some (.ready m) ∧ (m ≤ s.sh.count ∨ s.sh.set = false)) ∨ Q s)) := by
      intro k x hx hab R hR
      refine Prog.runs' e hf Full hF k x (active hx) _ _ ?_ (fun s _ _ _ => hab s.sh) ?_
      · intro s l s' _ _ _ hk hs _
        rcases stay s s' l hs hk.1 with h | h
        · exact Or.inl h
        · exact Or.inr (Or.inr h)
      · intro s s' _ _ hx hk hs
        rcases stay s s' _ hs hk.1 with h | h
        · exact Or.inl (hR s s' hx hs h)
        · exact Or.inr h
    have ntf : ∀ (k : Nat) (x : PC C A), x = .evNotify ∨ x = .unsetNotify →
        e.LeadsTo (fun s => s.pcs[k]? = some x ∧
          (s.pcs[i]? = some (.asleep m) ∧ (m ≤ s.sh.count ∨ s.sh.set = false))) Q := by
      intro k x hx
      refine (free k x (by rcases hx with rfl | rfl <;> rfl) (by rcases hx with rfl | rfl <;> exact fun _ => rfl)
        (fun _ => False) ?_).trans (.or (.refl e fun _ h => h.elim) hor)
      intro s s' hk hs h
      have hr : ∃ sh y, run k s.sh x = some (sh, y, true) ∧ y ≠ .asleep m := by
        rcases hx with rfl | rfl <;> exact ⟨_, _, rfl, nofun⟩
      obtain ⟨sh, y, hr, hy⟩ := hr
      have hki : i ≠ k := by
        rintro rfl
        obtain ⟨sh', z, b, hr', -, hz⟩ := Prog.stepped_run hs hk
        have := hr.symm.trans hr'
        cases this
        exact hy (Option.some.inj (hz.symm.trans h.1))
      obtain ⟨w, -, hw⟩ := Prog.stepped_notify hs hk hr hki h.1
      cases w <;> cases hw
    have hook : ∀ k : Nat, e.LeadsTo (fun s => s.pcs[k]? = some .unsetHook ∧
        (s.pcs[i]? = some (.asleep m) ∧ (m ≤ s.sh.count ∨ s.sh.set = false))) Q := by
      intro k
      refine (free k .unsetHook rfl (fun _ => rfl) (fun s => s.pcs[k]? = some .unsetNotify ∧
        (s.pcs[i]? = some (.asleep m) ∧ (m ≤ s.sh.count ∨ s.sh.set = false))) ?_).trans
        (.or (ntf k _ (Or.inr rfl)) hor)
      intro s s' hk hs h
      obtain ⟨sh, z, b, hr, -, hz⟩ := Prog.stepped_run hs hk
      change run k s.sh .unsetHook = _ at hr
      cases hr
      exact ⟨hz, h⟩
    have store : ∀ k : Nat, e.LeadsTo (fun s => s.pcs[k]? = some .unsetStore ∧
        (s.pcs[i]? = some (.asleep m) ∧ (m ≤ s.sh.count ∨ s.sh.set = false))) Q := by
      intro k
      refine (free k .unsetStore rfl (fun _ => rfl) (fun s => s.pcs[k]? = some .unsetHook ∧
        (s.pcs[i]? = some (.asleep m) ∧ (m ≤ s.sh.count ∨ s.sh.set = false))) ?_).trans
        (.or (hook k) hor)
      intro s s' hk hs h
      obtain ⟨sh, z, b, hr, -, hz⟩ := Prog.stepped_run hs hk
      change run k s.sh .unsetStore = _ at hr
      cases hr
      exact ⟨hz, h⟩
    intro t ht
    rcases (hF t).sleep i _ ht.1 rfl with h | ⟨k, w, hk, hw⟩
    · have h1 := h m rfl
      rw [hK _ ht.2] at h1
      cases h1
    · cases w with
      | evNotify => exact ntf k _ (Or.inl rfl) t ⟨hk, ht⟩
      | unsetNotify => exact ntf k _ (Or.inr rfl) t ⟨hk, ht⟩
      | unsetHook => exact hook k t ⟨hk, ht⟩
      | unsetStore => exact store k t ⟨hk, ht⟩
      | _ => cases hw
  intro t ht
  obtain ⟨⟨x, hx, hm⟩, hc⟩ := ht
  cases x with
  | waitTest k => cases hm; exact tst t ⟨hx, hc⟩
  | waitLock k => cases hm; exact lck t ⟨hx, hc⟩
  | asleep k => cases hm; exact slp t ⟨hx, hc⟩
  | ready k => cases hm; exact rdy t ⟨hx, hc⟩
  | waitRet k => cases hm; exact ret t hx
  | _ => cases hm

theorem run_target {s s' : Sh C A} {i m : Nat} {x y : PC C A} {b : Bool}
    (h : run i s x = some (s', y, b)) (hm : x.target = some m ∨ ∃ r, x = .idle r) :
    y.target = some m ∨ ∃ r, y = .idle r := by
  rcases hm with hm | ⟨r, rfl⟩
  · cases x <;> (try (cases hm; done)) <;> simp only [run] at h <;> (repeat' split at h) <;> cases h <;>
      first
        | exact Or.inl hm
        | exact Or.inr ⟨_, rfl⟩
        | (split <;> exact Or.inl hm)
  · cases h

theorem target_exec {i m : Nat} (ls : List (Label (Op C A))) (hls : ∀ l ∈ ls, ∀ op, l ≠ .start i op)
    {s s' : Conf (prog C A)} (he : (prog C A).system.exec s ls = some s') {x : PC C A}
    (hx : s.pcs[i]? = some x) (hm : x.target = some m) :
    ∃ y, s'.pcs[i]? = some y ∧ (y.target = some m ∨ ∃ r, y = .idle r) :=
  Prog.exec_keep (P := prog C A) (fun _ y => y.target = some m ∨ ∃ r, y = .idle r) i
    (fun s l s' x hs hl hx h => by
      obtain ⟨y, hy, h'⟩ := Prog.track hs hx
      refine ⟨y, hy, ?_⟩
      rcases h' with ⟨op, h', -⟩ | ⟨-, b, h'⟩ | ⟨-, h1, h2⟩
      · exact absurd h' (hl op)
      · exact run_target (C := C) (A := A) h' h
      · rcases h1 with h1 | h1 | h1
        · rw [h1]; exact h
        · obtain ⟨n, rfl, rfl⟩ := woken_spec h1
          rcases h with h | ⟨r, h⟩
          · exact Or.inl h
          · cases h
        · cases h1) ls hls he hx (Or.inl hm)

theorem waited_from {s s' : Conf (prog C A)} {i : Nat} {b : Bool}
    (hst : (prog C A).Stepped s (.run i) s') (hret : s'.pcs[i]? = some (.idle (.waited b))) :
    ∃ m, s.pcs[i]? = some (.waitRet m) ∧ b = decide (m ≤ s.sh.count) := by
  obtain ⟨x, hx⟩ := Prog.stepped_at hst
  obtain ⟨sh, y, c, hr, -, hy⟩ := Prog.stepped_run hst hx
  have hr' : run i s.sh x = some (sh, y, c) := hr
  rw [hret] at hy
  have hy : PC.idle (.waited b) = y := Option.some.inj hy
  subst hy
  cases x with
  | waitRet m =>
    simp only [run] at hr'
    cases hr'
    exact ⟨m, hx, rfl⟩
  | _ =>
    simp only [run] at hr'
    (repeat' split at hr') <;> simp_all

/-- C47: `wait_for_event(n)` returns true exactly when `n` events are registered at the moment it reads the
count. -/
theorem C47_result (s0 s1 s s' : Conf (prog C A)) (i n : Nat)
    (hc : (prog C A).system.step s0 (.start i (.wait n)) = some s1)
    (ls : List (Label (Op C A))) (hls : ∀ l ∈ ls, ∀ op, l ≠ .start i op)
    (he : (prog C A).system.exec s1 ls = some s) (b : Bool)
    (hs : (prog C A).system.step s (.run i) = some s')
    (hret : s'.pcs[i]? = some (.idle (.waited b))) : b = true ↔ n ≤ s.sh.count := by
  obtain ⟨m, hm, rfl⟩ := waited_from (Prog.step_stepped hs) hret
  obtain ⟨x, y, hx, hy, e0, hx1⟩ := Prog.stepped_start (Prog.step_stepped hc)
  obtain ⟨⟨q, rfl⟩, -⟩ := start_idle hy
  cases hy
  obtain ⟨z, hz, ht⟩ := target_exec (m := n) ls hls he hx1 rfl
  have hz := hm.symm.trans hz
  cases hz
  rcases ht with ht | ⟨r, ht⟩
  · cases ht
    simp
  · cases ht

/-- C47: `wait_for_event` ends its wait only because enough events are registered or there is no
callback. -/
theorem C47_leaves (s s' : Conf (prog C A)) (i n : Nat) (x : PC C A) (hx : s.pcs[i]? = some x)
    (hne : x ≠ .waitRet n) (hs : (prog C A).system.step s (.run i) = some s')
    (hret : s'.pcs[i]? = some (.waitRet n)) : n ≤ s.sh.count ∨ s.sh.set = false := by
  obtain ⟨sh, y, c, hr, -, hy⟩ := Prog.stepped_run (Prog.step_stepped hs) hx
  have hr' : run i s.sh x = some (sh, y, c) := hr
  rw [hret] at hy
  have hy : PC.waitRet n = y := Option.some.inj hy
  subst hy
  cases x with
  | waitRet m => simp only [run] at hr'; cases hr'
  | waitTest m =>
    simp only [run] at hr'
    split at hr' <;> cases hr'
    rename_i h
    exact Or.inr (by simpa using h)
  | waitLock m =>
    simp only [run] at hr'
    split at hr' <;> cases hr'
    rename_i h
    simpa [awake] using h
  | ready m =>
    simp only [run] at hr'
    split at hr' <;> cases hr'
    rename_i h
    simpa [awake] using h
  | _ =>
    simp only [run] at hr'
    (repeat' split at hr') <;> simp_all

/-- Non-trivial case for `C47_no_lost_wakeup`, `C47_wakes`: a thread sleeps until the second event. -/
example : ∃ s : Conf (prog Nat Nat), (prog Nat Nat).system.Reachable (init Nat Nat 2) s ∧
    s.pcs[0]? = some (.asleep 2) ∧ s.sh.count = 1 ∧ s.pcs[1]? = some (.idle .void) :=
  ⟨_, (prog Nat Nat).system.exec_reachable'
    [.start 1 (.setCallback 7), .run 1, .run 1, .run 1, .run 1, .run 1, .start 0 (.wait 2), .run 0, .run 0,
      .start 1 (.event 5), .run 1, .run 1, .run 1, .run 1, .run 1, .run 0, .run 1] rfl, rfl, rfl, rfl⟩

/-- Non-trivial case for `C47_result`: the wait is over after the second event. -/
example : ∃ s0 s1 s s' : Conf (prog Nat Nat),
    (prog Nat Nat).system.step s0 (.start 0 (.wait 2)) = some s1 ∧
    (prog Nat Nat).system.exec s1 [.run 0, .run 0, .start 1 (.event 5), .run 1, .run 1, .run 1, .run 1,
      .run 1, .run 0] = some s ∧
    (prog Nat Nat).system.step s (.run 0) = some s' ∧ s'.pcs[0]? = some (.idle (.waited true)) :=
  ⟨⟨⟨true, some 1, 1, 0, none, none, [], []⟩, [.idle .void, .idle .void]⟩, _, _, _, rfl, rfl, rfl, rfl⟩

/-! ### C48 -/

/-- C48: when `unset_callback` returns (and from the end of its loop on) no callback is set or being
executed, and no thread is asleep in `wait_for_event` or about to look at the condition again.  What is
missing: a thread may be on its way into or out of `wait_for_event`, see `C48_negation`. -/
theorem C48_barrier_partial (n : Nat) (s : Conf (prog C A))
    (hr : (prog C A).system.Reachable (init C A n) s) (i : Nat)
    (hi : s.pcs[i]? = some .unsetRelease) :
    s.sh.set = false ∧ (∀ (j : Nat) (a : A), s.pcs[j]? ≠ some (.evIn a) ∧ s.pcs[j]? ≠ some (.evCount a)) ∧
    ∀ j m : Nat, s.pcs[j]? ≠ some (.asleep m) ∧ s.pcs[j]? ≠ some (.ready m) := by
  have hF := full_reachable hr
  have hl := hF.inv.loc i _ hi
  have hset := hl.loc.off rfl
  have hw : s.sh.waiting = 0 := hl.nowait
  refine ⟨hset, ?_, ?_⟩
  · intro j a
    constructor
    · intro h
      have := (hF.inv.loc j _ h).loc.on rfl
      rw [hset] at this
      cases this
    · intro h
      have := (hF.inv.loc j _ h).loc.on rfl
      rw [hset] at this
      cases this
  · intro j m
    have hc : s.sh.waiting = s.pcs.countP PC.inWait := hF.count
    constructor
    · intro h
      have := countP_pos_of_get PC.inWait h rfl
      omega
    · intro h
      have := countP_pos_of_get PC.inWait h rfl
      omega

/-- C48: while no callback is set, no callback is called. -/
theorem C48_silent (s s' : Conf (prog C A)) (l : Label (Op C A)) (hset : s.sh.set = false)
    (hs : (prog C A).system.step s l = some s') : s'.sh.calls = s.sh.calls := by
  rcases Prog.stepped_sh (Prog.step_stepped hs) with h | ⟨i, x, y, b, -, -, hr⟩
  · rw [h]
  · have hr' : run i s.sh x = some (s'.sh, y, b) := hr
    generalize s'.sh = sh' at hr'
    cases x with
    | evTest a =>
      simp only [run, hset] at hr'
      cases hr'
      rfl
    | _ =>
      simp only [run] at hr'
      (repeat' split at hr') <;> cases hr' <;> rfl

/-- C48: the callback is set again only by `set_callback`. -/
theorem C48_until_set (s s' : Conf (prog C A)) (l : Label (Op C A)) (hset : s.sh.set = false)
    (hs : (prog C A).system.step s l = some s') (hset' : s'.sh.set = true) :
    ∃ i c, l = .run i ∧ s.pcs[i]? = some (.setFlag c) := by
  rcases Prog.stepped_sh (Prog.step_stepped hs) with h | ⟨i, x, y, b, hl, hx, hr⟩
  · rw [h, hset] at hset'; cases hset'
  · refine ⟨i, ?_⟩
    have hr' : run i s.sh x = some (s'.sh, y, b) := hr
    generalize s'.sh = sh' at hr' hset'
    cases x with
    | setFlag c => exact ⟨c, hl, hx⟩
    | _ =>
      exfalso
      simp only [run] at hr'
      (repeat' split at hr') <;> cases hr' <;> first
        | (rw [hset] at hset'; cases hset'; done)
        | (cases hset'; done)

/-- C48: under fair scheduling (and with callbacks that return) `unset_callback` returns, whatever the
other threads do; so does `set_callback`. -/
theorem C48_returns (n : Nat) (e : (prog C A).system.Execution) (hf : e.Fair)
    (h0 : (prog C A).system.Reachable (init C A n) (e.at_ 0)) (i : Nat) :
    e.LeadsTo (fun s => s.pcs[i]? = some .unsetEvent) (fun s => s.pcs[i]? = some .unsetRelease) ∧
    e.LeadsTo (fun s => s.pcs[i]? = some .unsetRelease) (fun s => s.pcs[i]? = some (.idle .void)) ∧
    ∀ c, e.LeadsTo (fun s => s.pcs[i]? = some (.setEvent c)) (fun s => s.pcs[i]? = some (.idle .void)) := by
  have hF : ∀ k, Full (e.at_ k) := fun k => full_reachable (e.reachable h0 k)
  refine ⟨?_, ?_, ?_⟩
  · exact (event_taken e hf hF i .unsetEvent .unsetTest rfl (fun s => rfl)).trans
      (unset_ends e hf hF i _ (Or.inl rfl))
  · exact free_goto e hf hF i .unsetRelease (.idle .void) (active rfl) (fun s => ⟨_, _, rfl⟩)
  · intro c
    exact ((event_taken e hf hF i (.setEvent c) (.setInternal c) rfl (fun s => rfl)).trans
      (set_ends e hf hF i _ (Or.inl ⟨c, Or.inl rfl⟩))).trans
      (free_goto e hf hF i .setHook (.idle .void) (active rfl) (fun s => ⟨_, _, rfl⟩))

/-- C48 fails for threads on their way: `unset_callback` can return while a thread that entered
`wait_for_event` before is about to lock `wait_mutex_` (thread 0) and another one is about to read the count
(thread 1); both use members of the handler, which its owner may destroy now. -/
theorem C48_negation : ∃ s : Conf (prog Nat Nat), (prog Nat Nat).system.Reachable (init Nat Nat 3) s ∧
    s.pcs[0]? = some (.waitLock 1) ∧ s.pcs[1]? = some (.waitRet 1) ∧ s.pcs[2]? = some (.idle .void) ∧
    s.sh.set = false ∧ s.sh.hist.map Prod.snd = [.set 7, .unset] :=
  ⟨_, (prog Nat Nat).system.exec_reachable'
    [.start 2 (.setCallback 7), .run 2, .run 2, .run 2, .run 2, .run 2, .start 0 (.wait 1), .run 0,
      .start 1 (.wait 1), .run 1, .run 1, .start 2 .unsetCallback, .run 2, .run 2, .run 2, .run 2, .run 2,
      .run 2, .run 2, .run 1, .run 2, .run 2] rfl, rfl, rfl, rfl, rfl, rfl⟩

/-- Non-trivial case for `C48_barrier_partial`: the state before that return. -/
example : ∃ s : Conf (prog Nat Nat), (prog Nat Nat).system.Reachable (init Nat Nat 3) s ∧
    s.pcs[2]? = some .unsetRelease :=
  ⟨_, (prog Nat Nat).system.exec_reachable'
    [.start 2 (.setCallback 7), .run 2, .run 2, .run 2, .run 2, .run 2, .start 0 (.wait 1), .run 0,
      .start 1 (.wait 1), .run 1, .run 1, .start 2 .unsetCallback, .run 2, .run 2, .run 2, .run 2, .run 2,
      .run 2, .run 2, .run 1, .run 2] rfl, rfl⟩

/-- Non-trivial case for `C48_silent`: an event occurs without a callback. -/
example : ∃ s s' : Conf (prog Nat Nat), s.sh.set = false ∧
    (prog Nat Nat).system.step s (.run 0) = some s' ∧ s.pcs[0]? = some (.evTest 4) :=
  ⟨⟨⟨false, none, 1, 0, none, some 0, [], []⟩, [.evTest 4]⟩, _, rfl, rfl, rfl⟩

/-- Non-trivial case for `C48_until_set`. -/
example : ∃ s s' : Conf (prog Nat Nat), s.sh.set = false ∧
    (prog Nat Nat).system.step s (.run 0) = some s' ∧ s'.sh.set = true :=
  ⟨⟨⟨false, none, 1, 0, some 0, some 0, [], []⟩, [.setFlag 4]⟩, _, rfl, rfl, rfl⟩

/-! ### C79 -/

/-- In `wait_for_event(n)`; when the wait is over, `n` events are registered. -/
def Waits (n : Nat) (s : Sh C A) (x : PC C A) : Prop :=
  x = .waitTest n ∨ x = .waitLock n ∨ x = .asleep n ∨ x = .ready n ∨ (x = .waitRet n ∧ n ≤ s.count)

theorem waits_step {s s' : Conf (prog C A)} {l : Label (Op C A)} (hs : (prog C A).Stepped s l s') {i n : Nat}
    (hl : ∀ op, l ≠ .start i op) (hmono : s.sh.count ≤ s'.sh.count) (hset : s.sh.set = true) {x : PC C A}
    (hx : s.pcs[i]? = some x) (hw : Waits n s.sh x) :
    ∃ y, s'.pcs[i]? = some y ∧ (Waits n s'.sh y ∨ y = .idle (.waited true)) := by
  obtain ⟨y, hy, h⟩ := Prog.track hs hx
  refine ⟨y, hy, ?_⟩
  rcases h with ⟨op, h, -⟩ | ⟨-, b, h⟩ | ⟨-, h1, h2⟩
  · exact absurd h (hl op)
  · have h : run i s.sh x = some (s'.sh, y, b) := h
    have aw : ∀ k, awake s.sh k = true → k ≤ s.sh.count := by
      intro k hk
      simpa [awake, hset] using hk
    generalize s'.sh = sh' at h hmono
    rcases hw with rfl | rfl | rfl | rfl | ⟨rfl, hn⟩
    · simp only [run, hset] at h
      cases h
      exact Or.inl (Or.inr (Or.inl rfl))
    · simp only [run] at h
      split at h <;> cases h
      · rename_i hk
        exact Or.inl (Or.inr (Or.inr (Or.inr (Or.inr ⟨rfl, aw n hk⟩))))
      · exact Or.inl (Or.inr (Or.inr (Or.inl rfl)))
    · cases h
    · simp only [run] at h
      split at h <;> cases h
      · rename_i hk
        exact Or.inl (Or.inr (Or.inr (Or.inr (Or.inr ⟨rfl, aw n hk⟩))))
      · exact Or.inl (Or.inr (Or.inr (Or.inl rfl)))
    · simp only [run] at h
      cases h
      exact Or.inr (by simp [hn])
  · left
    rcases h1 with rfl | h1 | h1
    · rcases hw with h | h | h | h | ⟨h, hn⟩
      · exact Or.inl h
      · exact Or.inr (Or.inl h)
      · exact Or.inr (Or.inr (Or.inl h))
      · exact Or.inr (Or.inr (Or.inr (Or.inl h)))
      · exact Or.inr (Or.inr (Or.inr (Or.inr ⟨h, Nat.le_trans hn hmono⟩)))
    · obtain ⟨m, rfl, rfl⟩ := woken_spec h1
      rcases hw with h | h | h | h | ⟨h, hn⟩ <;> cases h
      exact Or.inr (Or.inr (Or.inr (Or.inl rfl)))
    · cases h1

/-- C79: if the count of events does not decrease during a call of `wait_for_event` that returns false, then
there was a moment during the call at which no callback was set.  What is missing: the hypothesis on the
count, which the documentation does not ask for; see `C79_negation`. -/
theorem C79_false_partial (s0 s1 s : Conf (prog C A)) (i n : Nat)
    (hc : (prog C A).system.step s0 (.start i (.wait n)) = some s1)
    (ls : List (Label (Op C A))) (hls : ∀ l ∈ ls, ∀ op, l ≠ .start i op)
    (he : (prog C A).system.exec s1 ls = some s)
    (hret : s.pcs[i]? = some (.idle (.waited false)))
    (hmono : ∀ ls1 l ls2 t t', ls = ls1 ++ l :: ls2 → (prog C A).system.exec s1 ls1 = some t →
      (prog C A).system.step t l = some t' → t.sh.count ≤ t'.sh.count) :
    ∃ ls1 ls2 t, ls = ls1 ++ ls2 ∧ (prog C A).system.exec s1 ls1 = some t ∧ t.sh.set = false := by
  obtain ⟨x, y, hx, hy, e0, hx1⟩ := Prog.stepped_start (Prog.step_stepped hc)
  obtain ⟨⟨q, rfl⟩, -⟩ := start_idle hy
  cases hy
  clear hc hx e0
  have hw : Waits n s1.sh (.waitTest n : PC C A) := Or.inl rfl
  revert hx1 hw
  generalize (PC.waitTest n : PC C A) = x
  intro hx1 hw
  have gen : ∀ (ls : List (Label (Op C A))) (s1 : Conf (prog C A)) (x : PC C A),
      (∀ l ∈ ls, ∀ op, l ≠ .start i op) → (prog C A).system.exec s1 ls = some s →
      (∀ ls1 l ls2 t t', ls = ls1 ++ l :: ls2 → (prog C A).system.exec s1 ls1 = some t →
        (prog C A).system.step t l = some t' → t.sh.count ≤ t'.sh.count) →
      s1.pcs[i]? = some x → (Waits n s1.sh x ∨ x = .idle (.waited true)) →
      ∃ ls1 ls2 t, ls = ls1 ++ ls2 ∧ (prog C A).system.exec s1 ls1 = some t ∧ t.sh.set = false := by
    intro ls
    induction ls with
    | nil =>
      intro s1 x _ he _ hx hw
      cases he
      have := hret.symm.trans hx
      cases this
      rcases hw with (h | h | h | h | ⟨h, -⟩) | h <;> cases h
    | cons l ls ih =>
      intro s1 x hls he hmono hx hw
      cases hset : s1.sh.set with
      | false => exact ⟨[], _, s1, rfl, rfl, hset⟩
      | true =>
        obtain ⟨t, h1, h2⟩ := System.exec_cons (S := (prog C A).system) he
        have hst := Prog.step_stepped h1
        have hl := hls l (by simp)
        have hnext : ∃ y, t.pcs[i]? = some y ∧ (Waits n t.sh y ∨ y = .idle (.waited true)) := by
          rcases hw with hw | rfl
          · exact waits_step hst hl (hmono [] l ls s1 t rfl rfl h1) hset hx hw
          · obtain ⟨y, hy, h⟩ := Prog.track hst hx
            refine ⟨y, hy, ?_⟩
            rcases h with ⟨op, h, -⟩ | ⟨-, b, h⟩ | ⟨-, h | h | h, -⟩
            · exact absurd h (hl op)
            · cases h
            · exact Or.inr h
            · cases h
            · cases h
        obtain ⟨y, hy, hw'⟩ := hnext
        obtain ⟨ls1, ls2, u, e1, e2, e3⟩ := ih t y (fun l hl => hls l (by simp [hl])) h2
          (fun ls1 l' ls2 u u' e h3 h4 => by
            refine hmono (l :: ls1) l' ls2 u u' (by rw [e]; rfl) ?_ h4
            simp only [System.exec]
            exact Option.bind_eq_some_iff.2 ⟨t, h1, h3⟩) hy hw'
        refine ⟨l :: ls1, ls2, u, by rw [e1]; rfl, ?_, e3⟩
        simp only [System.exec]
        exact Option.bind_eq_some_iff.2 ⟨t, h1, e2⟩
  exact gen ls s1 x hls he hmono hx1 (Or.inl hw)

/-- C79 fails when the count is reset between the end of the wait and the comparison that makes the
result: thread 0 is woken by the event it waited for and still returns false, with the callback set all the
time. -/
theorem C79_negation : ∃ (s0 : Conf (prog Nat Nat)) (ls : List (Label (Op Nat Nat))),
    (prog Nat Nat).system.Reachable (init Nat Nat 2) s0 ∧
    (∃ s, (prog Nat Nat).system.exec s0 (.start 0 (.wait 1) :: ls) = some s ∧
      s.pcs[0]? = some (.idle (.waited false))) ∧
    ∀ ls1 ls2 t, .start 0 (.wait 1) :: ls = ls1 ++ ls2 → (prog Nat Nat).system.exec s0 ls1 = some t →
      t.sh.set = true := by
  refine ⟨_, [.run 0, .run 0, .start 1 (.event 5), .run 1, .run 1, .run 1, .run 1, .run 1, .run 0,
      .run 1, .start 1 .reset, .run 1, .run 0],
    (prog Nat Nat).system.exec_reachable'
      [.start 1 (.setCallback 7), .run 1, .run 1, .run 1, .run 1, .run 1] rfl, ⟨_, rfl, rfl⟩, ?_⟩
  intro ls1 ls2 t e h
  have hlen : ls1.length ≤ 14 := by
    have := congrArg List.length e
    simp at this
    omega
  have hp : ls1 = (Label.start 0 (Op.wait 1) :: [.run 0, .run 0, .start 1 (.event 5), .run 1, .run 1, .run 1,
      .run 1, .run 1, .run 0, .run 1, .start 1 .reset, .run 1, .run 0]).take ls1.length := by
    rw [e]; simp
  rw [hp] at h
  generalize ls1.length = k at h hlen
  clear e hp
  match k, hlen with
  | 0, _ | 1, _ | 2, _ | 3, _ | 4, _ | 5, _ | 6, _ | 7, _ | 8, _ | 9, _ | 10, _ | 11, _ | 12, _ | 13, _
  | 14, _ => cases h; rfl

/-- Non-trivial case for `C79_false_partial`: the callback is unset during the wait. -/
example : ∃ s0 s1 s : Conf (prog Nat Nat),
    (prog Nat Nat).system.step s0 (.start 0 (.wait 2)) = some s1 ∧
    (prog Nat Nat).system.exec s1 [.run 0, .run 0, .start 1 .unsetCallback, .run 1, .run 1, .run 1, .run 1,
      .run 1, .run 1, .run 1, .run 0, .run 0] = some s ∧
    s.pcs[0]? = some (.idle (.waited false)) ∧ s.sh.count = s1.sh.count :=
  ⟨⟨⟨true, some 1, 1, 0, none, none, [], []⟩, [.idle .void, .idle .void]⟩, _, _, rfl, rfl, rfl, rfl⟩

end Verif.EventHandler
