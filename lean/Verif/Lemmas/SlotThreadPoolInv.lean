import Verif.Lemmas.SlotThreadPool
/-!
The invariant of `Verif.SlotThreadPool`.
-/
namespace Verif.SlotThreadPool
open Verif.Threads
open Verif.WaitHandler (Reason StatusOp)

variable {T : Type}

/-- Calls of the queue. -/
inductive Kind
  | none
  | consume
  | produce
  | disable
  | wait
  | other
  deriving DecidableEq

/-- The call a thread is in, seen from the queue. -/
def kind : Counter.PC Nat → Kind
  | .idle _ => .none
  | .enter true false => .consume
  | .asleep true false => .consume
  | .ready true false false => .consume
  | .popLock => .consume
  | .popSwap => .consume
  | .popTake => .consume
  | .push _ => .produce
  | .inc true => .produce
  | .acquire .disable => .disable
  | .disableTest .disable => .disable
  | .disableNotify .disable => .disable
  | .release .disable => .disable
  | .thEnter _ => .wait
  | .thAsleep _ => .wait
  | .thReady _ _ => .wait
  | _ => .other

/-- The call a thread is in, seen from the pool. -/
def need : PC T → Kind
  | .consuming => .consume
  | .emitCall _ => .produce
  | .disableCall => .disable
  | .waitCall => .wait
  | _ => .none

theorem need_calling {x : PC T} (h : x.calling = true) : need x ≠ .none ∧ need x ≠ .other := by
  cases x <;> first | (cases h; done) | exact ⟨nofun, nofun⟩

theorem kind_none {y : Counter.PC Nat} (h : kind y = .none) : ∃ r, y = .idle r := by
  revert h
  unfold kind
  split <;> first | exact fun _ => ⟨_, rfl⟩ | nofun

theorem kind_wake (y : Counter.PC Nat) : kind (Counter.wake y) = kind y := by
  cases y with
  | asleep c t => cases c <;> cases t <;> rfl
  | _ => rfl

theorem kind_wakeTh (y : Counter.PC Nat) : kind (Counter.wakeTh y) = kind y := by
  cases y <;> rfl

theorem push_wake (y : Counter.PC Nat) (id : Nat) : Counter.wake y = .push id ↔ y = .push id := by
  cases y <;> first | exact Iff.rfl | exact ⟨nofun, nofun⟩

theorem push_wakeTh (y : Counter.PC Nat) (id : Nat) : Counter.wakeTh y = .push id ↔ y = .push id := by
  cases y <;> first | exact Iff.rfl | exact ⟨nofun, nofun⟩

/-- A step of the queue by thread `i`, seen by the others. -/
structure Others (i : Nat) (q q' : Counter.State Nat) : Prop where
  length : q'.pcs.length = q.pcs.length
  kind : ∀ (j : Nat) (z' : Counter.PC Nat), j ≠ i → q'.pcs[j]? = some z' →
    ∃ z, q.pcs[j]? = some z ∧ kind z' = kind z ∧ ∀ id, z' = .push id ↔ z = .push id

theorem others_woken {i : Nat} {q q' : Counter.State Nat} {y : Counter.PC Nat}
    (h : Counter.Woken (q.pcs.set i y) q'.pcs) : Others i q q' := by
  refine ⟨by rw [h.length, List.length_set], ?_⟩
  intro j z' hj hz
  obtain ⟨z, hz', e⟩ := h.get' hz
  rw [get_set_ne hj] at hz'
  refine ⟨z, hz', ?_⟩
  rcases e with e | e | e <;> subst e
  · exact ⟨rfl, fun _ => Iff.rfl⟩
  · exact ⟨kind_wake z, push_wake z⟩
  · exact ⟨kind_wakeTh z, push_wakeTh z⟩

theorem others_goto (i : Nat) (q : Counter.State Nat) (y : Counter.PC Nat) :
    Others i q (Counter.goto q i y) := others_woken (y := y) (.refl _)

theorem others_run {i : Nat} {q q' : Counter.State Nat} (h : Counter.run q i = some q') : Others i q q' := by
  obtain ⟨x, -, hr⟩ := Counter.run_ran h
  obtain ⟨y, hy⟩ := Counter.ran_woken hr
  exact others_woken hy

theorem woken_still {l l' : List (Counter.PC Nat)} (h : Counter.Woken l l') {j : Nat} {a : Counter.PC Nat}
    (hj : l[j]? = some a) (h1 : Counter.wake a = a) (h2 : Counter.wakeTh a = a) : l'[j]? = some a := by
  obtain ⟨a', ha', e⟩ := h.get hj
  rw [h1, h2] at e
  rcases e with e | e | e <;> rw [ha', e]

/-- What one step within a call of the queue can do. -/
inductive Went (q q' : Counter.State Nat) (y y' : Counter.PC Nat) : Prop
  | on (hk : kind y' = kind y) (h1 : q'.popped = q.popped) (h2 : q'.pushed = q.pushed)
      (h3 : ∀ id, y ≠ .push id) (h4 : ∀ id, y' ≠ .push id)
  | push (id : Nat) (hy : y = .push id) (hy' : y' = .inc true) (h1 : q'.popped = q.popped)
      (h2 : q'.pushed = q.pushed ++ [id])
  | ret (r : Option (Counter.Ret Nat)) (hy' : y' = .idle r) (h1 : q'.popped = q.popped)
      (h2 : q'.pushed = q.pushed) (h3 : ∀ id, y ≠ .push id)
      (h4 : kind y = .consume → (r = some (.threw .disabled) ∧ q.enabled = false) ∨
        r = some (.threw .inconsistency))
  | value (v : Nat) (hk : kind y = .consume) (hy' : y' = .idle (some (.value v)))
      (h1 : q'.popped = q.popped ++ [v]) (h2 : q'.pushed = q.pushed)

theorem ran_went {q q' : Counter.State Nat} {i : Nat} {y : Counter.PC Nat} (hy : q.pcs[i]? = some y)
    (h : Counter.Ran q i y q') (h0 : kind y ≠ .other) :
    ∃ y', q'.pcs[i]? = some y' ∧ Went q q' y y' := by
  have hs : ∀ z : Counter.PC Nat, (q.pcs.set i z)[i]? = some z := fun z => get_set_self hy
  cases h with
  | enterDisabled c t he =>
    cases c with
    | false => exact absurd rfl h0
    | true => exact ⟨_, hs _, .ret (some (.threw .disabled)) rfl rfl rfl nofun fun _ => Or.inl ⟨rfl, he⟩⟩
  | enterGrant c t he hv =>
    cases c with
    | false => exact absurd rfl h0
    | true =>
      cases t with
      | true => exact absurd rfl h0
      | false =>
        obtain ⟨e, -⟩ := Counter.decrease_same (Counter.goto q i (.popLock))
        exact ⟨_, woken_still e.woken (hs _) rfl rfl, .on rfl e.popped e.pushed nofun nofun⟩
  | enterSleep c t he hv =>
    cases c with
    | false => exact absurd rfl h0
    | true =>
      cases t with
      | true => exact absurd rfl h0
      | false => exact ⟨_, hs _, .on rfl rfl rfl nofun nofun⟩
  | readyDisabled c t l he =>
    cases c with
    | false => exact absurd rfl h0
    | true => exact ⟨_, hs _, .ret (some (.threw .disabled)) rfl rfl rfl nofun fun _ => Or.inl ⟨rfl, he⟩⟩
  | readyGrant c t l he hv =>
    cases c with
    | false => exact absurd rfl h0
    | true =>
      cases t with
      | true => exact absurd rfl h0
      | false =>
        cases l with
        | true => exact absurd rfl h0
        | false =>
          obtain ⟨e, -⟩ := Counter.decrease_same (Counter.goto { q with waiting := q.waiting - 1 } i (.popLock))
          exact ⟨_, woken_still e.woken (hs _) rfl rfl, .on rfl e.popped e.pushed nofun nofun⟩
  | readyTimeout c t he hv => exact absurd (by cases c <;> cases t <;> rfl) h0
  | readySleep c t he hv =>
    cases c with
    | false => exact absurd rfl h0
    | true =>
      cases t with
      | true => exact absurd rfl h0
      | false => exact ⟨_, hs _, .on rfl rfl rfl nofun nofun⟩
  | thEnterDisabled t he => exact ⟨_, hs _, .ret _ rfl rfl rfl nofun nofun⟩
  | thEnterMet t he hv => exact ⟨_, hs _, .ret _ rfl rfl rfl nofun nofun⟩
  | thEnterSleep t he hv => exact ⟨_, hs _, .on rfl rfl rfl nofun nofun⟩
  | thReadyDisabled t l he => exact ⟨_, hs _, .ret _ rfl rfl rfl nofun nofun⟩
  | thReadyMet t l he hv => exact ⟨_, hs _, .ret _ rfl rfl rfl nofun nofun⟩
  | thReadyTimeout t he hv => exact ⟨_, hs _, .ret _ rfl rfl rfl nofun nofun⟩
  | thReadySleep t he hv => exact ⟨_, hs _, .on rfl rfl rfl nofun nofun⟩
  | push v => exact ⟨_, hs _, .push v rfl rfl rfl rfl⟩
  | inc p =>
    cases p with
    | false => exact absurd rfl h0
    | true =>
      obtain ⟨e, -⟩ := Counter.increment_same (Counter.goto q i (.idle none))
      exact ⟨_, woken_still e.woken (hs _) rfl rfl, .ret none rfl e.popped e.pushed nofun nofun⟩
  | popEmpty hm hq => exact ⟨_, hs _, .on rfl rfl rfl nofun nofun⟩
  | popSome hm hq => exact ⟨_, hs _, .on rfl rfl rfl nofun nofun⟩
  | popSwap => exact ⟨_, hs _, .on rfl rfl rfl nofun nofun⟩
  | popFail hq => exact ⟨_, hs _, .ret _ rfl rfl rfl nofun fun _ => Or.inr rfl⟩
  | popTake v l hq => exact ⟨_, hs _, .value v rfl rfl rfl rfl⟩
  | acquire o hm =>
    cases o with
    | disable => exact ⟨_, hs _, .on rfl rfl rfl nofun nofun⟩
    | _ => exact absurd rfl h0
  | disableStore o he =>
    cases o with
    | disable => exact ⟨_, hs _, .on rfl rfl rfl nofun nofun⟩
    | _ => exact absurd rfl h0
  | disableSkip o he =>
    cases o with
    | disable => exact ⟨_, hs _, .on rfl rfl rfl nofun nofun⟩
    | _ => exact absurd rfl h0
  | disableNotify o =>
    cases o with
    | disable =>
      refine ⟨.release .disable, ?_, .on rfl rfl rfl nofun nofun⟩
      show ((q.pcs.map Counter.wake).set i _)[i]? = _
      refine get_set_self (x := Counter.wake (.disableNotify .disable)) ?_
      rw [List.getElem?_map, hy]
      rfl
    | _ => exact absurd rfl h0
  | release o =>
    cases o with
    | disable => exact ⟨_, hs _, .ret none rfl rfl rfl nofun nofun⟩
    | _ => exact absurd rfl h0
  | enableTest o => exact absurd rfl h0
  | drainMore o hw => exact absurd rfl h0
  | drainEnd o hw => exact absurd rfl h0
  | drainNotify o => exact absurd rfl h0
  | stopOn o he => exact absurd rfl h0
  | stopOff o he => exact absurd rfl h0

/-- A worker on its way to run task `id`. -/
def PC.flying (id : Nat) : PC T → Bool
  | .look k => k == id
  | .exec k _ => k == id
  | _ => false

/-- A worker running task `id`. -/
def PC.within (id : Nat) : PC T → Bool
  | .inside k _ => k == id
  | _ => false

/-- The task a worker holds. -/
def PC.holds : PC T → Option (Nat × T)
  | .exec k t => some (k, t)
  | .inside k t => some (k, t)
  | _ => none

structure Inv (s : State T) : Prop where
  length : s.pcs.length = s.q.pcs.length
  sync : ∀ (j : Nat) (x : PC T) (y : Counter.PC Nat), s.pcs[j]? = some x → s.q.pcs[j]? = some y →
    kind y = need x
  mutex : ∀ (j : Nat) (x : PC T), s.pcs[j]? = some x → (need x = .produce ↔ s.slotsMutex = some j)
  emitted : (s.emitted = s.q.pushed ∧ ∀ (j : Nat) (id : Nat), s.q.pcs[j]? ≠ some (.push id)) ∨
    ∃ (j : Nat) (id : Nat), s.q.pcs[j]? = some (.push id) ∧ s.emitted = s.q.pushed ++ [id]
  known : ∀ id, id ∈ s.emitted → ∃ t, StdMap.get id s.slots = some t
  look : ∀ (j : Nat) (id : Nat), s.pcs[j]? = some (.look id) → ∃ t, StdMap.get id s.slots = some t
  holds : ∀ (j : Nat) (x : PC T) (id : Nat) (t : T), s.pcs[j]? = some x → x.holds = some (id, t) →
    StdMap.get id s.slots = some t
  started : ∀ (id : Nat) (t : T), (id, t) ∈ s.started → StdMap.get id s.slots = some t
  finished : ∀ (id : Nat) (t : T), (id, t) ∈ s.finished → StdMap.get id s.slots = some t
  taken : ∀ id, s.q.popped.count id = s.started.countP (fun p => p.1 == id) + s.pcs.countP (PC.flying id)
  running : ∀ id, s.started.countP (fun p => p.1 == id) =
    s.finished.countP (fun p => p.1 == id) + s.pcs.countP (PC.within id)
  thrown : ∀ j : Nat, s.pcs[j]? = some .terminated → ∃ k, k < s.finished.length ∧ s.ends k = .throwsOther

theorem Inv.alive {s : State T} (h : Inv s) (ho : ∀ k, s.ends k ≠ .throwsOther) (j : Nat) :
    s.pcs[j]? ≠ some .terminated := fun hj =>
  let ⟨k, _, hk⟩ := h.thrown j hj
  ho k hk

theorem others_refl (i : Nat) (q : Counter.State Nat) : Others i q q :=
  ⟨rfl, fun _ z' _ h => ⟨z', h, rfl, fun _ => Iff.rfl⟩⟩

theorem others_spurious {i : Nat} {q q' : Counter.State Nat} (h : Counter.step q (.spurious i) = some q') :
    Others i q q' := by
  cases Counter.step_stepped h with
  | spurious i c t hx => exact others_goto i q _
  | spuriousTh i t hx => exact others_goto i q _

theorem others_timeout {i : Nat} {q q' : Counter.State Nat} (h : Counter.step q (.timeout i) = some q') :
    Others i q q' := by
  cases Counter.step_stepped h with
  | timeout i c hx => exact others_goto i q _
  | timeoutTh i hx => exact others_goto i q _

/-- A wake-up or a timeout leaves a thread in its call and takes or stores nothing. -/
theorem env_went {i : Nat} {q q' : Counter.State Nat} {y : Counter.PC Nat}
    (h : Counter.step q (.spurious i) = some q' ∨ Counter.step q (.timeout i) = some q')
    (hy : q.pcs[i]? = some y) : ∃ y', q'.pcs[i]? = some y' ∧ kind y' = kind y ∧
      (∀ id, y ≠ .push id) ∧ (∀ id, y' ≠ .push id) ∧ q'.popped = q.popped ∧ q'.pushed = q.pushed := by
  rcases h with h | h
  · cases Counter.step_stepped h with
    | spurious i c t hx =>
      rw [hx] at hy; cases hy
      exact ⟨_, get_set_self hx, by cases c <;> cases t <;> rfl, nofun, nofun, rfl, rfl⟩
    | spuriousTh i t hx =>
      rw [hx] at hy; cases hy
      exact ⟨_, get_set_self hx, rfl, nofun, nofun, rfl, rfl⟩
  · cases Counter.step_stepped h with
    | timeout i c hx =>
      rw [hx] at hy; cases hy
      exact ⟨_, get_set_self hx, by cases c <;> rfl, nofun, nofun, rfl, rfl⟩
    | timeoutTh i hx =>
      rw [hx] at hy; cases hy
      exact ⟨_, get_set_self hx, rfl, nofun, nofun, rfl, rfl⟩

/-- Thread `i` of the queue exists when it exists in the pool. -/
theorem Inv.queue_pc {s : State T} (h : Inv s) {i : Nat} {x : PC T} (hx : s.pcs[i]? = some x) :
    ∃ y, s.q.pcs[i]? = some y ∧ kind y = need x := by
  have hl : i < s.q.pcs.length := by
    rw [← h.length]; exact (List.getElem?_eq_some_iff.1 hx).1
  exact ⟨_, List.getElem?_eq_getElem hl, h.sync i x _ hx (List.getElem?_eq_getElem hl)⟩

theorem Inv.pool_pc {s : State T} (h : Inv s) {i : Nat} {y : Counter.PC Nat} (hy : s.q.pcs[i]? = some y) :
    ∃ x, s.pcs[i]? = some x ∧ kind y = need x := by
  have hl : i < s.pcs.length := by
    rw [h.length]; exact (List.getElem?_eq_some_iff.1 hy).1
  exact ⟨_, List.getElem?_eq_getElem hl, h.sync i _ y (List.getElem?_eq_getElem hl) hy⟩

/-- A step within the queue of a thread that is in a call. -/
theorem Inv.went {s : State T} (h : Inv s) {i : Nat} {x : PC T} {q : Counter.State Nat}
    (hx : s.pcs[i]? = some x) (hq : Counter.run s.q i = some q) :
    ∃ y y', s.q.pcs[i]? = some y ∧ kind y = need x ∧ q.pcs[i]? = some y' ∧ Went s.q q y y' := by
  obtain ⟨y, hy, hr⟩ := Counter.run_ran hq
  have hk := h.sync i x y hx hy
  have hno : kind y ≠ .other := by rw [hk]; cases x <;> nofun
  obtain ⟨y', hy', hw⟩ := ran_went hy hr hno
  exact ⟨y, y', hy, hk, hy', hw⟩

/-- What the pool's part of the state may do while the queue does something: the data of `Inv` that the
counting needs. -/
theorem went_stay {s : State T} (h : Inv s) {i : Nat} {x : PC T} {q : Counter.State Nat}
    (hx : s.pcs[i]? = some x) (hq : Counter.run s.q i = some q) (hn : ∀ r, q.pcs[i]? ≠ some (.idle r)) :
    ∃ y y', s.q.pcs[i]? = some y ∧ q.pcs[i]? = some y' ∧ kind y' = need x ∧ kind y = need x ∧
      q.popped = s.q.popped ∧
      ((q.pushed = s.q.pushed ∧ (∀ id, y ≠ .push id) ∧ (∀ id, y' ≠ .push id)) ∨
       ∃ id, y = .push id ∧ y' = .inc true ∧ q.pushed = s.q.pushed ++ [id]) := by
  obtain ⟨y, y', hy, hk, hy', hw⟩ := h.went hx hq
  refine ⟨y, y', hy, hy', ?_⟩
  cases hw with
  | on h0 h1 h2 h3 h4 => exact ⟨by rw [h0, hk], hk, h1, Or.inl ⟨h2, h3, h4⟩⟩
  | push id e e' h1 h2 => exact ⟨by rw [← hk, e, e']; rfl, hk, h1, Or.inr ⟨id, e, e', h2⟩⟩
  | ret r e h1 h2 h3 h4 => rw [e] at hy'; exact absurd hy' (hn r)
  | value v h0 e h1 h2 => rw [e] at hy'; exact absurd hy' (hn _)

theorem length_step {s s' : State T} {l : Label (Op T)} (h : Inv s) (hs : Stepped s l s') :
    s'.pcs.length = s'.q.pcs.length := by
  have hl := h.length
  cases hs with
  | run i x s' hx hr =>
    cases hr with
    | stay x q hc hq hn => rw [(others_run hq).length]; exact hl
    | disableRet q r hq hr => simp only [goto, List.length_set]; rw [(others_run hq).length]; exact hl
    | emitRet id q r hq hr => simp only [goto, List.length_set]; rw [(others_run hq).length]; exact hl
    | waitRet q r hq hr => simp only [goto, List.length_set]; rw [(others_run hq).length]; exact hl
    | consumeRet q r hq hr => simp only [goto, List.length_set]; rw [(others_run hq).length]; exact hl
    | _ => simp only [goto, Counter.goto, List.length_set]; exact hl
  | start i r op hx => simp only [goto, List.length_set]; exact hl
  | spurious i q hq => rw [(others_spurious hq).length]; exact hl
  | timeout i q hq => rw [(others_timeout hq).length]; exact hl

theorem sync_step {s s' : State T} {l : Label (Op T)} (h : Inv s) (hs : Stepped s l s') (j : Nat) (z : PC T)
    (y : Counter.PC Nat) (hz : s'.pcs[j]? = some z) (hy : s'.q.pcs[j]? = some y) : kind y = need z := by
  have hset : ∀ (i : Nat) (q' : Counter.State Nat) (x' : PC T), Others i s.q q' →
      (∀ y, q'.pcs[i]? = some y → kind y = need x') → (s.pcs.set i x')[j]? = some z →
      q'.pcs[j]? = some y → kind y = need z := by
    intro i q' x' ho hi hz hy
    rcases set_get hz with ⟨rfl, rfl, -⟩ | ⟨hne, hz⟩
    · exact hi y hy
    · obtain ⟨w, hw, hk, -⟩ := ho.kind j y hne hy
      rw [hk]
      exact h.sync j z w hz hw
  have hsame : ∀ (i : Nat) (x x' : PC T), s.pcs[i]? = some x → need x' = need x →
      ∀ y, s.q.pcs[i]? = some y → kind y = need x' := by
    intro i x x' hx hn y hy
    rw [hn]; exact h.sync i x y hx hy
  have hgoto : ∀ (i : Nat) (r : Option (Counter.Ret Nat)) (y0 : Counter.PC Nat) (x' : PC T),
      s.q.pcs[i]? = some (.idle r) → kind y0 = need x' →
      ∀ y, (Counter.goto s.q i y0).pcs[i]? = some y → kind y = need x' := by
    intro i r y0 x' hr hk y hy
    have : (s.q.pcs.set i y0)[i]? = some y := hy
    rw [get_set_self hr] at this
    cases this
    exact hk
  have hret : ∀ (i : Nat) (q : Counter.State Nat) (r : Option (Counter.Ret Nat)) (x' : PC T),
      q.pcs[i]? = some (.idle r) → need x' = .none → ∀ y, q.pcs[i]? = some y → kind y = need x' := by
    intro i q r x' hr hn y hy
    rw [hr] at hy
    cases hy
    rw [hn]; rfl
  have hsetq : ∀ (i : Nat) (x : PC T) (q' : Counter.State Nat), s.pcs[i]? = some x → Others i s.q q' →
      (∀ y, q'.pcs[i]? = some y → kind y = need x) → s.pcs[j]? = some z →
      q'.pcs[j]? = some y → kind y = need z := by
    intro i x q' hx ho hi hz hy
    by_cases hne : j = i
    · subst hne
      rw [hx] at hz; cases hz
      exact hi y hy
    · obtain ⟨w, hw, hk, -⟩ := ho.kind j y hne hy
      rw [hk]
      exact h.sync j z w hz hw
  cases hs with
  | run i x s' hx hr =>
    cases hr with
    | stay x q hc hq hn =>
      obtain ⟨y0, y', hy0, hy', hk', -⟩ := went_stay h hx hq hn
      exact hsetq i x q hx (others_run hq) (fun w hw => by rw [hy'] at hw; cases hw; exact hk') hz hy
    | disableRet q r hq hr => exact hset i q _ (others_run hq) (hret i q r _ hr rfl) hz hy
    | emitRet id q r hq hr => exact hset i q _ (others_run hq) (hret i q r _ hr rfl) hz hy
    | waitRet q r hq hr => exact hset i q _ (others_run hq) (hret i q r _ hr rfl) hz hy
    | consumeRet q r hq hr =>
      refine hset i q _ (others_run hq) (hret i q r _ hr ?_) hz hy
      unfold consumed
      split <;> rfl
    | disableStore r he hq => exact hset i _ _ (others_goto i _ _) (hgoto i r (.acquire .disable) _ hq rfl) hz hy
    | emitKnown id t r hm hg hq => exact hset i _ _ (others_goto i _ _) (hgoto i r (.push id) _ hq rfl) hz hy
    | waitStart timed r hq => exact hset i _ _ (others_goto i _ _) (hgoto i r (.thEnter timed) _ hq rfl) hz hy
    | next r hq => exact hset i _ _ (others_goto i _ _) (hgoto i r (.enter true false) _ hq rfl) hz hy
    | spawnOne k d hd =>
      rcases set_get hz with ⟨rfl, rfl, -⟩ | ⟨hne, hz⟩
      · exact hsame j _ _ hx rfl y hy
      · exact hset d s.q .next (others_refl d _) (hsame d _ _ hd rfl) hz hy
    | inside id t =>
      refine hset i s.q _ (others_refl i _) ?_ hz hy
      exact hsame i _ _ hx (by cases s.ends s.finished.length <;> rfl)
    | _ =>
      refine hset i s.q _ (others_refl i _) ?_ hz hy
      exact hsame i _ _ hx rfl
  | start i r op hx => exact hset i s.q _ (others_refl i _) (hsame i _ _ hx (by cases op <;> rfl)) hz hy
  | spurious i q hq =>
    by_cases hji : j = i
    · subst hji
      obtain ⟨y0, hy0, hk0⟩ := h.queue_pc hz
      obtain ⟨y1, hy1, hk1, -⟩ := env_went (Or.inl hq) hy0
      have hy : q.pcs[j]? = some y := hy
      rw [hy1] at hy; cases hy
      rw [hk1, hk0]
    · obtain ⟨w, hw, hk, -⟩ := (others_spurious hq).kind j y hji hy
      rw [hk]
      exact h.sync j z w hz hw
  | timeout i q hq =>
    by_cases hji : j = i
    · subst hji
      obtain ⟨y0, hy0, hk0⟩ := h.queue_pc hz
      obtain ⟨y1, hy1, hk1, -⟩ := env_went (Or.inr hq) hy0
      have hy : q.pcs[j]? = some y := hy
      rw [hy1] at hy; cases hy
      rw [hk1, hk0]
    · obtain ⟨w, hw, hk, -⟩ := (others_timeout hq).kind j y hji hy
      rw [hk]
      exact h.sync j z w hz hw

theorem mutex_step {s s' : State T} {l : Label (Op T)} (h : Inv s) (hs : Stepped s l s') (j : Nat) (z : PC T)
    (hz : s'.pcs[j]? = some z) : (need z = .produce ↔ s'.slotsMutex = some j) := by
  have hsame : ∀ (i : Nat) (x x' : PC T), s.pcs[i]? = some x → (need x' = .produce ↔ need x = .produce) →
      (s.pcs.set i x')[j]? = some z → (need z = .produce ↔ s.slotsMutex = some j) := by
    intro i x x' hx hn hz
    rcases set_get hz with ⟨rfl, rfl, -⟩ | ⟨hne, hz⟩
    · rw [hn]; exact h.mutex j x hx
    · exact h.mutex j z hz
  have hno : ∀ x' : PC T, need x' = .none → ∀ x : PC T, need x = .none →
      (need x' = .produce ↔ need x = .produce) := by
    intro x' h1 x h2
    rw [h1, h2]
  cases hs with
  | run i x s' hx hr =>
    cases hr with
    | stay x q hc hq hn => exact h.mutex j z hz
    | emitKnown id t r hm hg hq =>
      show _ ↔ some i = some j
      rcases set_get hz with ⟨rfl, rfl, -⟩ | ⟨hne, hz⟩
      · exact ⟨fun _ => rfl, fun _ => rfl⟩
      · have := h.mutex j z hz
        rw [hm] at this
        constructor
        · intro e; exact absurd (this.1 e) nofun
        · intro e; exact absurd (Option.some.inj e).symm hne
    | emitRet id q r hq hr =>
      show _ ↔ none = some j
      have hi := (h.mutex i _ hx).1 rfl
      rcases set_get hz with ⟨rfl, rfl, -⟩ | ⟨hne, hz⟩
      · exact ⟨nofun, nofun⟩
      · have := h.mutex j z hz
        rw [hi] at this
        constructor
        · intro e; exact absurd (Option.some.inj (this.1 e)).symm hne
        · nofun
    | spawnOne k d hd =>
      rcases set_get hz with ⟨rfl, rfl, -⟩ | ⟨hne, hz⟩
      · have := h.mutex j _ hx
        exact this
      · exact hsame d _ _ hd (hno _ rfl _ rfl) hz
    | consumeRet q r hq hr =>
      refine hsame i _ _ hx ?_ hz
      unfold consumed
      split <;> exact ⟨nofun, nofun⟩
    | inside id t =>
      refine hsame i _ _ hx ?_ hz
      cases s.ends s.finished.length <;> exact ⟨nofun, nofun⟩
    | _ =>
      refine hsame i _ _ hx ?_ hz
      exact ⟨nofun, nofun⟩
  | start i r op hx => exact hsame i _ _ hx (by cases op <;> exact ⟨nofun, nofun⟩) hz
  | spurious i q hq => exact h.mutex j z hz
  | timeout i q hq => exact h.mutex j z hz

/-- Registered tasks stay. -/
theorem slots_step {s s' : State T} {l : Label (Op T)} (hs : Stepped s l s') {id : Nat} {t : T}
    (hg : StdMap.get id s.slots = some t) : StdMap.get id s'.slots = some t := by
  cases hs with
  | run i x s' hx hr =>
    cases hr with
    | slotNew k u hm hn =>
      show StdMap.get id (StdMap.put k u s.slots) = some t
      rw [StdMap.get_put]
      split
      · rename_i e
        rw [e, hn] at hg
        cases hg
      · exact hg
    | _ => exact hg
  | _ => exact hg

theorem emitted_step {s s' : State T} {l : Label (Op T)} (h : Inv s) (hs : Stepped s l s') :
    (s'.emitted = s'.q.pushed ∧ ∀ (j : Nat) (id : Nat), s'.q.pcs[j]? ≠ some (.push id)) ∨
    ∃ (j : Nat) (id : Nat), s'.q.pcs[j]? = some (.push id) ∧ s'.emitted = s'.q.pushed ++ [id] := by
  have hone : ∀ (i j id : Nat), s.q.pcs[j]? = some (.push id) → s.slotsMutex = some i → j = i := by
    intro i j id hj hm
    obtain ⟨x, hx, hk⟩ := h.pool_pc hj
    have := (h.mutex j x hx).1 hk.symm
    rw [hm] at this
    exact (Option.some.inj this).symm
  -- nothing is stored, and thread `i` neither is nor was about to store
  have hquiet : ∀ (i : Nat) (q : Counter.State Nat) (y y' : Counter.PC Nat), Others i s.q q →
      s.q.pcs[i]? = some y → q.pcs[i]? = some y' → (∀ id, y ≠ .push id) → (∀ id, y' ≠ .push id) →
      q.pushed = s.q.pushed →
      (s.emitted = q.pushed ∧ ∀ (j : Nat) (id : Nat), q.pcs[j]? ≠ some (.push id)) ∨
      ∃ (j : Nat) (id : Nat), q.pcs[j]? = some (.push id) ∧ s.emitted = q.pushed ++ [id] := by
    intro i q y y' ho hy hy' hn hn' hp
    rw [hp]
    rcases h.emitted with ⟨e, hnone⟩ | ⟨j, id, hj, e⟩
    · refine Or.inl ⟨e, ?_⟩
      intro j id hj
      by_cases hji : j = i
      · subst hji
        rw [hy'] at hj
        exact hn' id (Option.some.inj hj)
      · obtain ⟨z, hz, -, hz'⟩ := ho.kind j _ hji hj
        exact hnone j id (by rw [hz, (hz' id).1 rfl])
    · refine Or.inr ⟨j, id, ?_, e⟩
      have hji : j ≠ i := by
        rintro rfl
        rw [hy] at hj
        exact hn id (Option.some.inj hj)
      have hl : j < q.pcs.length := by
        rw [ho.length]; exact (List.getElem?_eq_some_iff.1 hj).1
      obtain ⟨z, hz, -, hz'⟩ := ho.kind j _ hji (List.getElem?_eq_getElem hl)
      rw [hj] at hz
      cases hz
      rw [List.getElem?_eq_getElem hl, (hz' id).2 rfl]
  have hret : ∀ (i : Nat) (x : PC T) (q : Counter.State Nat) (r : Option (Counter.Ret Nat)),
      s.pcs[i]? = some x → Counter.run s.q i = some q → q.pcs[i]? = some (.idle r) →
      (s.emitted = q.pushed ∧ ∀ (j : Nat) (id : Nat), q.pcs[j]? ≠ some (.push id)) ∨
      ∃ (j : Nat) (id : Nat), q.pcs[j]? = some (.push id) ∧ s.emitted = q.pushed ++ [id] := by
    intro i x q r hx hq hr
    obtain ⟨y, y', hy, hk, hy', hw⟩ := h.went hx hq
    rw [hr] at hy'
    cases hy'
    cases hw with
    | on h0 h1 h2 h3 h4 => exact hquiet i q y _ (others_run hq) hy hr h3 nofun h2
    | push id e e' h1 h2 => cases e'
    | ret r e h1 h2 h3 h4 => exact hquiet i q y _ (others_run hq) hy hr h3 nofun h2
    | value v h0 e h1 h2 =>
      exact hquiet i q y _ (others_run hq) hy hr (by rintro id rfl; cases h0) nofun h2
  have hstart : ∀ (i : Nat) (r : Option (Counter.Ret Nat)) (y : Counter.PC Nat),
      s.q.pcs[i]? = some (.idle r) → (∀ id, y ≠ .push id) →
      (s.emitted = s.q.pushed ∧ ∀ (j : Nat) (id : Nat), (Counter.goto s.q i y).pcs[j]? ≠ some (.push id)) ∨
      ∃ (j : Nat) (id : Nat), (Counter.goto s.q i y).pcs[j]? = some (.push id) ∧
        s.emitted = s.q.pushed ++ [id] := by
    intro i r y hr hn
    exact hquiet i (Counter.goto s.q i y) _ y (others_goto i _ _) hr (get_set_self hr) nofun hn rfl
  cases hs with
  | run i x s' hx hr =>
    cases hr with
    | stay x q hc hq hn =>
      obtain ⟨y, y', hy, hy', -, hk, -, ⟨hp, h1, h2⟩ | ⟨id, e, e', hp⟩⟩ := went_stay h hx hq hn
      · exact hquiet i q y y' (others_run hq) hy hy' h1 h2 hp
      · have hm : s.slotsMutex = some i := (h.mutex i x hx).1 (by rw [← hk, e]; rfl)
        subst e
        subst e'
        left
        show s.emitted = q.pushed ∧ _
        rw [hp]
        rcases h.emitted with ⟨-, hnone⟩ | ⟨j, id', hj, e⟩
        · exact absurd hy (hnone i id)
        · have hji := hone i j id' hj hm
          subst hji
          rw [hy] at hj
          cases hj
          refine ⟨e, ?_⟩
          intro k id' hk'
          by_cases hki : k = j
          · subst hki
            have hk' : q.pcs[k]? = some (.push id') := hk'
            rw [hy'] at hk'
            cases hk'
          · obtain ⟨z, hz, -, hz'⟩ := (others_run hq).kind k _ hki hk'
            exact hki (hone j k id' (by rw [hz, (hz' id').1 rfl]) hm)
    | disableRet q r hq hr => exact hret i _ q r hx hq hr
    | emitRet id q r hq hr => exact hret i _ q r hx hq hr
    | waitRet q r hq hr => exact hret i _ q r hx hq hr
    | consumeRet q r hq hr => exact hret i _ q r hx hq hr
    | disableStore r he hq => exact hstart i r (.acquire .disable) hq nofun
    | waitStart timed r hq => exact hstart i r (.thEnter timed) hq nofun
    | next r hq => exact hstart i r (.enter true false) hq nofun
    | emitKnown id t r hm hg hq =>
      right
      refine ⟨i, id, get_set_self hq, ?_⟩
      show s.emitted ++ [id] = s.q.pushed ++ [id]
      rcases h.emitted with ⟨e, -⟩ | ⟨j, id', hj, e⟩
      · rw [e]
      · obtain ⟨x, hx', hk⟩ := h.pool_pc hj
        have := (h.mutex j x hx').1 hk.symm
        rw [hm] at this
        cases this
    | _ => exact h.emitted
  | start i r op hx => exact h.emitted
  | spurious i q hq =>
    have hl : i < s.q.pcs.length := by
      cases Counter.step_stepped hq with
      | spurious i c t hx => exact (List.getElem?_eq_some_iff.1 hx).1
      | spuriousTh i t hx => exact (List.getElem?_eq_some_iff.1 hx).1
    obtain ⟨y', hy', -, h1, h2, -, h3⟩ := env_went (Or.inl hq) (List.getElem?_eq_getElem hl)
    exact hquiet i q _ y' (others_spurious hq) (List.getElem?_eq_getElem hl) hy' h1 h2 h3
  | timeout i q hq =>
    have hl : i < s.q.pcs.length := by
      cases Counter.step_stepped hq with
      | timeout i c hx => exact (List.getElem?_eq_some_iff.1 hx).1
      | timeoutTh i hx => exact (List.getElem?_eq_some_iff.1 hx).1
    obtain ⟨y', hy', -, h1, h2, -, h3⟩ := env_went (Or.inr hq) (List.getElem?_eq_getElem hl)
    exact hquiet i q _ y' (others_timeout hq) (List.getElem?_eq_getElem hl) hy' h1 h2 h3

theorem known_step {s s' : State T} {l : Label (Op T)} (h : Inv s) (hs : Stepped s l s') (id : Nat)
    (hm : id ∈ s'.emitted) : ∃ t, StdMap.get id s'.slots = some t := by
  have hkeep : id ∈ s.emitted → ∃ t, StdMap.get id s'.slots = some t := by
    intro hm
    obtain ⟨t, ht⟩ := h.known id hm
    exact ⟨t, slots_step hs ht⟩
  cases hs with
  | run i x s' hx hr =>
    cases hr with
    | emitKnown id' t r hm' hg hq =>
      rcases List.mem_append.1 hm with hm | hm
      · exact hkeep hm
      · rw [List.mem_singleton] at hm
        subst hm
        exact ⟨t, hg⟩
    | _ => exact hkeep hm
  | _ => exact hkeep hm

/-- What a worker that took a value took. -/
theorem consumed_value {s : State T} (h : Inv s) {i : Nat} {q : Counter.State Nat}
    {r : Option (Counter.Ret Nat)} (hx : s.pcs[i]? = some .consuming) (hq : Counter.run s.q i = some q)
    (hr : q.pcs[i]? = some (.idle r)) :
    (∃ v, r = some (.value v) ∧ q.popped = s.q.popped ++ [v] ∧ q.pushed = s.q.pushed) ∨
    (r = some (.threw .disabled) ∧ q.popped = s.q.popped ∧ s.q.enabled = false) ∨
    r = some (.threw .inconsistency) := by
  obtain ⟨y, y', hy, hk, hy', hw⟩ := h.went hx hq
  rw [hr] at hy'
  cases hy'
  cases hw with
  | on h0 h1 h2 h3 h4 => rw [hk] at h0; cases h0
  | push id e e' h1 h2 => cases e'
  | ret r e h1 h2 h3 h4 =>
    cases e
    rcases h4 hk with ⟨e, he⟩ | e
    · exact Or.inr (Or.inl ⟨e, h1, he⟩)
    · exact Or.inr (Or.inr e)
  | value v h0 e h1 h2 =>
    cases e
    exact Or.inl ⟨v, rfl, h1, h2⟩

theorem mem_emitted {s : State T} (h : Inv s) {id : Nat} (hm : id ∈ s.q.pushed) : id ∈ s.emitted := by
  rcases h.emitted with ⟨e, -⟩ | ⟨j, k, -, e⟩
  · rw [e]; exact hm
  · rw [e]; exact List.mem_append_left _ hm

theorem look_step {s s' : State T} {l : Label (Op T)} (h : Inv s) (hQ : Counter.Qu s'.q)
    (hs : Stepped s l s') (j id : Nat) (hj : s'.pcs[j]? = some (.look id)) :
    ∃ t, StdMap.get id s'.slots = some t := by
  have hkeep : s.pcs[j]? = some (.look id) → ∃ t, StdMap.get id s'.slots = some t := by
    intro hj
    obtain ⟨t, ht⟩ := h.look j id hj
    exact ⟨t, slots_step hs ht⟩
  have hset : ∀ (i : Nat) (x' : PC T), (∀ id, x' ≠ .look id) → (s.pcs.set i x')[j]? = some (.look id) →
      s.pcs[j]? = some (.look id) := by
    intro i x' hn hz
    rcases set_get hz with ⟨rfl, e, -⟩ | ⟨hne, hz⟩
    · exact absurd e.symm (hn id)
    · exact hz
  cases hs with
  | run i x s' hx hr =>
    cases hr with
    | stay x q hc hq hn => exact hkeep hj
    | consumeRet q r hq hr =>
      rcases set_get hj with ⟨rfl, e, -⟩ | ⟨hne, hz⟩
      · rcases consumed_value h hx hq hr with ⟨v, rfl, hp, hpu⟩ | ⟨rfl, -⟩ | rfl
        · cases e
          have hmem : id ∈ q.pushed := by
            rw [show q.pushed = q.popped ++ (q.queue.fg ++ q.queue.bg) from hQ.hist]
            refine List.mem_append_left _ ?_
            rw [hp]
            exact List.mem_append_right _ (List.mem_singleton.2 rfl)
          rw [hpu] at hmem
          exact h.known id (mem_emitted h hmem)
        · cases e
        · cases e
      · exact hkeep hz
    | spawnOne k d hd =>
      exact hkeep (hset d .next nofun (by
        rcases set_get hj with ⟨rfl, e, -⟩ | ⟨hne, hz⟩
        · cases e
        · exact hz))
    | inside id t =>
      refine hkeep (hset i _ ?_ hj)
      cases s.ends s.finished.length <;> nofun
    | _ =>
      refine hkeep (hset i _ ?_ hj)
      nofun
  | start i r op hx => exact hkeep (hset i _ (by cases op <;> nofun) hj)
  | spurious i q hq => exact hkeep hj
  | timeout i q hq => exact hkeep hj

theorem holds_step {s s' : State T} {l : Label (Op T)} (h : Inv s) (hs : Stepped s l s') (j : Nat) (z : PC T)
    (id : Nat) (t : T) (hj : s'.pcs[j]? = some z) (hz : z.holds = some (id, t)) :
    StdMap.get id s'.slots = some t := by
  have hkeep : s.pcs[j]? = some z → StdMap.get id s'.slots = some t := fun hj =>
    slots_step hs (h.holds j z id t hj hz)
  have hset : ∀ (i : Nat) (x' : PC T), x'.holds = none → (s.pcs.set i x')[j]? = some z →
      s.pcs[j]? = some z := by
    intro i x' hn hz'
    rcases set_get hz' with ⟨rfl, e, -⟩ | ⟨hne, hz⟩
    · rw [e, hn] at hz; cases hz
    · exact hz
  cases hs with
  | run i x s' hx hr =>
    cases hr with
    | stay x q hc hq hn => exact hkeep hj
    | consumeRet q r hq hr => exact hkeep (hset i _ (by unfold consumed; split <;> rfl) hj)
    | lookSome id' t' hm hg =>
      rcases set_get hj with ⟨rfl, e, -⟩ | ⟨hne, hz⟩
      · subst e; cases hz; exact hg
      · exact hkeep hz
    | exec id' t' =>
      rcases set_get hj with ⟨rfl, e, -⟩ | ⟨hne, hz⟩
      · subst e; cases hz; exact h.holds j _ _ _ hx rfl
      · exact hkeep hz
    | spawnOne k d hd =>
      exact hkeep (hset d .next rfl (by
        rcases set_get hj with ⟨rfl, e, -⟩ | ⟨hne, hz⟩
        · subst e; cases hz
        · exact hz))
    | inside id t => exact hkeep (hset i _ (by cases s.ends s.finished.length <;> rfl) hj)
    | _ => exact hkeep (hset i _ rfl hj)
  | start i r op hx => exact hkeep (hset i _ (by cases op <;> rfl) hj)
  | spurious i q hq => exact hkeep hj
  | timeout i q hq => exact hkeep hj

theorem started_step {s s' : State T} {l : Label (Op T)} (h : Inv s) (hs : Stepped s l s') (id : Nat) (t : T)
    (hm : (id, t) ∈ s'.started) : StdMap.get id s'.slots = some t := by
  have hkeep : (id, t) ∈ s.started → StdMap.get id s'.slots = some t := fun hm =>
    slots_step hs (h.started id t hm)
  cases hs with
  | run i x s' hx hr =>
    cases hr with
    | exec id' t' =>
      rcases List.mem_append.1 hm with hm | hm
      · exact hkeep hm
      · rw [List.mem_singleton] at hm
        cases hm
        exact h.holds i _ _ _ hx rfl
    | _ => exact hkeep hm
  | _ => exact hkeep hm

theorem finished_step {s s' : State T} {l : Label (Op T)} (h : Inv s) (hs : Stepped s l s') (id : Nat) (t : T)
    (hm : (id, t) ∈ s'.finished) : StdMap.get id s'.slots = some t := by
  have hkeep : (id, t) ∈ s.finished → StdMap.get id s'.slots = some t := fun hm =>
    slots_step hs (h.finished id t hm)
  cases hs with
  | run i x s' hx hr =>
    cases hr with
    | inside id' t' =>
      rcases List.mem_append.1 hm with hm | hm
      · exact hkeep hm
      · rw [List.mem_singleton] at hm
        cases hm
        exact h.holds i _ _ _ hx rfl
    | _ => exact hkeep hm
  | _ => exact hkeep hm

theorem taken_step {s s' : State T} {l : Label (Op T)} (h : Inv s) (hN : Counter.NoInc s'.q)
    (hs : Stepped s l s') (id : Nat) :
    s'.q.popped.count id = s'.started.countP (fun p => p.1 == id) + s'.pcs.countP (PC.flying id) := by
  have h0 := h.taken id
  have hset : ∀ (i : Nat) (x x' : PC T), s.pcs[i]? = some x → x.flying id = false → x'.flying id = false →
      (s.pcs.set i x').countP (PC.flying id) = s.pcs.countP (PC.flying id) := by
    intro i x x' hx h1 h2
    have := countP_set (PC.flying id) x' hx
    rw [h1, h2] at this
    simpa using this
  have hret : ∀ (i : Nat) (x x' : PC T) (q : Counter.State Nat) (r : Option (Counter.Ret Nat)),
      s.pcs[i]? = some x → Counter.run s.q i = some q → q.pcs[i]? = some (.idle r) → need x ≠ .consume →
      x.flying id = false → x'.flying id = false →
      q.popped.count id = s.started.countP (fun p => p.1 == id) +
        (s.pcs.set i x').countP (PC.flying id) := by
    intro i x x' q r hx hq hr hn h1 h2
    rw [hset i x x' hx h1 h2, ← h0]
    obtain ⟨y, y', hy, hk, hy', hw⟩ := h.went hx hq
    cases hw with
    | on _ h1 _ _ _ => rw [h1]
    | push _ _ _ h1 _ => rw [h1]
    | ret _ _ h1 _ _ _ => rw [h1]
    | value v hc _ _ _ => exact absurd (hk ▸ hc) hn
  cases hs with
  | run i x s' hx hr =>
    cases hr with
    | stay x q hc hq hn =>
      obtain ⟨y, y', hy, hy', -, -, hp, -⟩ := went_stay h hx hq hn
      show q.popped.count id = _
      rw [hp]
      exact h0
    | disableRet q r hq hr => exact hret i _ _ q r hx hq hr nofun rfl rfl
    | emitRet k q r hq hr => exact hret i _ _ q r hx hq hr nofun rfl rfl
    | waitRet q r hq hr => exact hret i _ _ q r hx hq hr nofun rfl rfl
    | consumeRet q r hq hr =>
      show q.popped.count id = s.started.countP _ + (s.pcs.set i (consumed r)).countP _
      rcases consumed_value h hx hq hr with ⟨v, rfl, hp, -⟩ | ⟨rfl, hp, -⟩ | rfl
      · rw [hp, List.count_append, h0]
        have := countP_set (PC.flying id) (.look v) hx
        simp only [PC.flying, Bool.false_eq_true, if_false] at this
        show _ = _ + (s.pcs.set i (.look v)).countP _
        simp only [List.count_singleton]
        cases hb : (v == id) <;> simp [hb] at this ⊢ <;> omega
      · rw [hp, h0, hset i _ _ hx rfl rfl]
      · exact absurd hr (hN i)
    | lookSome k t hm hg =>
      have := countP_set (PC.flying id) (.exec k t) hx
      show s.q.popped.count id = s.started.countP _ + (s.pcs.set i (.exec k t)).countP _
      simp only [PC.flying] at this
      cases hb : (k == id) <;> simp [hb] at this ⊢ <;> omega
    | lookNone k hm hg =>
      obtain ⟨t, ht⟩ := h.look i k hx
      rw [hg] at ht
      cases ht
    | exec k t =>
      have := countP_set (PC.flying id) (.inside k t) hx
      show s.q.popped.count id = (s.started ++ [(k, t)]).countP _ + (s.pcs.set i (.inside k t)).countP _
      rw [List.countP_append, List.countP_singleton]
      simp only [PC.flying] at this
      cases hb : (k == id) <;> simp [hb] at this ⊢ <;> omega
    | spawnOne k d hd =>
      show s.q.popped.count id = s.started.countP _ + ((s.pcs.set d .next).set i (.spawn k)).countP _
      have hne : i ≠ d := by rintro rfl; rw [hx] at hd; cases hd
      have h1 := countP_set (PC.flying id) (.spawn k) (l := s.pcs.set d .next) (i := i) (x := .spawn (k + 1))
        (by rw [get_set_ne hne]; exact hx)
      have h2 := hset d _ .next hd rfl rfl
      simp only [PC.flying, Bool.false_eq_true, if_false] at h1
      omega
    | inside k t =>
      refine h0.trans (congrArg _ (Eq.symm ?_))
      exact hset i _ _ hx rfl (by cases s.ends s.finished.length <;> rfl)
    | _ =>
      refine h0.trans (congrArg _ (Eq.symm ?_))
      exact hset i _ _ hx rfl rfl
  | start i r op hx =>
    refine h0.trans (congrArg _ (Eq.symm ?_))
    exact hset i _ _ hx rfl (by cases op <;> rfl)
  | spurious i q hq =>
    have : q.popped = s.q.popped := by
      cases Counter.step_stepped hq <;> rfl
    show q.popped.count id = _
    rw [this]
    exact h0
  | timeout i q hq =>
    have : q.popped = s.q.popped := by
      cases Counter.step_stepped hq <;> rfl
    show q.popped.count id = _
    rw [this]
    exact h0

theorem goes_within (x : Ending) (id : Nat) : (x.goes : PC T).within id = false := by cases x <;> rfl

theorem running_step {s s' : State T} {l : Label (Op T)} (h : Inv s) (hs : Stepped s l s') (id : Nat) :
    s'.started.countP (fun p => p.1 == id) =
      s'.finished.countP (fun p => p.1 == id) + s'.pcs.countP (PC.within id) := by
  have h0 := h.running id
  have hset : ∀ (i : Nat) (x x' : PC T), s.pcs[i]? = some x → x.within id = false → x'.within id = false →
      s.started.countP (fun p => p.1 == id) =
        s.finished.countP (fun p => p.1 == id) + (s.pcs.set i x').countP (PC.within id) := by
    intro i x x' hx h1 h2
    have := countP_set (PC.within id) x' hx
    rw [h1, h2] at this
    simp only [Bool.false_eq_true, if_false] at this
    omega
  cases hs with
  | run i x s' hx hr =>
    cases hr with
    | stay x q hc hq hn => exact h0
    | consumeRet q r hq hr => exact hset i _ _ hx rfl (by unfold consumed; split <;> rfl)
    | exec k t =>
      have := countP_set (PC.within id) (.inside k t) hx
      show (s.started ++ [(k, t)]).countP _ = s.finished.countP _ + (s.pcs.set i (.inside k t)).countP _
      rw [List.countP_append, List.countP_singleton]
      simp only [PC.within, Bool.false_eq_true, if_false] at this
      cases hb : (k == id) <;> simp [hb] at this ⊢ <;> omega
    | inside k t =>
      have := countP_set (PC.within id) (s.ends s.finished.length).goes hx
      show s.started.countP _ = (s.finished ++ [(k, t)]).countP _ +
        (s.pcs.set i (s.ends s.finished.length).goes).countP _
      rw [List.countP_append, List.countP_singleton]
      rw [goes_within] at this
      simp only [PC.within, Bool.false_eq_true, if_false] at this
      cases hb : (k == id) <;> simp [hb] at this ⊢ <;> omega
    | spawnOne k d hd =>
      show s.started.countP _ = s.finished.countP _ + ((s.pcs.set d .next).set i (.spawn k)).countP _
      have hne : i ≠ d := by rintro rfl; rw [hx] at hd; cases hd
      have h1 := countP_set (PC.within id) (.spawn k) (l := s.pcs.set d .next) (i := i) (x := .spawn (k + 1))
        (by rw [get_set_ne hne]; exact hx)
      have h2 := hset d _ .next hd rfl rfl
      simp only [PC.within, Bool.false_eq_true, if_false] at h1
      omega
    | _ => exact hset i _ _ hx rfl rfl
  | start i r op hx => exact hset i _ _ hx rfl (by cases op <;> rfl)
  | spurious i q hq => exact h0
  | timeout i q hq => exact h0

/-- How tasks end is not changed by the pool. -/
theorem ends_step {s s' : State T} {l : Label (Op T)} (hs : Stepped s l s') : s'.ends = s.ends := by
  cases hs with
  | run i x s' hx hr => cases hr <;> rfl
  | _ => rfl

theorem finished_le {s s' : State T} {l : Label (Op T)} (hs : Stepped s l s') :
    s.finished.length ≤ s'.finished.length := by
  cases hs with
  | run i x s' hx hr =>
    cases hr with
    | inside id t => exact (List.prefix_append _ _).length_le
    | _ => exact Nat.le_refl _
  | _ => exact Nat.le_refl _

theorem thrown_step {s s' : State T} {l : Label (Op T)} (h : Inv s) (hN : Counter.NoInc s'.q)
    (hs : Stepped s l s') (j : Nat) (hj : s'.pcs[j]? = some .terminated) :
    ∃ k, k < s'.finished.length ∧ s'.ends k = .throwsOther := by
  have hold : s.pcs[j]? = some .terminated → ∃ k, k < s'.finished.length ∧ s'.ends k = .throwsOther := by
    intro hj
    obtain ⟨k, hk, he⟩ := h.thrown j hj
    exact ⟨k, Nat.lt_of_lt_of_le hk (finished_le hs), by rw [ends_step hs]; exact he⟩
  have hset : ∀ (i : Nat) (x' : PC T), x' ≠ .terminated → (s.pcs.set i x')[j]? = some .terminated →
      ∃ k, k < s'.finished.length ∧ s'.ends k = .throwsOther := by
    intro i x' hn hz
    rcases set_get hz with ⟨rfl, e, -⟩ | ⟨hne, hz⟩
    · exact absurd e.symm hn
    · exact hold hz
  cases hs with
  | run i x s' hx hr =>
    cases hr with
    | stay x q hc hq hn => exact hold hj
    | consumeRet q r hq hr =>
      refine hset i _ ?_ hj
      rcases consumed_value h hx hq hr with ⟨v, rfl, -⟩ | ⟨rfl, -⟩ | rfl
      · nofun
      · nofun
      · exact absurd hr (hN i)
    | lookNone k hm hg =>
      obtain ⟨t, ht⟩ := h.look i k hx
      rw [hg] at ht
      cases ht
    | inside id t =>
      cases he : s.ends s.finished.length with
      | returns => exact hset i _ (by rw [he]; nofun) hj
      | throwsDisabled => exact hset i _ (by rw [he]; nofun) hj
      | throwsOther =>
        refine ⟨s.finished.length, ?_, he⟩
        show _ < (s.finished ++ [(id, t)]).length
        rw [List.length_append, List.length_singleton]
        omega
    | spawnOne k d hd =>
      rcases set_get hj with ⟨rfl, e, -⟩ | ⟨hne, hz⟩
      · cases e
      · exact hset d .next nofun hz
    | _ =>
      refine hset i _ ?_ hj
      nofun
  | start i r op hx => exact hset i _ (by cases op <;> nofun) hj
  | spurious i q hq => exact hold hj
  | timeout i q hq => exact hold hj

theorem inv_init (n c d : Nat) (picks : Nat → Nat) (ends : Nat → Ending) : Inv (init n c d picks ends : State T) := by
  have hpc : ∀ (j : Nat) (x : PC T), (init n c d picks ends : State T).pcs[j]? = some x →
      x = .idle none ∨ x = .dormant := by
    intro j x hj
    rcases List.mem_append.1 (List.mem_of_getElem? hj) with h | h
    · exact Or.inl (List.eq_of_mem_replicate h)
    · exact Or.inr (List.eq_of_mem_replicate h)
  have hq : ∀ (j : Nat) (y : Counter.PC Nat), (init n c d picks ends : State T).q.pcs[j]? = some y →
      y = .idle none := fun j y hj => List.eq_of_mem_replicate (List.mem_of_getElem? hj)
  have hz : ∀ p : PC T → Bool, p (.idle none) = false → p .dormant = false →
      (init n c d picks ends : State T).pcs.countP p = 0 := by
    intro p h1 h2
    rw [List.countP_eq_zero]
    intro a ha
    obtain ⟨j, hj⟩ := List.getElem?_of_mem ha
    rcases hpc j a hj with e | e <;> rw [e] <;> simp [h1, h2]
  constructor
  · simp [init, Counter.init]
  · intro j x y hx hy
    rw [hq j y hy]
    rcases hpc j x hx with e | e <;> rw [e] <;> rfl
  · intro j x hx
    rcases hpc j x hx with e | e <;> rw [e] <;> exact ⟨nofun, nofun⟩
  · refine Or.inl ⟨rfl, ?_⟩
    intro j id hj
    cases hq j _ hj
  · exact nofun
  · intro j id hj
    rcases hpc j _ hj with e | e <;> cases e
  · intro j x id t hj hh
    rcases hpc j _ hj with e | e <;> rw [e] at hh <;> cases hh
  · exact nofun
  · exact nofun
  · intro id
    rw [hz _ rfl rfl]
    rfl
  · intro id
    rw [hz _ rfl rfl]
    rfl
  · intro j hj
    rcases hpc j _ hj with e | e <;> cases e

theorem inv_step {s s' : State T} {l : Label (Op T)} (h : Inv s) (hQ : Counter.Qu s'.q)
    (hN : Counter.NoInc s'.q) (hs : Stepped s l s') : Inv s' :=
  ⟨length_step h hs, sync_step h hs, mutex_step h hs, emitted_step h hs, known_step h hs,
    look_step h hQ hs, holds_step h hs, started_step h hs, finished_step h hs, taken_step h hN hs,
    running_step h hs, thrown_step h hN hs⟩

theorem inv_reachable {n c d : Nat} {picks : Nat → Nat} {ends : Nat → Ending} {s : State T}
    (hr : (system T).Reachable (init n c d picks ends) s) : Inv s := by
  have : (system T).Reachable (init n c d picks ends) s ∧ Inv s := by
    refine System.Reachable.invariant (S := system T)
      (fun s => (system T).Reachable (init n c d picks ends) s ∧ Inv s) ⟨.init, inv_init n c d picks ends⟩ ?_ hr
    rintro s l s' ⟨hr, ih⟩ hs
    have hr' : (system T).Reachable (init n c d picks ends) s' := .step hr (Label.allowed_true l) hs
    have hq := queue_reachable hr'
    exact ⟨hr', inv_step ih (Counter.qu_reachable hq) (Counter.noInc_reachable hq) (step_stepped hs)⟩
  exact this.2

theorem ends_reachable {n c d : Nat} {picks : Nat → Nat} {ends : Nat → Ending} {s : State T}
    (hr : (system T).Reachable (init n c d picks ends) s) : s.ends = ends := by
  refine System.Reachable.invariant (S := system T) (fun s : State T => s.ends = ends) rfl ?_ hr
  intro s l s' h hs
  exact (ends_step (step_stepped hs)).trans h

end Verif.SlotThreadPool
