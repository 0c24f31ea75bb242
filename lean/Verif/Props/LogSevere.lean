import Verif.Model.LogSevere
/-!
C73: counting severe entries.
-/
namespace Verif.LogSevere
open Verif.LogConfig (Kind)

/-- The entries logged in a history. -/
def logged (es : List Event) : List Kind := es.filterMap fun
  | .log k => some k
  | _ => none

/-- The history does not touch handler `h`, and keeps the verbosity at `t` or below that severity. -/
def keeps (h : Nat) (t : Kind) : Event → Prop
  | .construct h' _ => h' ≠ h
  | .destroy h' => h' ≠ h
  | .raise t' => t' = .error ∨ atLeast t t' = true
  | .setVerbosity k => atLeast t k = true
  | _ => True

/-- The same without the condition on the verbosity. -/
def spares (h : Nat) : Event → Prop
  | .construct h' _ => h' ≠ h
  | .destroy h' => h' ≠ h
  | _ => True

theorem atLeast_trans {a b c : Kind} (h1 : atLeast a b = true) (h2 : atLeast b c = true) : atLeast a c = true := by
  simp only [atLeast, decide_eq_true_eq] at *
  omega

/-- What handler `h` will have consumed when the queue is empty. -/
structure Sees (s : State) (h : Nat) (t : Kind) (l : List Kind) (c : Nat) : Prop where
  at_ : ∃ x, s.handlers[h]? = some x ∧ x.threshold = some t ∧ x.set = true ∧ x.alive = true ∧
    x.consumed ++ s.queue.filter (fun k => atLeast k t) = l ∧
    (x.count + (s.queue.filter (fun k => atLeast k t)).length) % 4294967296 = c % 4294967296 ∧
    x.count < 4294967296

theorem getElem?_snoc {α : Type} {l : List α} {i : Nat} {x y : α} (h : l[i]? = some x) : (l ++ [y])[i]? = some x := by
  rw [List.getElem?_append_left (List.getElem?_eq_some_iff.1 h).1]
  exact h

theorem sees_deliver {s : State} {h : Nat} {t : Kind} {l : List Kind} {c : Nat} (hs : Sees s h t l c) :
    Sees (deliver s) h t l c := by
  obtain ⟨x, hx, ht, hset, hal, hl, hc, hb⟩ := hs.at_
  unfold deliver
  split
  · exact hs
  · rename_i k q hq
    rw [hq] at hl hc
    refine ⟨consume k x, by simp [hx], ?_⟩
    unfold consume
    rw [hal, if_neg (by decide), ht]
    dsimp only
    split
    · rename_i hk
      rw [List.filter_cons_of_pos (p := fun k => atLeast k t) hk] at hl hc
      refine ⟨rfl, hset, rfl, ?_, ?_, ?_⟩
      · rw [← hl]
        simp
      · simp only [hset, if_true]
        rw [List.length_cons] at hc
        omega
      · simp only [hset, if_true]
        omega
    · rename_i hk
      rw [List.filter_cons_of_neg (p := fun k => atLeast k t) hk] at hl hc
      exact ⟨ht, hset, hal, hl, hc, hb⟩

theorem sees_log {s : State} {h : Nat} {t k : Kind} {l : List Kind} {c : Nat} (hs : Sees s h t l c) :
    Sees { s with queue := s.queue ++ [k] } h t (if atLeast k t then l ++ [k] else l)
      (if atLeast k t then c + 1 else c) := by
  obtain ⟨x, hx, ht, hset, hal, hl, hc, hb⟩ := hs.at_
  refine ⟨x, hx, ht, hset, hal, ?_, ?_, hb⟩
  · show x.consumed ++ (s.queue ++ [k]).filter _ = _
    split
    · rename_i hk
      rw [List.filter_append, List.filter_cons_of_pos (by exact hk), List.filter_nil, ← List.append_assoc, hl]
    · rename_i hk
      rw [List.filter_append, List.filter_cons_of_neg (by exact hk), List.filter_nil, List.append_nil, hl]
  · show (x.count + ((s.queue ++ [k]).filter _).length) % _ = _
    split
    · rename_i hk
      rw [List.filter_append, List.filter_cons_of_pos (by exact hk), List.filter_nil, List.length_append]
      simp only [List.length_singleton]
      omega
    · rename_i hk
      rw [List.filter_append, List.filter_cons_of_neg (by exact hk), List.filter_nil, List.append_nil]
      exact hc

theorem sees_modify {s : State} {h h' : Nat} {t : Kind} {l : List Kind} {c : Nat} (hs : Sees s h t l c)
    (f : Handler → Handler) (hf : h' ≠ h ∨ ∀ x : Handler, x.set = true → f x = x) :
    Sees { s with handlers := s.handlers.modify h' f } h t l c := by
  obtain ⟨x, hx, ht, hset, h⟩ := hs.at_
  refine ⟨x, ?_, ht, hset, h⟩
  show (s.handlers.modify h' f)[_]? = some x
  rw [List.getElem?_modify, hx]
  rcases hf with hf | hf
  · simp [hf]
  · simp [hf x hset]

/-- One event. -/
theorem sees_step {s : State} {h : Nat} {t : Kind} {l : List Kind} {c : Nat} {ev : Event} (hs : Sees s h t l c)
    (hk : spares h ev) :
    Sees (step s ev) h t l c ∨
      ∃ k, ev = .log k ∧ atLeast k t = true ∧ atLeast k s.verbosity = true ∧ Sees (step s ev) h t (l ++ [k]) (c + 1) := by
  cases ev with
  | register =>
    left
    obtain ⟨x, hx, h⟩ := hs.at_
    exact ⟨x, getElem?_snoc hx, h⟩
  | enable h' =>
    left
    refine sees_modify hs _ (Or.inr ?_)
    intro x hx
    rw [← hx]
  | construct h' t' => exact Or.inl (sees_modify hs _ (Or.inl hk))
  | raise t' =>
    left
    simp only [step]
    split
    · exact ⟨hs.at_⟩
    · exact hs
  | destroy h' => exact Or.inl (sees_modify hs _ (Or.inl hk))
  | setVerbosity k => exact Or.inl ⟨hs.at_⟩
  | deliver => exact Or.inl (sees_deliver hs)
  | log k =>
    simp only [step]
    by_cases hv : atLeast k s.verbosity = true
    · rw [if_pos hv]
      have := sees_log (k := k) hs
      by_cases hkt : atLeast k t = true
      · rw [if_pos hkt, if_pos hkt] at this
        exact Or.inr ⟨k, rfl, hkt, hv, this⟩
      · rw [if_neg hkt, if_neg hkt] at this
        exact Or.inl this
    · rw [if_neg hv]
      exact Or.inl hs

theorem verbosity_step {s : State} {h : Nat} {t : Kind} {ev : Event} (hv : atLeast t s.verbosity = true)
    (hk : keeps h t ev) : atLeast t (step s ev).verbosity = true := by
  cases ev with
  | raise t' =>
    simp only [step]
    split
    · rename_i hlt
      rcases hk with rfl | hk
      · exact absurd hlt (by decide)
      · exact hk
    · exact hv
  | setVerbosity k => exact hk
  | log k =>
    simp only [step]
    split <;> exact hv
  | deliver =>
    simp only [step, deliver]
    split <;> exact hv
  | _ => exact hv

theorem keeps_spares {h : Nat} {t : Kind} {ev : Event} (hk : keeps h t ev) : spares h ev := by
  cases ev <;> first | exact hk | trivial

theorem sees_run {h : Nat} {t : Kind} (es : List Event) {s : State} {l : List Kind} {c : Nat} (hs : Sees s h t l c)
    (hv : atLeast t s.verbosity = true) (hk : ∀ ev ∈ es, keeps h t ev) :
    Sees (run s es) h t (l ++ (logged es).filter (fun k => atLeast k t))
      (c + ((logged es).filter (fun k => atLeast k t)).length) := by
  induction es generalizing s l c with
  | nil => simpa [logged, run] using hs
  | cons ev es ih =>
    have hkev := hk ev List.mem_cons_self
    have hv' := verbosity_step hv hkev
    have ih' := fun {l c} (h' : Sees (step s ev) h t l c) => ih h' hv' (fun e he => hk e (List.mem_cons_of_mem _ he))
    show Sees (run (step s ev) es) h t _ _
    rcases sees_step hs (keeps_spares hkev) with h1 | ⟨k, rfl, hkt, -, h1⟩
    · have h2 := ih' h1
      by_cases hl : ∃ k, ev = .log k ∧ atLeast k t = true
      · -- such an entry would have passed the verbosity
        obtain ⟨k, rfl, hkt⟩ := hl
        have hkv := atLeast_trans hkt hv
        have h3 : Sees (step s (.log k)) h t (l ++ [k]) (c + 1) := by
          have := sees_log (k := k) hs
          rw [if_pos hkt, if_pos hkt] at this
          simp only [step]
          rw [if_pos hkv]
          exact this
        have h4 := ih' h3
        have e1 : (logged (Event.log k :: es)).filter (fun k => atLeast k t) =
            k :: (logged es).filter (fun k => atLeast k t) := by
          simp [logged, hkt]
        rw [e1]
        simpa [Nat.add_assoc, Nat.add_comm, Nat.add_left_comm] using h4
      · have e1 : (logged (ev :: es)).filter (fun k => atLeast k t) = (logged es).filter (fun k => atLeast k t) := by
          cases ev with
          | log k =>
            have : atLeast k t = false := by
              cases hb : atLeast k t with
              | false => rfl
              | true => exact absurd ⟨k, rfl, hb⟩ hl
            simp [logged, this]
          | _ => rfl
        rw [e1]
        exact h2
    · have h4 := ih' h1
      have e1 : (logged (Event.log k :: es)).filter (fun k => atLeast k t) =
          k :: (logged es).filter (fun k => atLeast k t) := by
        simp [logged, hkt]
      rw [e1]
      simpa [Nat.add_assoc, Nat.add_comm, Nat.add_left_comm] using h4

theorem flush_eq (q : List Kind) (s : State) (hq : s.queue.length = q.length) (h : Nat) (t : Kind) (l : List Kind)
    (c : Nat) (hs : Sees s h t l c) :
    (q.foldl (fun s _ => deliver s) s).queue = [] ∧ Sees (q.foldl (fun s _ => deliver s) s) h t l c := by
  induction q generalizing s with
  | nil => exact ⟨List.length_eq_zero_iff.1 hq, hs⟩
  | cons k q ih =>
    refine ih (deliver s) ?_ (sees_deliver hs)
    unfold deliver
    split
    · rename_i h0
      rw [h0] at hq
      cases hq
    · rename_i k' q' h0
      rw [h0] at hq
      exact Nat.succ.inj hq

/-- C73, what holds: from a moment when nothing is queued, a handler with threshold `t`, enabled and alive, counts
exactly the entries at least as severe as `t` that are logged (modulo 2^32) and keeps exactly these, in order,
once the log has been flushed; provided nobody sets the verbosity more severe than `t` meanwhile.  Missing: other
handlers with a more severe threshold being created (`C73_negation_other`), entries that were queued before the handler
existed (`C73_negation_early`) and entries logged while it is being constructed (`C73_negation_construct`). -/
theorem C73_exact_partial (s : State) (h : Nat) (x : Handler) (t : Kind) (hx : s.handlers[h]? = some x)
    (ht : x.threshold = some t) (hset : x.set = true) (hal : x.alive = true) (hc : x.count < 4294967296)
    (hq : s.queue = []) (hv : atLeast t s.verbosity = true) (es : List Event) (hk : ∀ ev ∈ es, keeps h t ev) :
    ∃ y, (flush (run s es)).handlers[h]? = some y ∧
      y.count = (x.count + ((logged es).filter (fun k => atLeast k t)).length) % 4294967296 ∧
      y.consumed = x.consumed ++ (logged es).filter (fun k => atLeast k t) := by
  have h0 : Sees s h t x.consumed x.count := by
    refine ⟨x, hx, ht, hset, hal, ?_, ?_, hc⟩
    · simp [hq]
    · simp [hq]
  obtain ⟨g1, g2⟩ := flush_eq _ _ rfl h t _ _ (sees_run es h0 hv hk)
  obtain ⟨y, hy, -, -, -, k1, k2, k3⟩ := g2.at_
  rw [g1] at k1 k2
  simp only [List.filter_nil, List.append_nil, List.length_nil, Nat.add_zero] at k1 k2
  refine ⟨y, hy, ?_, k1⟩
  rw [← k2, Nat.mod_eq_of_lt k3]

/-- A handler whose constructor has run on its own: enabled, nothing counted, and the verbosity lets pass what is as
severe as the threshold. -/
theorem C73_created (s : State) (t : Kind) :
    ∃ x, (run s (create s.handlers.length t)).handlers[s.handlers.length]? = some x ∧ x.threshold = some t ∧
      x.set = true ∧ x.alive = true ∧ x.count = 0 ∧ x.consumed = [] ∧
      (run s (create s.handlers.length t)).queue = s.queue ∧
      (t ≠ .error → (run s (create s.handlers.length t)).verbosity = t) ∧
      atLeast t (run s (create s.handlers.length t)).verbosity = true := by
  refine ⟨⟨some t, true, 0, [], true⟩, ?_, rfl, rfl, rfl, rfl, rfl, ?_, ?_, ?_⟩
  · cases t <;> simp [run, create, step, Kind.toNat, List.getElem?_modify]
  · cases t <;> rfl
  · cases t <;> simp [run, create, step, Kind.toNat]
  · cases t <;> simp [run, create, step, Kind.toNat, atLeast]

/-- C73, what holds: a `LogChecker(t, expected, max)` made when nothing is queued says yes exactly when the number of
entries at least as severe as `t` logged since lies between `expected` and the greater of `expected` and `max`; for
fewer than 2^32 of them and while nobody sets the verbosity more severe than `t`. -/
theorem C73_check_partial (s : State) (t : Kind) (hq : s.queue = []) (es : List Event)
    (hk : ∀ ev ∈ es, keeps s.handlers.length t ev)
    (hn : ((logged es).filter (fun k => atLeast k t)).length < 4294967296) (expected max : Nat) :
    ∃ y, (flush (run s (create s.handlers.length t ++ es))).handlers[s.handlers.length]? = some y ∧
      (checkValid expected max y.count = true ↔
        expected ≤ ((logged es).filter (fun k => atLeast k t)).length ∧
        (((logged es).filter (fun k => atLeast k t)).length ≤ expected ∨
          ((logged es).filter (fun k => atLeast k t)).length ≤ max)) := by
  obtain ⟨x, hx, ht, hset, hal, hc, -, hq', -, hv⟩ := C73_created s t
  obtain ⟨y, hy, hy', -⟩ := C73_exact_partial _ s.handlers.length x t hx ht hset hal (by omega) (hq'.trans hq) hv es hk
  refine ⟨y, ?_, ?_⟩
  · rw [← hy]
    simp [run, List.foldl_append]
  · rw [hc, Nat.zero_add, Nat.mod_eq_of_lt hn] at hy'
    rw [hy']
    simp only [checkValid, Bool.and_eq_true, decide_eq_true_eq, ge_iff_le]
    have : Nat.max max expected = if max ≤ expected then expected else max := rfl
    rw [this]
    split <;> omega

/-- C73, in every case: what an enabled handler keeps is what it had, followed by some of the entries that were queued
or are logged and are as severe as its threshold, in order. -/
theorem C73_only (s : State) (h : Nat) (x : Handler) (t : Kind) (hx : s.handlers[h]? = some x)
    (ht : x.threshold = some t) (hset : x.set = true) (hal : x.alive = true) (hc : x.count < 4294967296)
    (es : List Event) (hk : ∀ ev ∈ es, spares h ev) :
    ∃ y l, (flush (run s es)).handlers[h]? = some y ∧ y.consumed = x.consumed ++ l ∧
      y.count = (x.count + l.length) % 4294967296 ∧
      List.Sublist l ((s.queue ++ logged es).filter (fun k => atLeast k t)) := by
  have key : ∀ (es : List Event) (s : State) (l : List Kind) (c : Nat), Sees s h t l c →
      (∀ ev ∈ es, spares h ev) → ∃ l', Sees (run s es) h t (l ++ l') (c + l'.length) ∧
        List.Sublist l' ((logged es).filter (fun k => atLeast k t)) := by
    intro es
    induction es with
    | nil =>
      intro s l c hs _
      exact ⟨[], by simpa [run] using hs, List.Sublist.refl _⟩
    | cons ev es ih =>
      intro s l c hs hk
      rcases sees_step hs (hk ev List.mem_cons_self) with h1 | ⟨k, rfl, hkt, -, h1⟩
      · obtain ⟨l', h2, h3⟩ := ih _ _ _ h1 (fun e he => hk e (List.mem_cons_of_mem _ he))
        refine ⟨l', h2, h3.trans (List.Sublist.filter _ ?_)⟩
        cases ev <;> first | exact List.Sublist.refl _ | exact List.sublist_cons_self _ _
      · obtain ⟨l', h2, h3⟩ := ih _ _ _ h1 (fun e he => hk e (List.mem_cons_of_mem _ he))
        refine ⟨k :: l', ?_, ?_⟩
        · simpa [run, Nat.add_assoc, Nat.add_comm, Nat.add_left_comm] using h2
        · have e1 : (logged (Event.log k :: es)).filter (fun k => atLeast k t) =
              k :: (logged es).filter (fun k => atLeast k t) := by
            simp [logged, hkt]
          rw [e1]
          exact h3.cons_cons k
  have h0 : Sees s h t (x.consumed ++ s.queue.filter (fun k => atLeast k t))
      (x.count + (s.queue.filter (fun k => atLeast k t)).length) := ⟨x, hx, ht, hset, hal, rfl, rfl, hc⟩
  obtain ⟨l', h1, h2⟩ := key es s _ _ h0 hk
  obtain ⟨g1, g2⟩ := flush_eq _ _ rfl h t _ _ h1
  obtain ⟨y, hy, -, -, -, k1, k2, k3⟩ := g2.at_
  rw [g1] at k1 k2
  simp only [List.filter_nil, List.append_nil, List.length_nil, Nat.add_zero] at k1 k2
  refine ⟨y, s.queue.filter (fun k => atLeast k t) ++ l', hy, ?_, ?_, ?_⟩
  · rw [k1, List.append_assoc]
  · rw [← Nat.mod_eq_of_lt k3, k2, List.length_append]
    congr 1
    omega
  · rw [List.filter_append]
    exact (List.Sublist.refl _).append h2

/-- A log without handlers. -/
def empty : State := ⟨.error, [], []⟩

/-- C73, negation: a handler for informative entries misses them once another handler, for warnings, was created: the
constructor of the latter makes the verbosity of the log more severe. -/
theorem C73_negation_other : ∃ y, (flush (run empty (create 0 .info ++ [.log .info] ++ create 1 .warning ++
    [.log .info]))).handlers[0]? = some y ∧ y.count = 1 := ⟨_, rfl, rfl⟩

/-- C73, negation: a `LogChecker` counts a warning that was logged before it was created. -/
theorem C73_negation_early : ∃ y, (flush (run empty ([.setVerbosity .warning, .log .warning] ++
    create 0 .warning))).handlers[0]? = some y ∧ checkValid 0 0 y.count = false := ⟨_, rfl, rfl⟩

/-- C73, negation: an entry that another thread logs while the constructor is between enabling the handler and
setting the threshold is counted whatever its kind. -/
theorem C73_negation_construct : ∃ y, (flush (run empty [.setVerbosity .info, .register, .enable 0, .log .info, .deliver,
    .construct 0 .error, .raise .error])).handlers[0]? = some y ∧ y.threshold = some .error ∧ y.count = 1 :=
  ⟨_, rfl, rfl, rfl⟩

/-- C73, negation: after 2^32 errors `LogChecker` reports that there were none. -/
theorem C73_negation_wrap : ∃ y, (flush (run empty (create 0 .warning ++
    List.replicate 4294967296 (.log .error)))).handlers[0]? = some y ∧ checkValid 0 0 y.count = true := by
  obtain ⟨x, hx, ht, hset, hal, hc, -, hq', -, hv⟩ := C73_created empty .warning
  have hl : ∀ n, (logged (List.replicate n (.log .error))).filter (fun k => atLeast k .warning) =
      List.replicate n .error := by
    intro n
    induction n with
    | zero => rfl
    | succ n ih =>
      rw [List.replicate_succ, List.replicate_succ, ← ih]
      rfl
  obtain ⟨y, hy, hy', -⟩ := C73_exact_partial _ 0 x .warning hx ht hset hal (by omega) hq' hv
    (List.replicate 4294967296 (.log .error)) (by
      intro ev hev
      rw [List.eq_of_mem_replicate hev]
      trivial)
  rw [hl, List.length_replicate, hc] at hy'
  refine ⟨y, ?_, ?_⟩
  · rw [← hy]
    simp only [run, List.foldl_append]
    rfl
  · rw [hy']
    rfl

/-- C73_exact_partial and C73_check_partial: two severe entries among four, another handler created in between. -/
example : ∃ y, (flush (run empty (create 0 .warning ++ [.log .error, .deliver] ++ create 1 .info ++
    [.log .info, .log .warning, .log .info]))).handlers[0]? = some y ∧ y.count = 2 ∧
    y.consumed = [.error, .warning] ∧ checkValid 1 2 y.count = true ∧ checkValid 0 0 y.count = false :=
  ⟨_, rfl, rfl, rfl, rfl, rfl⟩

example : ∀ ev ∈ [Event.log .error, .deliver] ++ create 1 .info ++ [.log .info, .log .warning, .log .info],
    keeps 0 .warning ev := by
  simp [create, keeps, atLeast, Kind.toNat]

end Verif.LogSevere
