import Verif.Lemmas.TimedWait
import Verif.Lemmas.TimedCounter
import Verif.Lemmas.TimedPy
import Verif.Lemmas.TimedPeriodic
import Verif.Lemmas.TimedLive
/-!
C149-C152: how long waits with a timeout last.
-/
namespace Verif.Timed
open Verif.Threads

variable {S : System} {C : Clocked S}

/-- From moment `a` to moment `b` nobody sets the system clock forward: it gains no more than the time that passes. -/
def Run.NotForward (e : Run C) (a b : Nat) : Prop :=
  ∀ k, a ≤ k → k < b → (e.at_ (k + 1)).wall - (e.at_ k).wall ≤ (e.at_ (k + 1)).mono - (e.at_ k).mono

/-- A wait on the system clock. -/
theorem Run.wall_timeout (e : Run C) {I : S.State → Prop} {ph : S.State → Nat → Phase} (g : Good C I ph)
    (h0 : I (e.at_ 0).base) (hsys : C.system = true) {i a b : Nat} {op : S.Op} {x : C.Arg}
    (hstart : e.label a = some (.start i op x)) (hab : a < b)
    (hbegun : ph (e.at_ (a + 1)).base i = .begun)
    (hno : ∀ k, a < k → k < b → ∀ op x, e.label k ≠ some (.start i op x))
    (hb : ph (e.at_ b).base i = .done) :
    ∃ j k, a < j ∧ j < k ∧ k < b ∧ C.deadline (e.at_ j).wall x ≤ (e.at_ k).wall := by
  obtain ⟨j, k, ⟨h1, h2, -⟩, h3, -, h5⟩ := e.timed_out g h0 hab (Or.inr hbegun) hb
  refine ⟨j, k, h1, h2, h3, ?_⟩
  have harg : (e.at_ (a + 1)).arg i = x := by
    rcases e.next a with ⟨h, -⟩ | ⟨l, hl, hs⟩
    · rw [hstart] at h; cases h
    · rw [hstart] at hl
      cases hl
      rcases arg_step hs i with h | ⟨op', x', he, h⟩
      · simp only [step] at hs
        split at hs
        · obtain ⟨b', -, hb'⟩ := Option.map_eq_some_iff.1 hs
          rw [← hb']
          simp [upd]
        · cases hs
      · cases he; exact h
  have hargj : (e.at_ j).arg i = x := by
    rw [← harg]
    refine e.arg_eq h1 fun k hk1 hk2 => hno k hk1 (by omega)
  rw [hargj] at h5
  simpa only [State.clock, hsys, if_true] using h5

end Verif.Timed

namespace Verif.WaitHandler
open Verif.Threads Verif.Timed

variable {T : Type}

theorem start_idle {e : Run (waitHandler T)} {k i : Nat} {op : Op T} {ms : Nat}
    (h : e.label k = some (.start i op ms)) : ∃ r, (e.at_ k).base.pcs[i]? = some (.idle r) := by
  rcases e.next k with ⟨h', -⟩ | ⟨l, hl, hs⟩
  · rw [h] at h'; cases h'
  · rw [h] at hl
    cases hl
    have hb : (system T).step (e.at_ k).base (.start i op) = some (e.at_ (k + 1)).base := step_base hs
    change start (e.at_ k).base i op = some (e.at_ (k + 1)).base at hb
    unfold start at hb
    split at hb
    · rename_i r hx; exact ⟨r, hx⟩
    · cases hb

theorem start_begun {e : Run (waitHandler T)} {k i : Nat} {p : T → Bool} {t : Bool} {ms : Nat}
    (h : e.label k = some (.start i (.wait p t) ms)) :
    (e.at_ (k + 1)).base.pcs[i]? = some (.enter p t) ∧ t = decide (0 < ms) ∧ ms < 2 ^ 32 := by
  rcases e.next k with ⟨h', -⟩ | ⟨l, hl, hs⟩
  · rw [h] at h'; cases h'
  · rw [h] at hl
    cases hl
    have hb : (system T).step (e.at_ k).base (.start i (.wait p t)) = some (e.at_ (k + 1)).base := step_base hs
    have ha : (waitHandler T).admits (.wait p t) ms = true := by
      simp only [Timed.step] at hs
      split at hs
      · assumption
      · cases hs
    change start (e.at_ k).base i (.wait p t) = some (e.at_ (k + 1)).base at hb
    unfold start at hb
    split at hb
    · rename_i r hx
      refine ⟨by rw [← Option.some.inj hb]; exact get_set_self hx, ?_⟩
      simpa [waitHandler, isDuration, and_comm] using ha
    · cases hb

/-- C149: a `wait` that returned `timeout` at moment `b` has seen the system clock gain its timeout meanwhile. -/
theorem C149_system_clock (e : Run (waitHandler T)) (i a b : Nat) (p : T → Bool) (t : Bool) (ms : Nat)
    (hstart : e.label a = some (.start i (.wait p t) ms)) (hab : a < b) (hms : 0 < ms)
    (hin : ∀ k, a < k → k < b → ∀ r, (e.at_ k).base.pcs[i]? ≠ some (.idle r))
    (hret : (e.at_ b).base.pcs[i]? = some (.idle (some .timeout))) :
    ∃ j k, a < j ∧ j < k ∧ k < b ∧ (ms : Int) * 1000000 ≤ (e.at_ k).wall - (e.at_ j).wall := by
  obtain ⟨hx, -⟩ := start_begun hstart
  obtain ⟨j, k, h1, h2, h3, h4⟩ := e.wall_timeout good trivial rfl hstart hab
    (show phase _ _ = _ by rw [phase_get hx]; rfl)
    (fun k h1 h2 op x hl => by
      obtain ⟨r, hr⟩ := start_idle hl
      exact hin k h1 h2 r hr)
    (show phase _ _ = _ by rw [phase_get hret]; rfl)
  refine ⟨j, k, h1, h2, h3, ?_⟩
  have h4 : deadlineMs (e.at_ j).wall ms ≤ (e.at_ k).wall := h4
  simp only [deadlineMs, if_pos hms, nanos] at h4
  omega

/-- C149, as long as nobody sets the system clock forward: a `wait` that returns `timeout` has lasted at least its
timeout.  Missing: waits during which the system clock is set forward (`C149_negation_set_forward`). -/
theorem C149_not_early_partial (e : Run (waitHandler T)) (i a b : Nat) (p : T → Bool) (t : Bool) (ms : Nat)
    (hstart : e.label a = some (.start i (.wait p t) ms)) (hab : a < b)
    (hin : ∀ k, a < k → k < b → ∀ r, (e.at_ k).base.pcs[i]? ≠ some (.idle r))
    (hret : (e.at_ b).base.pcs[i]? = some (.idle (some .timeout)))
    (hclock : e.NotForward a b) : (ms : Int) * 1000000 ≤ (e.at_ b).mono - (e.at_ a).mono := by
  by_cases hms : 0 < ms
  · obtain ⟨j, k, h1, h2, h3, h4⟩ := C149_system_clock e i a b p t ms hstart hab hms hin hret
    have := e.wall_le (a := j) (b := k) (by omega) (fun m g1 g2 => hclock m (by omega) (by omega))
    have g1 := e.mono_le (n := a) (m := j) (by omega)
    have g2 := e.mono_le (n := k) (m := b) (by omega)
    omega
  · have := e.mono_le (n := a) (m := b) (by omega)
    have : ms = 0 := by omega
    subst this
    simp
    omega

/-- C149 fails when the system clock is set forward: a wait of one second returns `timeout` though no time has passed. -/
theorem C149_negation_set_forward :
    ((exec (Timed.init (waitHandler Nat) (init 0 true 1) 0 0 (0 : Nat))
      [.start 0 (.wait (fun v => v == 1) true) (1000 : Nat), .run 0, .time 0 1000000000, .timeout 0, .run 0, .run 0]).map
        fun s => (s.mono, s.base.enabled, s.base.value, s.base.pcs.map fun | .idle r => r | _ => none)) =
      some (0, true, 0, [some .timeout]) := by decide

/-- A wait of one second that times out. -/
example : ∃ e : Run (waitHandler Nat), e.label 0 = some (.start 0 (.wait (fun v => v == 1) true) (1000 : Nat)) ∧
    (∀ k, 0 < k → k < 7 → ∀ r, (e.at_ k).base.pcs[0]? ≠ some (.idle r)) ∧
    (e.at_ 7).base.pcs[0]? = some (.idle (some .timeout)) ∧ e.NotForward 0 7 ∧ (e.at_ 7).mono = 1700000000 := by
  obtain ⟨e, h1, h2, -⟩ := Run.ofExec (Timed.init (waitHandler Nat) (init 0 true 1) 0 5 (0 : Nat)) _
    [.start 0 (.wait (fun v => v == 1) true) (1000 : Nat), .run 0, .time 900000000 900000000, .time 1700000000 1600000000,
      .timeout 0, .run 0, .run 0] rfl
  have a0 := h1 0 _ (by decide) rfl
  have a1 := h1 1 _ (by decide) rfl
  have a2 := h1 2 _ (by decide) rfl
  have a3 := h1 3 _ (by decide) rfl
  have a4 := h1 4 _ (by decide) rfl
  have a5 := h1 5 _ (by decide) rfl
  have a6 := h1 6 _ (by decide) rfl
  have a7 := h1 7 _ (by decide) rfl
  refine ⟨e, h2 0 (by decide), ?_, ?_, ?_, ?_⟩
  · intro k g1 g2 r h
    match k, g1, g2 with
    | 1, _, _ => rw [a1] at h; cases h
    | 2, _, _ => rw [a2] at h; cases h
    | 3, _, _ => rw [a3] at h; cases h
    | 4, _, _ => rw [a4] at h; cases h
    | 5, _, _ => rw [a5] at h; cases h
    | 6, _, _ => rw [a6] at h; cases h
  · rw [a7]; rfl
  · intro k g1 g2
    match k, g2 with
    | 0, _ => rw [a0, a1]; decide
    | 1, _ => rw [a1, a2]; decide
    | 2, _ => rw [a2, a3]; decide
    | 3, _ => rw [a3, a4]; decide
    | 4, _ => rw [a4, a5]; decide
    | 5, _ => rw [a5, a6]; decide
    | 6, _ => rw [a6, a7]; decide
  · rw [a7]

/-! ### The wait ends -/

/-- C150, as long as the system clock goes on to every date: a `wait` with a timeout returns (under fair scheduling).
Missing: a bound in time that passes (`C150_negation_set_back`). -/
theorem C150_ends_partial (e : Run (waitHandler T)) (v : T) (b : Bool) (n : Nat) (h0 : (e.at_ 0).base = init v b n)
    (hf : e.base.Fair) (hto : e.Timely) (hclock : ∀ x : Int, ∃ n, ∀ m, n ≤ m → x ≤ (e.at_ m).wall)
    (i a : Nat) (p : T → Bool) (t : Bool) (ms : Nat) (hms : 0 < ms)
    (hstart : e.label a = some (.start i (.wait p t) ms)) :
    ∃ m, a < m ∧ ∃ r, (e.at_ m).base.pcs[i]? = some (.idle (some r)) := by
  obtain ⟨hx, ht, -⟩ := start_begun hstart
  have ht : t = true := by rw [ht]; exact decide_eq_true hms
  subst ht
  have hI : ∀ n, Inv (e.at_ n).base :=
    fun m => e.base.stable Inv (fun s l s' h hs => inv_step h hs) 0 (show Inv (e.at_ 0).base by
      rw [h0]; exact inv_init v b n) m (Nat.zero_le m)
  exact returns e hf hI i hto hclock hx rfl

/-- An execution of that kind: the wait sleeps, times out and returns; the clocks tick for ever. -/
example : ∃ e : Run (waitHandler Nat), (e.at_ 0).base = init 0 true 1 ∧ e.base.Fair ∧ e.Timely ∧
    (∀ x : Int, ∃ n, ∀ m, n ≤ m → x ≤ (e.at_ m).wall) ∧
    e.label 0 = some (.start 0 (.wait (fun v => v == 1) true) (1 : Nat)) ∧
    (e.at_ 2).base.pcs[0]? = some (.asleep (fun v => v == 1) true) := by
  obtain ⟨e, h1, h2, h3⟩ := Run.ofExec (Timed.init (waitHandler Nat) (init 0 true 1) 0 0 (0 : Nat)) _
    [.start 0 (.wait (fun v => v == 1) true) (1 : Nat), .run 0, .time 1000000 1000000, .timeout 0, .run 0, .run 0] rfl
  have h3 : ∀ n, 6 ≤ n → (e.at_ n).base.pcs = [PC.idle (some .timeout)] ∧ (e.at_ n).wall = 1000000 + (n - 6 : Nat) := by
    intro n hn
    obtain ⟨m, rfl⟩ := Nat.exists_eq_add_of_le hn
    rw [show 6 + m - 6 = m by omega, show e.at_ (6 + m) = _ from h3 m]
    exact ⟨rfl, rfl⟩
  have stuck : ∀ n i : Nat, 6 ≤ n → ∀ r : PC Nat, (e.at_ n).base.pcs[i]? = some r → r = .idle (some .timeout) := by
    intro n i hn r hr
    rw [(h3 n hn).1] at hr
    match i, hr with
    | 0, hr => exact (Option.some.inj hr).symm
    | i + 1, hr => cases hr
  refine ⟨e, by rw [h1 0 _ (by decide) rfl]; rfl, ?_, ?_, ?_, h2 0 (by decide), by rw [h1 2 _ (by decide) rfl]; rfl⟩
  · intro i n h
    obtain ⟨k, hk, hk2⟩ := h (max n 6) (Nat.le_max_left _ _)
    have hk6 : 6 ≤ k := Nat.le_trans (Nat.le_max_right n 6) hk
    change (run (e.at_ k).base i).isSome = true at hk2
    unfold run at hk2
    cases hx : (e.at_ k).base.pcs[i]? with
    | none => rw [hx] at hk2; cases hk2
    | some x =>
      have := stuck k i hk6 x hx
      subst this
      rw [hx] at hk2
      cases hk2
  · intro i n h
    obtain ⟨k, hk, hk2⟩ := h (max n 6) (Nat.le_max_left _ _)
    have hk6 : 6 ≤ k := Nat.le_trans (Nat.le_max_right n 6) hk
    obtain ⟨s', hs'⟩ := Option.isSome_iff_exists.1 hk2
    have hs' : (system Nat).step (e.at_ k).base (.timeout i) = some s'.base := step_base hs'
    change step (e.at_ k).base (.timeout i) = some s'.base at hs'
    simp only [step] at hs'
    cases hx : (e.at_ k).base.pcs[i]? with
    | none => rw [hx] at hs'; cases hs'
    | some x =>
      have := stuck k i hk6 x hx
      subst this
      rw [hx] at hs'
      cases hs'
  · intro x
    refine ⟨x.toNat + 6, fun m hm => ?_⟩
    rw [(h3 m (by omega)).2]
    omega

/-- C150 fails when the system clock is set back: for every duration there is a wait of one millisecond that is still
asleep after it, and can go on only when somebody else acts. -/
theorem C150_negation_set_back (d : Nat) :
    ∃ s : Timed.State (waitHandler Nat),
      exec (Timed.init (waitHandler Nat) (init 0 true 1) 0 0 (0 : Nat))
        [.start 0 (.wait (fun v => v == 1) true) (1 : Nat), .run 0, .time d (-d)] = some s ∧
      s.base.pcs.map (fun | .asleep _ t => t | _ => false) = [true] ∧ (d : Int) ≤ s.mono ∧
      (Timed.step s (.timeout 0)).isSome = false ∧ (Timed.step s (.run 0)).isSome = false := by
  refine ⟨⟨⟨0, true, 1, none, none, [.asleep (fun v => v == 1) true]⟩, d, -d, upd (fun _ => (0 : Nat)) 0 (1 : Nat),
    upd (fun _ => 0) 0 1000000⟩, ?_, rfl, Int.le_refl _, ?_, rfl⟩
  · have h : (0 : Int) ≤ d := Int.natCast_nonneg d
    have h2 : exec (Timed.init (waitHandler Nat) (init 0 true 1) 0 0 (0 : Nat))
        [.start 0 (.wait (fun v => v == 1) true) (1 : Nat), .run 0] =
        some ⟨⟨0, true, 1, none, none, [.asleep (fun v => v == 1) true]⟩, 0, 0, upd (fun _ => (0 : Nat)) 0 (1 : Nat),
    upd (fun _ => 0) 0 1000000⟩ := rfl
    have h3 : ∀ s : Timed.State (waitHandler Nat), s.mono = 0 → Timed.step s (.time d (-d)) =
        some { s with mono := d, wall := -d } := by
      intro s hs
      simp only [Timed.step, hs, if_pos h]
    simp only [exec] at h2 ⊢
    cases hs1 : Timed.step (Timed.init (waitHandler Nat) (init 0 true 1) 0 0 (0 : Nat))
        (.start 0 (.wait (fun v => v == 1) true) (1 : Nat)) with
    | none => rw [hs1] at h2; cases h2
    | some s1 =>
      rw [hs1] at h2
      simp only [Option.bind_some] at h2 ⊢
      cases hs2 : Timed.step s1 (.run 0) with
      | none => rw [hs2] at h2; cases h2
      | some s2 =>
        rw [hs2] at h2
        have h2 := Option.some.inj h2
        subst h2
        simp only [Option.bind_some]
        rw [h3 _ rfl]
        rfl
  · have : ¬ ((1000000 : Int) ≤ -d) := by omega
    simp only [Timed.step]
    rw [if_neg]
    · rfl
    · exact this

end Verif.WaitHandler

namespace Verif.Counter
open Verif.Threads Verif.Timed
open Verif.WaitHandler (Reason StatusOp)

variable {T : Type}

/-- A call that waits: `wait_and_decrement`, `wait_threshold_reached` (`wait_all_consumed`), `consume`. -/
def Op.waits : Op T → Bool
  | .waitDec _ | .waitThreshold _ | .consume _ => true
  | _ => false

/-- The call has ended with a timeout: reported as reason, or thrown as `TimeoutException`. -/
def PC.timedOut : PC T → Bool
  | .idle (some (.reason .timeout)) | .idle (some (.threw .timeout)) => true
  | _ => false

theorem start_at {e : Run (counter T)} {k i : Nat} {op : Op T} {ms : Nat}
    (h : e.label k = some (.start i op ms)) :
    (∃ r, (e.at_ k).base.pcs[i]? = some (.idle r)) ∧ (e.at_ (k + 1)).base.pcs[i]? = some (entry op) := by
  rcases e.next k with ⟨h', -⟩ | ⟨l, hl, hs⟩
  · rw [h] at h'; cases h'
  · rw [h] at hl
    cases hl
    have hb : (system T).step (e.at_ k).base (.start i op) = some (e.at_ (k + 1)).base := step_base hs
    change start (e.at_ k).base i op = some (e.at_ (k + 1)).base at hb
    unfold start at hb
    split at hb
    · rename_i r hx
      exact ⟨⟨r, hx⟩, by rw [← Option.some.inj hb]; exact get_set_self hx⟩
    · cases hb

/-- C149 for `CounterWaitHandler` and `ConsumerWaitHandler`, as long as nobody sets the system clock forward. -/
theorem C149_counter_not_early_partial (e : Run (counter T)) (i a b : Nat) (op : Op T) (hop : op.waits = true) (ms : Nat)
    (hstart : e.label a = some (.start i op ms)) (hab : a < b)
    (hin : ∀ k, a < k → k < b → ∀ r, (e.at_ k).base.pcs[i]? ≠ some (.idle r))
    (x : PC T) (hx : (e.at_ b).base.pcs[i]? = some x) (hret : x.timedOut = true)
    (hclock : e.NotForward a b) : (ms : Int) * 1000000 ≤ (e.at_ b).mono - (e.at_ a).mono := by
  by_cases hms : 0 < ms
  · obtain ⟨-, hb⟩ := start_at hstart
    obtain ⟨j, k, h1, h2, h3, h4⟩ := e.wall_timeout good trivial rfl hstart hab
      (show phase _ _ = _ by rw [phase_get hb]; cases op <;> first | rfl | cases hop)
      (fun k h1 h2 op x hl => by
        obtain ⟨⟨r, hr⟩, -⟩ := start_at hl
        exact hin k h1 h2 r hr)
      (show phase _ _ = _ by
        rw [phase_get hx]
        unfold PC.timedOut at hret
        split at hret
        · rfl
        · rfl
        · cases hret)
    have h4 : deadlineMs (e.at_ j).wall ms ≤ (e.at_ k).wall := h4
    simp only [deadlineMs, if_pos hms, nanos] at h4
    have := e.wall_le (a := j) (b := k) (by omega) (fun m g1 g2 => hclock m (by omega) (by omega))
    have g1 := e.mono_le (n := a) (m := j) (by omega)
    have g2 := e.mono_le (n := k) (m := b) (by omega)
    omega
  · have := e.mono_le (n := a) (m := b) (by omega)
    have : ms = 0 := by omega
    subst this
    simp
    omega

/-- The consumer that times out. -/
example : ∃ e : Run (counter Nat), e.label 0 = some (.start 0 (.consume true) (1 : Nat)) ∧
    (∀ k, 0 < k → k < 5 → ∀ r, (e.at_ k).base.pcs[0]? ≠ some (.idle r)) ∧
    (e.at_ 5).base.pcs[0]? = some (.idle (some (.threw .timeout))) ∧ e.NotForward 0 5 := by
  obtain ⟨e, h1, h2, -⟩ := Run.ofExec_seen (Timed.init (counter Nat) (init 0 0 true (fun _ => 0) 1) 0 5 (0 : Nat))
    [.start 0 (.consume true) (1 : Nat), .run 0, .time 1000000 1000005, .timeout 0, .run 0] (by decide)
  refine ⟨e, h2 0 (by decide), ?_, h1 (·.base.pcs[0]?) 5 _ (by decide) rfl, ?_⟩
  · intro k g1 g2 r h
    match k, g1, g2 with
    | 1, _, _ => rw [h1 (·.base.pcs[0]?) 1 _ (by decide) rfl] at h; cases h
    | 2, _, _ => rw [h1 (·.base.pcs[0]?) 2 _ (by decide) rfl] at h; cases h
    | 3, _, _ => rw [h1 (·.base.pcs[0]?) 3 _ (by decide) rfl] at h; cases h
    | 4, _, _ => rw [h1 (·.base.pcs[0]?) 4 _ (by decide) rfl] at h; cases h
  · intro k g1 g2
    match k, g2 with
    | 0, _ => rw [h1 (·.wall) 0 _ (by decide) rfl, h1 (·.wall) 1 _ (by decide) rfl,
        h1 (·.mono) 0 _ (by decide) rfl, h1 (·.mono) 1 _ (by decide) rfl]; decide
    | 1, _ => rw [h1 (·.wall) 1 _ (by decide) rfl, h1 (·.wall) 2 _ (by decide) rfl,
        h1 (·.mono) 1 _ (by decide) rfl, h1 (·.mono) 2 _ (by decide) rfl]; decide
    | 2, _ => rw [h1 (·.wall) 2 _ (by decide) rfl, h1 (·.wall) 3 _ (by decide) rfl,
        h1 (·.mono) 2 _ (by decide) rfl, h1 (·.mono) 3 _ (by decide) rfl]; decide
    | 3, _ => rw [h1 (·.wall) 3 _ (by decide) rfl, h1 (·.wall) 4 _ (by decide) rfl,
        h1 (·.mono) 3 _ (by decide) rfl, h1 (·.mono) 4 _ (by decide) rfl]; decide
    | 4, _ => rw [h1 (·.wall) 4 _ (by decide) rfl, h1 (·.wall) 5 _ (by decide) rfl,
        h1 (·.mono) 4 _ (by decide) rfl, h1 (·.mono) 5 _ (by decide) rfl]; decide

/-- C149 fails there too when the system clock is set forward. -/
theorem C149_counter_negation_set_forward :
    ((exec (Timed.init (counter Nat) (init 0 0 true (fun _ => 0) 1) 0 0 (0 : Nat))
      [.start 0 (.consume true) (1000 : Nat), .run 0, .time 0 1000000000, .timeout 0, .run 0]).map
        fun s => (s.mono, s.base.pcs.map PC.timedOut)) = some (0, [true]) := by decide

end Verif.Counter

namespace Verif.PyWaitHandler
open Verif.Threads Verif.Timed

variable {T : Type}

theorem start_at {e : Run (pyWaitHandler T)} {k i : Nat} {op : Op T} {t : Option Int}
    (h : e.label k = some (.start i op t)) :
    (∃ r, (e.at_ k).base.pcs[i]? = some (.idle r)) ∧ (e.at_ (k + 1)).base.pcs[i]? = some (.acq op) ∧
      (e.at_ (k + 1)).arg i = t := by
  rcases e.next k with ⟨h', -⟩ | ⟨l, hl, hs⟩
  · rw [h] at h'; cases h'
  · rw [h] at hl
    cases hl
    have hb : (prog T).system.step (e.at_ k).base (.start i op) = some (e.at_ (k + 1)).base := step_base hs
    obtain ⟨x, y, hx, hst, -, hy⟩ := Prog.stepped_start (Prog.step_stepped hb)
    have harg : (e.at_ (k + 1)).arg i = t := by
      simp only [Timed.step] at hs
      split at hs
      · obtain ⟨b', -, hb'⟩ := Option.map_eq_some_iff.1 hs
        rw [← hb']
        exact if_pos rfl
      · cases hs
    cases x with
    | idle r => cases hst; exact ⟨⟨r, hx⟩, hy, harg⟩
    | _ => cases hst

/-- C151: a `wait` of the Python library that returns `timeout` has lasted at least its timeout, whatever happens to the
system clock meanwhile. -/
theorem C151_not_early (e : Run (pyWaitHandler T)) (i a b : Nat) (p : T → Option Bool) (timed : Bool) (t : Int)
    (hstart : e.label a = some (.start i (.wait p timed) (some t))) (hab : a < b)
    (hin : ∀ k, a < k → k < b → ∀ r, (e.at_ k).base.pcs[i]? ≠ some (.idle r))
    (hret : (e.at_ b).base.pcs[i]? = some (.idle (some (.reason .timeout)))) :
    t ≤ (e.at_ b).mono - (e.at_ a).mono := by
  obtain ⟨-, hx, harg⟩ := start_at hstart
  obtain ⟨j, k, ⟨h1, h2, -⟩, h3, -, h5⟩ := e.timed_out good trivial (i := i) hab
    (show phase _ _ = _ ∨ phase _ _ = _ by rw [phase_get hx]; exact Or.inr rfl)
    (show phase _ _ = _ by rw [phase_get hret]; rfl)
  have hargj : (e.at_ j).arg i = some t := by
    rw [← harg]
    exact e.arg_eq h1 fun k hk1 hk2 op x hl => by
      obtain ⟨⟨r, hr⟩, -⟩ := start_at hl
      exact hin k hk1 (by omega) r hr
  rw [hargj] at h5
  have h5 : (e.at_ j).mono + t ≤ (e.at_ k).mono := h5
  have g1 := e.mono_le (n := a) (m := j) (by omega)
  have g2 := e.mono_le (n := k) (m := b) (by omega)
  omega

/-- A wait of five nanoseconds, while the system clock jumps to and fro. -/
example : ∃ e : Run (pyWaitHandler Nat), e.label 0 = some (.start 0 (.wait (fun v => some (v == 1)) true) (some 5)) ∧
    (∀ k, 0 < k → k < 11 → ∀ r, (e.at_ k).base.pcs[0]? ≠ some (.idle r)) ∧
    (e.at_ 11).base.pcs[0]? = some (.idle (some (.reason .timeout))) := by
  obtain ⟨e, h1, h2, -⟩ := Run.ofExec_seen (Timed.init (pyWaitHandler Nat) (init 0 true 1) 0 5 none)
    [.start 0 (.wait (fun v => some (v == 1)) true) (some 5), .run 0, .run 0, .run 0, .time 1 1000005, .time 6 0,
      .timeout 0, .run 0, .run 0, .run 0, .run 0] (by decide)
  refine ⟨e, h2 0 (by decide), ?_, h1 (·.base.pcs[0]?) 11 _ (by decide) rfl⟩
  · intro k g1 g2 r h
    match k, g1, g2 with
    | 1, _, _ => rw [h1 (·.base.pcs[0]?) 1 _ (by decide) rfl] at h; cases h
    | 2, _, _ => rw [h1 (·.base.pcs[0]?) 2 _ (by decide) rfl] at h; cases h
    | 3, _, _ => rw [h1 (·.base.pcs[0]?) 3 _ (by decide) rfl] at h; cases h
    | 4, _, _ => rw [h1 (·.base.pcs[0]?) 4 _ (by decide) rfl] at h; cases h
    | 5, _, _ => rw [h1 (·.base.pcs[0]?) 5 _ (by decide) rfl] at h; cases h
    | 6, _, _ => rw [h1 (·.base.pcs[0]?) 6 _ (by decide) rfl] at h; cases h
    | 7, _, _ => rw [h1 (·.base.pcs[0]?) 7 _ (by decide) rfl] at h; cases h
    | 8, _, _ => rw [h1 (·.base.pcs[0]?) 8 _ (by decide) rfl] at h; cases h
    | 9, _, _ => rw [h1 (·.base.pcs[0]?) 9 _ (by decide) rfl] at h; cases h
    | 10, _, _ => rw [h1 (·.base.pcs[0]?) 10 _ (by decide) rfl] at h; cases h

end Verif.PyWaitHandler

namespace Verif.Periodic
open Verif.Threads Verif.Timed

/-- The timer thread calls the callback at moment `k`. -/
def Calls {period : Nat} (e : Run (periodic period)) (k : Nat) : Prop :=
  e.label k = some (.run 0) ∧ (e.at_ (k + 1)).base.sh.calls = (e.at_ k).base.sh.calls + 1

theorem calls_at {period n : Nat} {e : Run (periodic period)} (h0 : (e.at_ 0).base = init .plain n) {k : Nat}
    (h : Calls e k) :
    (e.at_ k).base.pcs[0]? = some .timerCall ∧ (e.at_ (k + 1)).base.pcs[0]? = some .timerRel := by
  obtain ⟨hl, hc⟩ := h
  have hI : (prog .plain).Inv Glob Loc (e.at_ k).base :=
    e.inv (good period) (by rw [h0]; exact inv .init) k
  rcases e.next k with ⟨h', -⟩ | ⟨l, hl', hs⟩
  · rw [hl] at h'; cases h'
  · rw [hl] at hl'
    cases hl'
    have hb : (prog .plain).system.step (e.at_ k).base (.run 0) = some (e.at_ (k + 1)).base := step_base hs
    obtain ⟨x, hx⟩ := Prog.stepped_at (Prog.step_stepped hb)
    obtain ⟨sh, y, b, hr, e1, hy⟩ := Prog.stepped_run (Prog.step_stepped hb) hx
    have hr := run_ran (i := 0) (x := x) hr
    have ht := (hI.loc 0 x hx).timer.2 rfl
    rw [e1] at hc
    cases hr with
    | timerCall => exact ⟨hx, hy⟩
    | eventCall => cases ht
    | _ => exact absurd hc (by simp)

theorem spaced {period n : Nat} (e : Run (periodic period)) (h0 : (e.at_ 0).base = init .plain n) {a b : Nat}
    (hab : a ≤ b) (ha : phase (e.at_ a).base 0 = .out) (hb : Calls e b) :
    (period : Int) * 1000000 ≤ (e.at_ b).mono - (e.at_ a).mono := by
  obtain ⟨j, k, ⟨h1, h2, -⟩, h3, -, h5⟩ := e.timed_out (good period) (by rw [h0]; exact inv .init) (i := 0) hab
    (Or.inl ha) (show phase _ _ = _ by rw [phase_get (calls_at h0 hb).1]; rfl)
  have h5 : (e.at_ j).mono + nanos period ≤ (e.at_ k).mono := h5
  unfold nanos at h5
  have g1 := e.mono_le (n := a) (m := j) (by omega)
  have g2 := e.mono_le (n := k) (m := b) (by omega)
  omega

/-- C152: from the end of a call of the callback by the timer to the next one at least the period passes; also when the
callback was unset and set meanwhile, and whatever happens to the system clock. -/
theorem C152_period {period n : Nat} (e : Run (periodic period)) (h0 : (e.at_ 0).base = init .plain n) (a b : Nat)
    (hab : a < b) (ha : Calls e a) (hb : Calls e b) :
    (period : Int) * 1000000 ≤ (e.at_ b).mono - (e.at_ (a + 1)).mono :=
  spaced e h0 hab (by rw [phase_get (calls_at h0 ha).2]; rfl) hb

/-- C152: the first call comes at least a period after any moment at which no timer thread was running. -/
theorem C152_first {period n : Nat} (e : Run (periodic period)) (h0 : (e.at_ 0).base = init .plain n) (a b : Nat)
    (hab : a ≤ b) (ha : (e.at_ a).base.sh.thread ≠ .running) (hb : Calls e b) :
    (period : Int) * 1000000 ≤ (e.at_ b).mono - (e.at_ a).mono := by
  refine spaced e h0 hab ?_ hb
  have hI : (prog .plain).Inv Glob Loc (e.at_ a).base :=
    e.inv (good period) (by rw [h0]; exact inv .init) a
  cases hx : (e.at_ a).base.pcs[0]? with
  | none => simp [phase, hx]
  | some x =>
    rw [phase_get hx]
    have hl := hI.loc 0 x hx
    have ht := hl.timer.2 rfl
    have hf := hl.tfact
    cases x <;> first
      | rfl
      | (cases ht; done)
      | exact absurd hf ha
      | exact absurd hf.1 ha

/-- Two calls of the timer, with a period of one millisecond. -/
example : ∃ e : Run (periodic 1), (e.at_ 0).base = init .plain 1 ∧ Calls e 18 ∧ Calls e 30 ∧
    (e.at_ 5).base.sh.thread ≠ .running := by
  obtain ⟨e, h1, h2, -⟩ := Run.ofExec_seen (Timed.init (periodic 1) (init .plain 1) 0 5 ())
    [.start 1 .set (), .run 1, .run 1, .run 1, .run 1, .run 1, .run 1, .run 1,
      .run 0, .run 0, .run 0, .run 0, .time 1000000 0, .timeout 0, .run 0, .run 0, .run 0, .run 0, .run 0,
      .run 0, .run 0, .run 0, .run 0, .run 0, .time 2000000 0, .timeout 0, .run 0, .run 0, .run 0, .run 0, .run 0] (by decide)
  refine ⟨e, h1 (·.base) 0 _ (by decide) rfl, ⟨h2 18 (by decide), ?_⟩, ⟨h2 30 (by decide), ?_⟩, ?_⟩
  · rw [h1 (·.base.sh.calls) 18 0 (by decide) (by decide), h1 (·.base.sh.calls) 19 1 (by decide) (by decide)]
  · rw [h1 (·.base.sh.calls) 30 1 (by decide) (by decide), h1 (·.base.sh.calls) 31 2 (by decide) (by decide)]
  · rw [h1 (·.base.sh.thread) 5 .none (by decide) (by decide)]; decide

end Verif.Periodic
