import Verif.Model.Timer
import Verif.Props.Builder
/-!
C39: the pausable timer measures the time spent playing.
-/
namespace Verif.Timer
open Verif.Builder (snocInd)

/-- Is the timer playing during the tick that starts at time `τ`?  The last play or pause made at a
time not after `τ` decides. -/
def playingAt (p0 : Bool) (evs : List (Nat × Op)) (τ : Nat) : Bool :=
  match (evs.filter fun e => decide (e.1 ≤ τ) && (e.2 == .play || e.2 == .pause)).getLast? with
  | some e => e.2 == .play
  | none => p0

/-- Time of the last reset, or of construction. -/
def lastReset (t0 : Nat) (evs : List (Nat × Op)) : Nat :=
  match (evs.filter fun e => e.2 == .reset).getLast? with
  | some e => e.1
  | none => t0

/-- Number of ticks in `[a, b)` at which `f` holds. -/
def ticks (f : Nat → Bool) (a b : Nat) : Nat :=
  ((List.range b).filter fun τ => decide (a ≤ τ) && f τ).length

theorem ticks_self (f : Nat → Bool) (a : Nat) : ticks f a a = 0 := by
  unfold ticks
  rw [List.length_eq_zero_iff, List.filter_eq_nil_iff]
  intro τ h
  have := List.mem_range.1 h
  simp only [Bool.and_eq_true, decide_eq_true_eq, not_and]
  omega

theorem ticks_succ (f : Nat → Bool) (a b : Nat) (h : a ≤ b) :
    ticks f a (b + 1) = ticks f a b + if f b then 1 else 0 := by
  unfold ticks
  rw [List.range_succ, List.filter_append, List.length_append]
  cases hf : f b <;> simp [hf, h]

/-- A stretch in which `f` is constant. -/
theorem ticks_const (f : Nat → Bool) (p : Bool) (a b n : Nat) (h : a ≤ b)
    (hf : ∀ τ, b ≤ τ → τ < b + n → f τ = p) :
    ticks f a (b + n) = ticks f a b + if p then n else 0 := by
  induction n with
  | zero => cases p <;> simp
  | succ n ih =>
    rw [← Nat.add_assoc, ticks_succ f a (b + n) (by omega), ih (fun τ h1 h2 => hf τ h1 (by omega)),
      hf (b + n) (by omega) (by omega)]
    cases p <;> simp <;> omega

theorem ticks_congr (f g : Nat → Bool) (a b : Nat) (h : ∀ τ, a ≤ τ → τ < b → f τ = g τ) :
    ticks f a b = ticks g a b := by
  unfold ticks
  congr 1
  apply List.filter_congr
  intro τ hτ
  by_cases ha : a ≤ τ
  · rw [h τ ha (List.mem_range.1 hτ)]
  · simp [ha]

theorem playingAt_snoc (p0 : Bool) (evs : List (Nat × Op)) (t : Nat) (o : Op) (τ : Nat) :
    playingAt p0 (evs ++ [(t, o)]) τ =
      if t ≤ τ then (match o with | .play => true | .pause => false | .reset => playingAt p0 evs τ)
      else playingAt p0 evs τ := by
  unfold playingAt
  rw [List.filter_append]
  by_cases h : t ≤ τ
  · cases o <;> simp [h]
  · simp [h]

theorem lastReset_snoc (t0 : Nat) (evs : List (Nat × Op)) (t : Nat) (o : Op) :
    lastReset t0 (evs ++ [(t, o)]) = if o = .reset then t else lastReset t0 evs := by
  unfold lastReset
  rw [List.filter_append]
  cases o <;> simp

theorem run_snoc (s : State) (evs : List (Nat × Op)) (t : Nat) (o : Op) :
    run s (evs ++ [(t, o)]) = step (run s evs) t o := by
  simp [run, List.foldl_append]

/-- Everything known after a chronological sequence of calls ending not after `L`. -/
theorem invariant (t0 : Nat) (p0 : Bool) (evs : List (Nat × Op))
    (hc : (evs.map (·.1)).Pairwise (· ≤ ·)) (h0 : ∀ e ∈ evs, t0 ≤ e.1)
    (L : Nat) (hL : t0 ≤ L) (hl : ∀ e ∈ evs, e.1 ≤ L) :
    lastReset t0 evs ≤ L ∧ (run (init t0 p0) evs).start ≤ L ∧
    (∀ τ, L ≤ τ → playingAt p0 evs τ = (run (init t0 p0) evs).playing) ∧
    elapsed (run (init t0 p0) evs) L = ticks (playingAt p0 evs) (lastReset t0 evs) L := by
  induction evs using snocInd generalizing L with
  | nil =>
    refine ⟨hL, hL, fun _ _ => rfl, ?_⟩
    have e : L = t0 + (L - t0) := by omega
    have := ticks_const (playingAt p0 []) p0 t0 t0 (L - t0) (Nat.le_refl _) (fun _ _ _ => rfl)
    rw [← e, ticks_self] at this
    show elapsed (init t0 p0) L = ticks (playingAt p0 []) t0 L
    rw [this]
    cases p0 <;> simp [elapsed, init, rawElapsed]
  | append_singleton xs x ih =>
    obtain ⟨t, o⟩ := x
    rw [List.map_append, List.pairwise_append] at hc
    have hx : ∀ e ∈ xs, e.1 ≤ t := by
      intro e he
      exact hc.2.2 e.1 (List.mem_map_of_mem he) t (by simp)
    have ht0 : t0 ≤ t := h0 (t, o) (by simp)
    have htL : t ≤ L := hl (t, o) (by simp)
    obtain ⟨i1, i2, i3, i4⟩ := ih hc.1 (fun e he => h0 e (by simp [he])) t ht0 hx
    rw [run_snoc, lastReset_snoc]
    generalize run (init t0 p0) xs = s at i2 i3 i4
    -- the timer state decides what happens from `t` on
    have hp : ∀ τ, t ≤ τ → playingAt p0 (xs ++ [(t, o)]) τ = (step s t o).playing := by
      intro τ hτ
      rw [playingAt_snoc, if_pos hτ]
      cases o with
      | play => cases hs : s.playing <;> simp [step, hs]
      | pause => cases hs : s.playing <;> simp [step, hs]
      | reset => simpa [step, rawReset] using i3 τ hτ
    have hlow : ∀ τ, τ < t → playingAt p0 (xs ++ [(t, o)]) τ = playingAt p0 xs τ := by
      intro τ hτ
      rw [playingAt_snoc, if_neg (by omega)]
    have hlr : (if o = .reset then t else lastReset t0 xs) ≤ t := by split <;> omega
    refine ⟨by omega, ?_, fun τ hτ => hp τ (by omega), ?_⟩
    · cases o <;> cases hs : s.playing <;> simp [step, hs, rawReset] <;> omega
    · have e : L = t + (L - t) := by omega
      have hk := ticks_const (playingAt p0 (xs ++ [(t, o)])) (step s t o).playing
        (if o = .reset then t else lastReset t0 xs) t (L - t) hlr (fun τ h1 _ => hp τ h1)
      rw [← e] at hk
      rw [hk]
      have hbase : ticks (playingAt p0 (xs ++ [(t, o)])) (if o = .reset then t else lastReset t0 xs) t
          = if o = .reset then 0 else elapsed s t := by
        by_cases ho : o = .reset
        · simp only [ho, if_true, ticks_self]
        · simp only [ho, if_false]
          rw [i4]
          exact ticks_congr _ _ _ _ (fun τ _ h2 => hlow τ h2)
      rw [hbase]
      cases o <;> cases hs : s.playing <;>
        simp [step, hs, elapsed, rawReset, rawElapsed] <;> omega

/-- C39: at any time after the calls made so far, `elapsed` is the number of ticks since the last reset
(or construction) during which the timer was playing. -/
theorem C39_elapsed (t0 : Nat) (p0 : Bool) (evs : List (Nat × Op)) (now : Nat)
    (chronological : (evs.map (·.1)).Pairwise (· ≤ ·)) (afterStart : ∀ e ∈ evs, t0 ≤ e.1)
    (hnow : t0 ≤ now) (past : ∀ e ∈ evs, e.1 ≤ now) :
    elapsed (run (init t0 p0) evs) now = ticks (playingAt p0 evs) (lastReset t0 evs) now :=
  (invariant t0 p0 evs chronological afterStart now hnow past).2.2.2

/-- C39: `playing` is the last play / pause request. -/
theorem C39_playing (t0 : Nat) (p0 : Bool) (evs : List (Nat × Op)) (now : Nat)
    (chronological : (evs.map (·.1)).Pairwise (· ≤ ·)) (afterStart : ∀ e ∈ evs, t0 ≤ e.1)
    (hnow : t0 ≤ now) (past : ∀ e ∈ evs, e.1 ≤ now) :
    (run (init t0 p0) evs).playing = playingAt p0 evs now :=
  ((invariant t0 p0 evs chronological afterStart now hnow past).2.2.1 now (Nat.le_refl _)).symm

/-- Non-trivial case: paused, played at 10, paused at 15, played again at 20, read at 26. -/
example : elapsed (run (init 3 false) [(10, .play), (15, .pause), (20, .play)]) 26 = 11 ∧
    ticks (playingAt false [(10, .play), (15, .pause), (20, .play)]) 3 26 = 11 := by decide

end Verif.Timer
