import Verif.Props.FileWatcherState
/-!
C110, C113, C114 for callbacks that set another callback: what they do can also be done with callbacks that do not use the handler.
-/
namespace Verif.FileWatcher
open Verif.Threads
open Verif.FileWatch

/-- The same with a callback that does not use the handler. -/
def Cfg.simple (c : Cfg) : Cfg := { c with callback := .plain }

/-- A callback that sets another one is in the callback all the time. -/
def PC.back : PC → PC
  | .cbLock t | .cbFlag t | .cbDestroy t | .cbRemove t | .cbNotify t | .cbJoinW t | .cbJoinC t | .cbOut t => .evCall t
  | x => x

/-- The callback has `event_mutex_`. -/
def PC.inside : PC → Bool
  | .cbFlag _ | .cbOut _ => true
  | _ => false

/-- The callback or inside of it. -/
def PC.calls : PC → Bool
  | .evCall _ | .cbLock _ | .cbFlag _ | .cbDestroy _ | .cbRemove _ | .cbNotify _ | .cbJoinW _ | .cbJoinC _ | .cbOut _ => true
  | _ => false

theorem feed_event (s : Sh) (e : Ev) (o : Option Nat) :
    { s with event := o }.feed e = { s.feed e with event := o } := by
  unfold Sh.feed
  split <;> rfl

theorem feed_same (s : Sh) (e : Ev) : (s.feed e).event = s.event := (feed_calm s e).event

/-- Steps outside the callback. -/
theorem run_back {c : Cfg} {i : Nat} {s s' : Sh} {x y : PC} {b : Bool} (hx : x.calls = false)
    (h : run c i s x = some (s', y, b)) (o : Option Nat) (ho : s.event = none → o = none) :
    ∃ o', run c.simple i { s with event := o } x = some ({ s' with event := o' }, y, b) ∧ y.back = y ∧ y.inside = false ∧
      ((o' = o ∧ s'.event = s.event) ∨ (s.event = none ∧ s'.event = some i ∧ o' = some i) ∨
        (x.hasEvent = true ∧ s'.event = none ∧ o' = none)) := by
  cases x with
  | evCall | cbLock | cbFlag | cbDestroy | cbRemove | cbNotify | cbJoinW | cbJoinC | cbOut => cases hx
  | setLock | unsetLock =>
    simp only [run] at h
    split at h
    · cases h
    · rename_i hl
      cases h
      have hl := not_isSome hl
      exact ⟨some i, by simp [run, ho hl], rfl, rfl, Or.inr (Or.inl ⟨hl, rfl, rfl⟩)⟩
  | setOut | unsetOut =>
    cases h
    exact ⟨none, rfl, rfl, rfl, Or.inr (Or.inr ⟨rfl, rfl, rfl⟩)⟩
  | idle | asleep => cases h
  | fsChange e =>
    cases h
    exact ⟨o, by simp only [run, feed_event], rfl, rfl, Or.inl ⟨rfl, feed_same s e⟩⟩
  | fsGone =>
    cases h
    exact ⟨o, by simp only [run, Sh.unwatch, feed_event], rfl, rfl, Or.inl ⟨rfl, feed_same s ignored⟩⟩
  | dRemove =>
    cases h
    exact ⟨o, by simp only [run, Sh.unwatch, feed_event], rfl, rfl, Or.inl ⟨rfl, feed_same s ignored⟩⟩
  | evTest t =>
    cases hs : s.set with
    | true => 
      simp only [run, hs] at h
      cases h
      exact ⟨o, by simp [run, hs], rfl, rfl, Or.inl ⟨rfl, rfl⟩⟩
    | false =>
      simp only [run, hs] at h
      cases h
      exact ⟨o, by cases t <;> simp [run, hs, Sh.next], rfl, rfl, Or.inl ⟨rfl, by cases t <;> rfl⟩⟩
  | cNext =>
    cases hb : s.batch with
    | nil =>
      simp only [run, hb] at h
      cases h
      exact ⟨o, by simp [run, hb], rfl, rfl, Or.inl ⟨rfl, rfl⟩⟩
    | cons q rest =>
      obtain ⟨p, k⟩ := q
      cases k <;> simp only [run, hb] at h <;> cases h <;>
        exact ⟨o, by simp [run, hb], rfl, rfl, Or.inl ⟨rfl, rfl⟩⟩
  | setRel t | evRel t =>
    cases t <;> cases h <;> exact ⟨o, rfl, rfl, rfl, Or.inl ⟨rfl, rfl⟩⟩
  | setMake =>
    simp only [run] at h
    split at h <;> rename_i hl <;> cases h <;>
      exact ⟨o, by simp [run, hl, Sh.make], rfl, rfl, Or.inl ⟨rfl, rfl⟩⟩
  | setInternal | unsetInternal | evLock | wPush | cLock | cAgain =>
    simp only [run] at h
    split at h
    · cases h
    · rename_i hl
      cases h
      exact ⟨o, by simp [run, not_isSome hl], rfl, rfl, Or.inl ⟨rfl, rfl⟩⟩
  | wRead =>
    simp only [run] at h
    split at h
    · cases h
    · rename_i hl
      cases h
      exact ⟨o, by simp [run, hl, Cfg.simple], rfl, rfl, Or.inl ⟨rfl, rfl⟩⟩
  | setWait | dJoinW | dJoinC | wOff | cOff =>
    simp only [run] at h
    split at h
    · rename_i hl
      cases h
      exact ⟨o, by simp [run, hl], rfl, rfl, Or.inl ⟨rfl, rfl⟩⟩
    · cases h
  | setHook | unsetTest | unsetHook | wLoop | cLoop | cIf | cPred =>
    simp only [run] at h
    cases h
    refine ⟨o, rfl, ?_, ?_, Or.inl ⟨rfl, rfl⟩⟩ <;> (repeat' split) <;> rfl
  | _ =>
    cases h
    exact ⟨o, rfl, rfl, rfl, Or.inl ⟨rfl, rfl⟩⟩

/-- How a state with callbacks that set another one is also one with callbacks that do not use the handler. -/
structure Like {c : Cfg} (s : Conf (prog c)) (p : Conf (prog c.simple)) : Prop where
  pcs : p.pcs = s.pcs.map PC.back
  sh : p.sh = { s.sh with event := p.sh.event }
  free : s.sh.event = none → p.sh.event = none
  inside : ∀ (i : Nat) (x : PC), s.pcs[i]? = some x → x.inside = true → s.sh.event = some i ∧ p.sh.event = none

theorem start_back {x y : PC} {op : Op} (h : start x op = some y) :
    x.back = x ∧ y.back = y ∧ y.inside = false := by
  cases x <;> cases op <;> cases h <;> exact ⟨rfl, rfl, rfl⟩

theorem woken_back {x y : PC} (h : woken x = some y) : x.back = x ∧ y.back = y ∧ y.inside = false := by
  cases x <;> cases h <;> exact ⟨rfl, rfl, rfl⟩

theorem wake_back {c : Cfg} (x : PC) : ((prog c).wake x).back = (prog c.simple).wake x.back := by
  cases x <;> rfl

theorem wake_inside {c : Cfg} {x : PC} (h : ((prog c).wake x).inside = true) : (prog c).wake x = x := by
  cases x <;> first | rfl | cases h

theorem back_other {x : PC} (h : x.calls = false) : x.back = x := by
  cases x <;> first | rfl | cases h

theorem in_set {L : List PC} {i j : Nat} {x y : PC} (h : (L.set i y)[j]? = some x) :
    (j = i ∧ x = y) ∨ (j ≠ i ∧ L[j]? = some x) := by
  by_cases hj : j = i
  · subst hj
    have hl : j < L.length := by simpa using (List.getElem?_eq_some_iff.1 h).1
    rw [List.getElem?_set, if_pos rfl, if_pos hl] at h
    cases h
    exact Or.inl ⟨rfl, rfl⟩
  · rw [get_set_ne hj] at h
    exact Or.inr ⟨hj, h⟩

/-- One step: with callbacks that do not use the handler the same step, or none. -/
theorem like_step {c : Cfg} (hc : c.callback = .change) {s s' : Conf (prog c)} {p : Conf (prog c.simple)}
    (hR : Like s p) (hp : (prog c.simple).Inv (Glob c.simple) Loc p) {l : Label Op} (hs : (prog c).Stepped s l s') :
    ∃ p' : Conf (prog c.simple), Like s' p' ∧ (p' = p ∨ (prog c.simple).Stepped p l p') := by
  have get : ∀ {i : Nat} {x : PC}, s.pcs[i]? = some x → p.pcs[i]? = some x.back := by
    intro i x hx
    rw [hR.pcs, List.getElem?_map, hx]
    rfl
  have others : ∀ (L : List PC), (∀ (j : Nat) (x : PC), L[j]? = some x → x.inside = true → s.pcs[j]? = some x) →
      ∀ (i : Nat) (y : PC) (sh : Sh) (o : Option Nat), (y.inside = true → sh.event = some i ∧ o = none) →
      (sh.event = s.sh.event ∧ o = p.sh.event ∨
        ∀ (j : Nat) (z : PC), j ≠ i → s.pcs[j]? = some z → z.inside = false) →
      ∀ (j : Nat) (x : PC), (L.set i y)[j]? = some x → x.inside = true → sh.event = some j ∧ o = none := by
    intro L hL i y sh o h2 h3 j x hx hi
    rcases in_set hx with ⟨rfl, rfl⟩ | ⟨hj, hx⟩
    · exact h2 hi
    · have hx := hL j x hx hi
      obtain ⟨h4, h5⟩ := hR.inside j x hx hi
      rcases h3 with ⟨h3, h6⟩ | h3
      · exact ⟨h3.trans h4, h6.trans h5⟩
      · rw [h3 j x hj hx] at hi; cases hi
  have wokenL : ∀ (j : Nat) (x : PC), (s.pcs.map (prog c).wake)[j]? = some x → x.inside = true →
      s.pcs[j]? = some x := by
    intro j x hx hi
    rw [List.getElem?_map] at hx
    cases hj : s.pcs[j]? with
    | none => rw [hj] at hx; cases hx
    | some z =>
      rw [hj] at hx
      cases hx
      have hz : (prog c).wake z = z := wake_inside hi
      rw [hz]
  have wokenM : p.pcs.map (prog c.simple).wake = (s.pcs.map (prog c).wake).map PC.back := by
    rw [hR.pcs, List.map_map, List.map_map]
    exact List.map_congr_left fun x _ => (wake_back (c := c) x).symm
  have mk : ∀ (L M : List PC), M = L.map PC.back →
      (∀ (j : Nat) (x : PC), L[j]? = some x → x.inside = true → s.pcs[j]? = some x) →
      ∀ (i : Nat) (y : PC) (sh : Sh) (o : Option Nat), (sh.event = none → o = none) →
      (y.inside = true → sh.event = some i ∧ o = none) →
      (sh.event = s.sh.event ∧ o = p.sh.event ∨
        ∀ (j : Nat) (z : PC), j ≠ i → s.pcs[j]? = some z → z.inside = false) →
      Like (c := c) ⟨sh, L.set i y⟩ ⟨{ sh with event := o }, M.set i y.back⟩ := by
    intro L M hM hL i y sh o h1 h2 h3
    refine ⟨?_, rfl, h1, others L hL i y sh o h2 h3⟩
    change M.set i y.back = (L.set i y).map PC.back
    rw [hM, List.map_set]
  have calm : ∀ (i : Nat) (y : PC), y.back = y → y.inside = false →
      Like (c := c) ⟨s.sh, s.pcs.set i y⟩ ⟨p.sh, p.pcs.set i y⟩ := by
    intro i y h1 h2
    have h := mk s.pcs p.pcs hR.pcs (fun _ _ h _ => h) i y s.sh p.sh.event hR.free
      (fun h => by rw [h2] at h; cases h) (Or.inl ⟨rfl, rfl⟩)
    rw [← hR.sh, h1] at h
    exact h
  -- a step outside the callback
  have outside : ∀ {i : Nat} {x y : PC} {sh : Sh} {b : Bool}, s.pcs[i]? = some x → x.calls = false →
      run c i s.sh x = some (sh, y, b) → ∃ o, run c.simple i p.sh x = some ({ sh with event := o }, y, b) ∧
        y.back = y ∧ y.inside = false ∧ (sh.event = none → o = none) ∧
        (sh.event = s.sh.event ∧ o = p.sh.event ∨
          ∀ (j : Nat) (z : PC), j ≠ i → s.pcs[j]? = some z → z.inside = false) := by
    intro i x y sh b hx hcall hr
    obtain ⟨o, h1, h2, h3, h4⟩ := run_back hcall hr p.sh.event hR.free
    rw [← hR.sh] at h1
    refine ⟨o, h1, h2, h3, ?_, ?_⟩
    · rcases h4 with ⟨e1, e2⟩ | ⟨-, e1, -⟩ | ⟨-, -, e1⟩
      · rw [e1, e2]; exact hR.free
      · rw [e1]; exact nofun
      · exact fun _ => e1
    · rcases h4 with ⟨e1, e2⟩ | ⟨e1, -, -⟩ | ⟨e1, -, -⟩
      · exact Or.inl ⟨e2, e1⟩
      · refine Or.inr fun j z _ hz => ?_
        cases hi : z.inside with
        | false => rfl
        | true =>
          have h := (hR.inside j z hz hi).1
          rw [e1] at h
          cases h
      · refine Or.inr fun j z _ hz => ?_
        cases hi : z.inside with
        | false => rfl
        | true =>
          have hl := hp.loc i _ (get hx)
          rw [back_other hcall] at hl
          have h := hl.event.1 e1
          rw [(hR.inside j z hz hi).2] at h
          cases h
  -- the callback begins or goes on
  have stay : ∀ {i : Nat} {x y : PC} {sh : Sh}, s.pcs[i]? = some x → y.back = x.back →
      (∀ o, { sh with event := o } = { s.sh with event := o }) → (sh.event = none → p.sh.event = none) →
      (y.inside = true → sh.event = some i ∧ p.sh.event = none) →
      (sh.event = s.sh.event ∨ ∀ (j : Nat) (z : PC), j ≠ i → s.pcs[j]? = some z → z.inside = false) →
      Like (c := c) ⟨sh, s.pcs.set i y⟩ p := by
    intro i x y sh hx hb hsh h1 h2 h3
    have h := mk s.pcs p.pcs hR.pcs (fun _ _ h _ => h) i y sh p.sh.event h1 h2 (h3.imp_left fun h => ⟨h, rfl⟩)
    rw [hsh, ← hR.sh, hb] at h
    have hset : p.pcs.set i x.back = p.pcs := by
      refine List.ext_getElem? fun j => ?_
      by_cases hj : j = i
      · subst hj; rw [get_set_self (get hx), get hx]
      · exact get_set_ne hj
    rw [hset] at h
    exact h
  have evFree : s.sh.event = none → ∀ (i j : Nat) (z : PC), j ≠ i → s.pcs[j]? = some z → z.inside = false := by
    intro he i j z _ hz
    cases hi : z.inside with
    | false => rfl
    | true =>
      have h := (hR.inside j z hz hi).1
      rw [he] at h
      cases h
  rcases hs with ⟨i, op, x, y, hx, hy⟩ | ⟨i, x, y, sh, hx, hy⟩ | ⟨i, x, y, sh, hx, hy⟩ | ⟨i, x, y, hx, hy⟩ | ⟨i, x, y, hx, hy⟩
  · obtain ⟨h1, h2, h3⟩ := start_back hy
    exact ⟨_, calm i y h2 h3, Or.inr (Prog.Stepped.start (P := prog c.simple) i op x y ((get hx).trans (congrArg some h1)) hy)⟩
  · have hy : run c i s.sh x = some (sh, y, false) := hy
    cases hcall : x.calls with
    | false =>
      obtain ⟨o, h1, h2, h3, h4, h5⟩ := outside hx hcall hy
      refine ⟨⟨{ sh with event := o }, p.pcs.set i y⟩, ?_,
        Or.inr (Prog.Stepped.run (P := prog c.simple) i x y _ ((get hx).trans (congrArg some (back_other hcall))) h1)⟩
      have h := mk _ _ hR.pcs (fun _ _ h _ => h) i y sh o h4 (fun h => by rw [h3] at h; cases h) h5
      rw [h2] at h
      exact h
    | true =>
      cases x <;> first | (cases hcall; done) | skip
      case evCall t _ =>
        simp only [run, hc] at hy
        cases hy
        exact ⟨p, stay hx rfl (fun _ => rfl) hR.free nofun (Or.inl rfl), Or.inl rfl⟩
      case cbLock t _ =>
        simp only [run, hc] at hy
        split at hy
        · cases hy
        · split at hy
          · cases hy
          · rename_i hl
            cases hy
            have hl := not_isSome hl
            exact ⟨p, stay hx rfl (fun _ => rfl) nofun (fun _ => ⟨rfl, hR.free hl⟩) (Or.inr (evFree hl i)), Or.inl rfl⟩
      case cbFlag t _ =>
        simp only [run, hc] at hy
        cases hy
        exact ⟨p, stay hx rfl (fun _ => rfl) hR.free (fun _ => hR.inside i _ hx rfl) (Or.inl rfl), Or.inl rfl⟩
      case cbOut t _ =>
        simp only [run, hc] at hy
        split at hy
        · cases hy
        · cases hy
          obtain ⟨he, hn⟩ := hR.inside i _ hx rfl
          refine ⟨⟨{ (s.sh.call t).next t with event := none }, p.pcs.set i (.evRel t)⟩, ?_,
            Or.inr (Prog.Stepped.run (P := prog c.simple) i (.evCall t) (.evRel t) _ (get hx) ?_)⟩
          · refine mk _ _ hR.pcs (fun _ _ h _ => h) i (.evRel t) { (s.sh.call t).next t with event := none } none
              (fun _ => rfl) nofun (Or.inr ?_)
            intro j z hj hz
            cases hi : z.inside with
            | false => rfl
            | true =>
              have h := (hR.inside j z hz hi).1
              rw [he] at h
              cases h
              exact absurd rfl hj
          · change run c.simple i p.sh (.evCall t) = _
            rw [hR.sh, hn]
            cases t <;> rfl
      all_goals simp [run, hc] at hy
  · cases hcall : x.calls with
    | false =>
      obtain ⟨o, h1, h2, h3, h4, h5⟩ := outside hx hcall hy
      refine ⟨⟨{ sh with event := o }, (p.pcs.map (prog c.simple).wake).set i y⟩, ?_,
        Or.inr (Prog.Stepped.notify (P := prog c.simple) i x y _ ((get hx).trans (congrArg some (back_other hcall))) h1)⟩
      have h := mk _ _ wokenM wokenL i y sh o h4 (fun h => by rw [h3] at h; cases h) h5
      rw [h2] at h
      exact h
    | true =>
      replace hy : run c i s.sh x = some (sh, y, true) := hy
      cases x <;> first | (cases hcall; done) | skip
      all_goals simp only [run, hc] at hy
      all_goals repeat' first | (cases hy; done) | split at hy
  · obtain ⟨h1, h2, h3⟩ := woken_back hy
    exact ⟨_, calm i y h2 h3, Or.inr (Prog.Stepped.spurious (P := prog c.simple) i x y ((get hx).trans (congrArg some h1)) hy)⟩
  · cases hy

/-- Every history with callbacks that set another callback is, but for that, one with callbacks that do not use the handler. -/
theorem like_exec {c : Cfg} (hc : c.callback = .change) {s s' : Conf (prog c)} {p : Conf (prog c.simple)}
    (hR : Like s p) (hp : (prog c.simple).Inv (Glob c.simple) Loc p) {ls : List (Label Op)}
    (h : (prog c).system.exec s ls = some s') :
    ∃ (p' : Conf (prog c.simple)) (ks : List (Label Op)), ks.Sublist ls ∧ (prog c.simple).system.exec p ks = some p' ∧
      Like s' p' := by
  induction ls generalizing s p with
  | nil => cases h; exact ⟨p, [], .slnil, rfl, hR⟩
  | cons l ls ih =>
    change ((prog c).system.step s l).bind _ = some s' at h
    cases hs : (prog c).system.step s l with
    | none => rw [hs] at h; cases h
    | some s1 =>
      rw [hs] at h
      obtain ⟨p1, h1, h2 | h2⟩ := like_step hc hR hp (Prog.step_stepped hs)
      · subst h2
        obtain ⟨p', ks, h3, h4, h5⟩ := ih h1 hp h
        exact ⟨p', ks, h3.cons l, h4, h5⟩
      · have hst := Prog.stepped_step h2
        obtain ⟨p', ks, h3, h4, h5⟩ := ih h1 ((local_ rfl).step hp (Label.allowed_true _) h2) h
        refine ⟨p', l :: ks, h3.cons_cons l, ?_, h5⟩
        change ((prog c.simple).system.step p l).bind _ = some p'
        rw [hst]
        exact h4

theorem like_reachable {c : Cfg} (hc : c.callback = .change) {A : Op → Prop} {path : Bool} {n : Nat} {s : Conf (prog c)}
    (h : (prog c).system.ReachableBy A (init c path n) s) :
    ∃ p : Conf (prog c.simple), (prog c.simple).system.ReachableBy A (init c.simple path n) p ∧ Like s p := by
  refine System.ReachableBy.invariant (S := (prog c).system)
    (fun s => ∃ p : Conf (prog c.simple), (prog c.simple).system.ReachableBy A (init c.simple path n) p ∧ Like s p) ?_ ?_ h
  · refine ⟨init c.simple path n, .init, ?_, rfl, fun _ => rfl, ?_⟩
    · simp [init, PC.back]
    · intro i x hx hi
      rcases init_at hx with ⟨-, h⟩ | ⟨-, h⟩ | ⟨-, -, h⟩ <;> subst h <;> cases hi
  · intro s l s' ⟨p, h1, h2⟩ hA hs
    obtain ⟨p', h3, h4 | h4⟩ := like_step hc h2 (inv rfl h1.reachable) (Prog.step_stepped hs)
    · subst h4; exact ⟨p', h1, h3⟩
    · exact ⟨p', h1.step hA (Prog.stepped_step h4), h3⟩

/-- C110 with callbacks that set another callback for the same handler. -/
theorem C110_calls_changing {c : Cfg} (hc : c.callback = .change) {path : Bool} {n : Nat} {s : Conf (prog c)}
    (h : (prog c).system.Reachable (init c path n) s) (hn : ∀ e ∈ s.sh.fed, ∀ n, e.name = some n → '/' ∉ n) :
    s.sh.called <+: modifications c.filter s.sh.fed ∧
      (s.sh.set = true → s.sh.present = true → s.sh.queue = [] → s.sh.parsed = [] → s.sh.info = [] → s.sh.batch = [] →
        s.sh.called = modifications c.filter s.sh.fed) := by
  obtain ⟨p, h1, h2⟩ := like_reachable hc h
  have h3 := C110_calls (c := c.simple) rfl h1 (by rw [h2.sh]; exact hn)
  rw [h2.sh] at h3
  exact h3

/-- C113 with callbacks that set another callback for the same handler. -/
theorem C113_unset_changing {c : Cfg} (hc : c.callback = .change) {path : Bool} {n : Nat} {s s' : Conf (prog c)}
    (h : (prog c).system.Reachable (init c path n) s) (hset : s.sh.set = false) (hevent : s.sh.event = none)
    (hno : ∀ i : Nat, s.pcs[i]? ≠ some .setLock) {ls : List (Label Op)} (hls : ∀ i, .start i .set ∉ ls)
    (he : (prog c).system.exec s ls = some s') :
    s'.sh.set = false ∧ s'.sh.wt = .none ∧ s'.sh.ct = .none ∧ s'.sh.called = s.sh.called ∧
      ∀ (i : Nat) (t : Bool), s'.pcs[i]? ≠ some (.evCall t) ∧ s'.pcs[i]? ≠ some (.cbLock t) ∧
        s'.pcs[i]? ≠ some (.cbFlag t) ∧ s'.pcs[i]? ≠ some (.cbOut t) := by
  obtain ⟨p, h1, h2⟩ := like_reachable hc h
  obtain ⟨p', ks, h3, h4, h5⟩ := like_exec hc h2 (inv rfl h1) he
  have h6 := C113_unset (c := c.simple) rfl h1 (by rw [h2.sh]; exact hset) (h2.free hevent) ?_
    (fun i hi => hls i (h3.subset hi)) h4
  · rw [h5.sh, h2.sh] at h6
    obtain ⟨a1, a2, a3, a4, a5⟩ := h6
    have away : ∀ (i : Nat) (t : Bool) (x : PC), x.back = .evCall t → s'.pcs[i]? ≠ some x := by
      intro i t x hx hi
      refine a5 i t ?_
      rw [h5.pcs, List.getElem?_map, hi, ← hx]
      rfl
    exact ⟨a1, a2, a3, a4, fun i t => ⟨away i t _ rfl, away i t _ rfl, away i t _ rfl, away i t _ rfl⟩⟩
  · intro i hi
    rw [h2.pcs, List.getElem?_map] at hi
    cases hx : s.pcs[i]? with
    | none => rw [hx] at hi; cases hi
    | some x =>
      rw [hx] at hi
      have hb : x.back = .setLock := Option.some.inj hi
      refine hno i ?_
      rw [hx]
      cases x <;> first | (cases hb; done) | rfl

/-- C114, part, with callbacks that set another callback for the same handler. -/
theorem C114_watched_changing_partial {c : Cfg} (hc : c.callback = .change) {n : Nat} {s : Conf (prog c)}
    (h : (prog c).system.ReachableBy Op.kind (init c true n) s) (hset : s.sh.set = true) (hevent : s.sh.event = none) :
    s.sh.present = true ∧ s.sh.destroy = false ∧ (s.sh.wt = .spawned ∨ s.sh.wt = .running) ∧
      (s.sh.ct = .spawned ∨ s.sh.ct = .running) := by
  obtain ⟨p, h1, h2⟩ := like_reachable hc h
  have h3 := C114_watched_partial (c := c.simple) rfl h1 (by rw [h2.sh]; exact hset) (h2.free hevent)
  rw [h2.sh] at h3
  exact h3

/-- Labels: the file is written to, and the callback called, which sets another one. -/
def changed : List (Label Op) :=
  sets ++ [.run 0, .run 1, .run 1, .run 1, .run 1, .run 1, .run 1, .start 2 (.change written), .run 2,
    .run 0, .run 0, .run 0, .run 0] ++ List.replicate 11 (.run 1)

/-- The hypotheses of `C110_calls_changing` and `C114_watched_changing_partial` are met after the callback has set another one. -/
example : ∃ s : Conf (prog (watched .change)),
    (prog (watched .change)).system.Reachable (init (watched .change) true 1) s ∧
    (prog (watched .change)).system.ReachableBy Op.kind (init (watched .change) true 1) s ∧
    (∀ ev ∈ s.sh.fed, ∀ n, ev.name = some n → '/' ∉ n) ∧ s.sh.set = true ∧ s.sh.event = none ∧
    s.sh.called = [c!"f"] ∧ s.sh.batch = [] ∧ s.sh.queue = [] ∧ s.sh.info = [] ∧ s.sh.parsed = [] := by
  obtain ⟨s, hs, hq⟩ := some_of (o := (prog (watched .change)).system.exec (init (watched .change) true 1) changed)
    (fun (s : Conf (prog (watched .change))) => decide (s.sh.set = true ∧ s.sh.event = none ∧
      s.sh.called = [c!"f"] ∧ s.sh.batch = [] ∧ s.sh.queue = [] ∧ s.sh.info = [] ∧ s.sh.parsed = [] ∧
      s.sh.fed = [written])) (by decide +kernel)
  obtain ⟨h1, h2, h3, h4, h5, h6, h7, h8⟩ := of_decide_eq_true hq
  refine ⟨s, (prog (watched .change)).system.exec_reachable' _ hs, ?_, ?_, h1, h2, h3, h4, h5, h6, h7⟩
  · refine (prog (watched .change)).system.exec_reachable changed ?_ .init hs
    intro l hl
    simp only [changed, sets, List.mem_append, List.mem_cons, List.mem_replicate, List.not_mem_nil, or_false] at hl
    have hk : ∀ i, Label.Allowed Op.kind (.run i) := fun _ => trivial
    rcases hl with (hl | hl) | ⟨-, rfl⟩
    · rcases hl with rfl | rfl | rfl | rfl | rfl | rfl | rfl | rfl | rfl | rfl | rfl | rfl <;> exact trivial
    · rcases hl with rfl | rfl | rfl | rfl | rfl | rfl | rfl | rfl | rfl | rfl | rfl | rfl | rfl <;> exact trivial
    · exact hk _
  · rw [h8]
    intro ev hev n hn
    cases List.mem_singleton.1 hev
    cases hn
    decide

/-- Labels: as `whole`, with a callback that sets another one. -/
def changedUnset : List (Label Op) :=
  changed ++ List.replicate 6 (.run 1) ++ unsets ++ [.run 0, .run 0, .run 0, .run 0, .run 0, .run 2, .run 1, .run 1, .run 1, .run 1, .run 1,
    .run 1, .run 2, .run 2, .run 2]

/-- The hypotheses of `C113_unset_changing` are met: the callback is set, called, sets another one, and is unset; then `f` is written to. -/
example : ∃ s s' : Conf (prog (watched .change)), (prog (watched .change)).system.Reachable (init (watched .change) true 1) s ∧
    s.sh.set = false ∧ s.sh.event = none ∧ (∀ i : Nat, s.pcs[i]? ≠ some .setLock) ∧ s.sh.called = [c!"f"] ∧
    (prog (watched .change)).system.exec s [.start 2 (.change written), .run 2, .start 2 .event, .run 2, .run 2, .run 2] =
      some s' := by
  obtain ⟨s, hs, hq⟩ := some_of (o := (prog (watched .change)).system.exec (init (watched .change) true 1) changedUnset)
    (fun (s : Conf (prog (watched .change))) => decide (s.sh.set = false ∧ s.sh.event = none ∧
      s.pcs = [.wOff, .cOff, .idle] ∧ s.sh.called = [c!"f"]) &&
      ((prog (watched .change)).system.exec s [.start 2 (.change written), .run 2, .start 2 .event, .run 2, .run 2, .run 2]).isSome)
    (by decide +kernel)
  rw [Bool.and_eq_true] at hq
  obtain ⟨h1, h2, h3, h4⟩ := of_decide_eq_true hq.1
  obtain ⟨s', hs'⟩ := Option.isSome_iff_exists.1 hq.2
  refine ⟨s, s', (prog (watched .change)).system.exec_reachable' _ hs, h1, h2, ?_, h4, hs'⟩
  intro i hi
  rw [h3] at hi
  match i with
  | 0 => cases hi
  | 1 => cases hi
  | 2 => cases hi
  | i + 3 => cases hi

end Verif.FileWatcher
