import Verif.Props.FileWatcher
/-!
C112: calls of `FileWatcherHandler` return.
-/
namespace Verif.FileWatcher
open Verif.Threads
open Verif.FileWatch

/-- What also holds while the watched directory is not deleted. -/
structure Kept {c : Cfg} (s : Conf (prog c)) : Prop where
  watch : s.sh.present = true → s.sh.destroy = false → s.sh.watch = true
  gone : ∀ i : Nat, s.pcs[i]? ≠ some .fsGone
  read : s.pcs[0]? = some .wRead → s.sh.watch = true ∨ s.sh.queue ≠ []
  removed : ∀ (i : Nat) (x : PC), s.pcs[i]? = some x → x = .dNotify ∨ x = .dJoinW → s.sh.watch = false

theorem feed_watch (s : Sh) (e : Ev) : (s.feed e).watch = s.watch := by
  unfold Sh.feed
  split <;> rfl

theorem feed_any {s : Sh} (e : Ev) (h : s.watch = true ∨ s.queue ≠ []) : (s.feed e).queue ≠ [] ∨ s.queue ≠ [] := by
  rcases h with h | h
  · simp [Sh.feed, h]
  · exact Or.inr h

theorem feed_some {s : Sh} (e : Ev) (h : s.watch = true ∨ s.queue ≠ []) : (s.feed e).queue ≠ [] := by
  obtain ⟨q, hq⟩ := feed_queue s e
  rcases feed_any e h with h | h
  · exact h
  · rw [hq]
    exact fun h' => h (List.append_eq_nil_iff.1 h').1

/-- What a step does to the watch. -/
theorem ran_watch {c : Cfg} {i : Nat} {s s' : Sh} {x y : PC} {b : Bool} (hr : Ran c i s x s' y b) (hx : x ≠ .fsGone)
    (he : x.efact s) :
    ((s.present = true → s.destroy = false → s.watch = true) → s'.present = true → s'.destroy = false →
      s'.watch = true) ∧
    ((s.watch = true ∨ s.queue ≠ []) → s'.watch = true ∨ s'.queue ≠ [] ∨ x = .wRead) ∧
    (s.watch = false → s'.watch = false ∨ x = .setMake) := by
  have same : ∀ z : Sh, z.present = s.present → z.destroy = s.destroy → z.watch = s.watch → z.queue = s.queue →
      ((s.present = true → s.destroy = false → s.watch = true) → z.present = true → z.destroy = false →
      z.watch = true) ∧
    ((s.watch = true ∨ s.queue ≠ []) → z.watch = true ∨ z.queue ≠ [] ∨ x = .wRead) ∧
    (s.watch = false → z.watch = false ∨ x = .setMake) := by
    intro z h1 h2 h3 h4
    rw [h1, h2, h3, h4]
    exact ⟨id, fun h => h.elim Or.inl fun h => Or.inr (Or.inl h), Or.inl⟩
  cases hr with
  | fsGone => exact absurd rfl hx
  | fsChange e =>
    have h := feed_calm s e
    rw [h.present, h.destroy, feed_watch]
    exact ⟨id, fun h => Or.inr (Or.inl (feed_some e h)), Or.inl⟩
  | makeYes => exact ⟨fun _ _ _ => rfl, fun _ => Or.inl rfl, fun _ => Or.inr rfl⟩
  | dFlag => exact ⟨fun _ _ h => absurd h nofun, fun h => h.elim Or.inl fun h => Or.inr (Or.inl h), Or.inl⟩
  | dRemove =>
    refine ⟨fun _ _ h => ?_, fun h => Or.inr (Or.inl (feed_some _ h)), fun _ => Or.inl rfl⟩
    have : s.unwatch.destroy = s.destroy := (unwatch_calm s).destroy
    rw [this, he.2.2.2.1] at h
    cases h
  | dJoinC => exact ⟨fun _ h => absurd h nofun, fun h => h.elim Or.inl fun h => Or.inr (Or.inl h), Or.inl⟩
  | wRead => exact ⟨id, fun _ => Or.inr (Or.inr rfl), Or.inl⟩
  | evNo t => cases t <;> exact same _ rfl rfl rfl rfl
  | evCall t => cases t <;> exact same _ rfl rfl rfl rfl
  | _ => exact same _ rfl rfl rfl rfl

theorem kept_step {c : Cfg} (hc : c.callback = .plain) {s s' : Conf (prog c)} {l : Label Op} (hA : All s) (hA' : All s')
    (hk : Kept s) (hs : (prog c).Stepped s l s') (hl : ∀ i, l ≠ .start i .gone) : Kept s' := by
  have other : ∀ {k : Nat} {w z : PC} {b : Bool}, s.pcs[k]? = some w → run c k s.sh w = some (s'.sh, z, b) →
      Ran c k s.sh w s'.sh z b ∧ w.efact s.sh ∧ w ≠ .fsGone := by
    intro k w z b h1 h2
    exact ⟨run_ran hc h2, (hA.inv.loc k w h1).efact, fun e => hk.gone k (e ▸ h1)⟩
  have back : ∀ (i : Nat) (y : PC), s'.pcs[i]? = some y → ∃ x, s.pcs[i]? = some x := by
    intro i y hy
    have hlt : i < s.pcs.length := by
      rw [← Prog.stepped_length hs]
      exact (List.getElem?_eq_some_iff.1 hy).1
    exact ⟨_, List.getElem?_eq_getElem hlt⟩
  refine ⟨?_, ?_, ?_, ?_⟩
  · rcases Prog.stepped_sh hs with e | ⟨i, x, y, b, -, hx, hr⟩
    · rw [e]; exact hk.watch
    · obtain ⟨h1, h2, h3⟩ := other hx hr
      exact (ran_watch h1 h3 h2).1 hk.watch
  · intro i hi
    obtain ⟨x, hx⟩ := back i _ hi
    obtain ⟨y, hy, ht⟩ := Prog.track hs hx
    rw [hi] at hy
    cases hy
    rcases ht with ⟨op, rfl, hst, -⟩ | ⟨-, b, hr⟩ | ⟨-, hw | hw | hw, -⟩
    · cases x <;> cases op <;> first | (cases hst; done) | exact hl i rfl
    · obtain ⟨h1, -, -⟩ := other hx hr
      generalize s'.sh = t at h1
      cases h1
    · exact hk.gone i (hw ▸ hx)
    · cases x <;> cases hw
    · cases hw
  · intro hi
    obtain ⟨x, hx⟩ := back 0 _ hi
    obtain ⟨y, hy, ht⟩ := Prog.track hs hx
    rw [hi] at hy
    cases hy
    rcases ht with ⟨op, -, hst, -⟩ | ⟨-, b, hr⟩ | ⟨-, hw | hw | hw, hsh⟩
    · cases x <;> cases op <;> cases hst
    · obtain ⟨h1, -, -⟩ := other hx hr
      have hwf := (hA.inv.loc 0 x hx).wfact
      generalize he : s'.sh = t at h1 ⊢
      cases h1 with
      | wGo hd => exact Or.inl (hk.watch (hA.inv.glob.wt (by rw [hwf.1]; exact nofun)) hd)
    · subst hw
      rcases hsh with h | ⟨k, w, z, b, hne, -, h1, h2⟩
      · rw [h]; exact hk.read hx
      · obtain ⟨g1, g2, g3⟩ := other h1 h2
        rcases (ran_watch g1 g3 g2).2.1 (hk.read hx) with h | h | rfl
        · exact Or.inl h
        · exact Or.inr h
        · exact absurd ((hA.inv.loc k _ h1).isW.1 rfl) hne
    · cases x <;> cases hw
    · cases hw
  · intro i y hi hyd
    obtain ⟨x, hx⟩ := back i _ hi
    obtain ⟨y', hy, ht⟩ := Prog.track hs hx
    rw [hi] at hy
    cases hy
    rcases ht with ⟨op, -, hst, -⟩ | ⟨-, b, hr⟩ | ⟨-, hw | hw | hw, hsh⟩
    · rcases hyd with rfl | rfl <;> cases x <;> cases op <;> cases hst
    · obtain ⟨h1, -, -⟩ := other hx hr
      have h2 := hk.removed i x hx
      generalize he : s'.sh = t at h1 ⊢
      rcases hyd with rfl | rfl
      · cases h1; rfl
      · cases h1; exact h2 (Or.inl rfl)
    · subst hw
      rcases hsh with h | ⟨k, w, z, b, hne, -, h1, h2⟩
      · rw [h]; exact hk.removed i _ hx hyd
      · obtain ⟨g1, g2, g3⟩ := other h1 h2
        rcases (ran_watch g1 g3 g2).2.2 (hk.removed i _ hx hyd) with h | rfl
        · exact h
        · have e1 := (hA.inv.loc k _ h1).event.1 rfl
          have e2 := (hA.inv.loc i _ hx).event.1 (by rcases hyd with rfl | rfl <;> rfl)
          rw [e1] at e2
          cases e2
          exact absurd rfl hne
    · rcases hyd with rfl | rfl <;> cases x <;> cases hw
    · cases hw

/-- Thread 1 will not sleep for ever. -/
structure Safe {c : Cfg} (s : Conf (prog c)) : Prop where
  late : s.pcs[1]? = some .cSleep → s.pcs[0]? = some .wRead ∨ s.pcs[0]? = some .wPush
  asleep : s.pcs[1]? = some .asleep → s.pcs[0]? = some .wRead ∨ s.pcs[0]? = some .wPush ∨ s.pcs[0]? = some .wNotify

theorem safe_step {c : Cfg} (hc : c.callback = .plain) {s s' : Conf (prog c)} {l : Label Op} (hA : All s) (hA' : All s')
    (hd : s.sh.destroy = true) (hj : Safe s) (hs : (prog c).Stepped s l s') : Safe s' := by
  have hlt0 : 0 < s.pcs.length := Nat.lt_of_lt_of_le (by decide) hA.two
  have hlt1 : 1 < s.pcs.length := hA.two
  have h0 : s.pcs[0]? = some _ := List.getElem?_eq_getElem hlt0
  have h1 : s.pcs[1]? = some _ := List.getElem?_eq_getElem hlt1
  generalize s.pcs[0]'hlt0 = x0 at h0
  generalize s.pcs[1]'hlt1 = x1 at h1
  obtain ⟨y0, hy0, t0⟩ := Prog.track hs h0
  obtain ⟨y1, hy1, t1⟩ := Prog.track hs h1
  have hj1 := hj.late
  have hj2 := hj.asleep
  rw [h0, h1] at hj1 hj2
  -- what thread 0 does while thread 1 is at its wait
  have stay : x0 = .wRead ∨ x0 = .wPush ∨ x0 = .wNotify → l ≠ .run 0 → y0 = x0 := by
    intro hx hl
    rcases t0 with ⟨op, -, hst, -⟩ | ⟨e, -⟩ | ⟨-, hw | hw | hw, -⟩
    · rcases hx with rfl | rfl | rfl <;> cases op <;> cases hst
    · exact absurd e hl
    · exact hw
    · rcases hx with rfl | rfl | rfl <;> cases hw
    · cases hw
  have move : ∀ b, run c 0 s.sh x0 = some (s'.sh, y0, b) → x0 = .wRead ∨ x0 = .wPush ∨ x0 = .wNotify →
      (x0 = .wRead ∧ y0 = .wPush) ∨ (x0 = .wPush ∧ y0 = .wNotify ∧ s.sh.cbm = none) ∨ (x0 = .wNotify ∧ y0 = .wLoop) := by
    intro b hr hx
    have hr := run_ran hc hr
    generalize s'.sh = t at hr
    rcases hx with rfl | rfl | rfl
    · cases hr; exact Or.inl ⟨rfl, rfl⟩
    · cases hr; rename_i h; exact Or.inr (Or.inl ⟨rfl, rfl, h⟩)
    · cases hr; exact Or.inr (Or.inr ⟨rfl, rfl⟩)
  have conv : ∀ z : PC, some x0 = some z ↔ x0 = z := fun z => ⟨fun h => by cases h; rfl, fun h => by rw [h]⟩
  rw [conv, conv] at hj1
  rw [conv, conv, conv] at hj2
  refine ⟨?_, ?_⟩
  · -- thread 1 is about to sleep: it was before
    intro hsl
    rw [hsl] at hy1
    cases hy1
    have hx1 : x1 = .cSleep ∧ l ≠ .run 1 := by
      rcases t1 with ⟨op, -, hst, -⟩ | ⟨-, b, hr⟩ | ⟨hne, hw | hw | hw, -⟩
      · cases x1 <;> cases op <;> cases hst
      · have hr := run_ran hc hr
        generalize s'.sh = t at hr
        cases hr with
        | cPredNo _ hd' => rw [hd] at hd'; cases hd'
      · exact ⟨hw.symm, hne⟩
      · cases x1 <;> cases hw
      · cases hw
    obtain ⟨rfl, -⟩ := hx1
    have hx := hj1 rfl
    have hcb := (hA.inv.loc 1 _ h1).cbm.1 rfl
    rw [hy0]
    by_cases hl : l = .run 0
    · subst hl
      rcases t0 with ⟨op, e, -, -⟩ | ⟨-, b, hr⟩ | ⟨hne, -⟩
      · cases e
      · rcases move b hr (by rcases hx with h | h; exact Or.inl h; exact Or.inr (Or.inl h)) with ⟨-, h⟩ | ⟨-, -, h⟩ | ⟨h, -⟩
        · rw [h]; exact Or.inr rfl
        · rw [hcb] at h; cases h
        · rcases hx with hx | hx <;> rw [h] at hx <;> cases hx
      · exact absurd rfl hne
    · have := stay (by rcases hx with h | h; exact Or.inl h; exact Or.inr (Or.inl h)) hl
      rw [this]
      rcases hx with h | h
      · rw [h]; exact Or.inl rfl
      · rw [h]; exact Or.inr rfl
  · intro hsl
    rw [hsl] at hy1
    cases hy1
    have hx1 : (x1 = .cSleep ∧ l = .run 1) ∨ (x1 = .asleep ∧ l ≠ .run 1) := by
      rcases t1 with ⟨op, -, hst, -⟩ | ⟨e, b, hr⟩ | ⟨hne, hw | hw | hw, -⟩
      · cases x1 <;> cases op <;> cases hst
      · have hr := run_ran hc hr
        generalize s'.sh = t at hr
        cases hr
        exact Or.inl ⟨rfl, e⟩
      · exact Or.inr ⟨hw.symm, hne⟩
      · cases x1 <;> cases hw
      · cases hw
    rw [hy0]
    rcases hx1 with ⟨rfl, rfl⟩ | ⟨rfl, -⟩
    · have hx := hj1 rfl
      rw [stay (by rcases hx with h | h; exact Or.inl h; exact Or.inr (Or.inl h)) nofun]
      rcases hx with h | h
      · rw [h]; exact Or.inl rfl
      · rw [h]; exact Or.inr (Or.inl rfl)
    · have hx := hj2 rfl
      by_cases hl : l = .run 0
      · subst hl
        rcases t0 with ⟨op, e, -, -⟩ | ⟨-, b, hr⟩ | ⟨hne, -⟩
        · cases e
        · rcases move b hr hx with ⟨-, h⟩ | ⟨-, h, -⟩ | ⟨h, -⟩
          · rw [h]; exact Or.inr (Or.inl rfl)
          · rw [h]; exact Or.inr (Or.inr rfl)
          · subst h
            have := woke hA' hs h0 h1
            rw [this] at hsl
            cases hsl
        · exact absurd rfl hne
      · rw [stay hx hl]
        rcases hx with h | h | h
        · rw [h]; exact Or.inl rfl
        · rw [h]; exact Or.inr (Or.inl rfl)
        · rw [h]; exact Or.inr (Or.inr rfl)

/-- While `~FileWatch` waits for the threads, thread 1 will not sleep for ever. -/
def Waits {c : Cfg} (s : Conf (prog c)) : Prop :=
  ∀ (i : Nat) (x : PC), s.pcs[i]? = some x → x = .dJoinW ∨ x = .dJoinC → Safe s

/-- The notification of `~FileWatch` is not lost. -/
def Heard {c : Cfg} (s : Conf (prog c)) (l : Label Op) : Prop :=
  ∀ i, l = .run i → s.pcs[i]? = some .dNotify → s.pcs[1]? = some .cSleep →
    s.pcs[0]? = some .wRead ∨ s.pcs[0]? = some .wPush

theorem waits_step {c : Cfg} (hc : c.callback = .plain) {s s' : Conf (prog c)} {l : Label Op} (hA : All s) (hA' : All s')
    (hw : Waits s) (hh : Heard s l) (hs : (prog c).Stepped s l s') : Waits s' := by
  intro i y hy hyd
  have hlt : i < s.pcs.length := by
    rw [← Prog.stepped_length hs]
    exact (List.getElem?_eq_some_iff.1 hy).1
  have hx : s.pcs[i]? = some _ := List.getElem?_eq_getElem hlt
  generalize s.pcs[i]'hlt = x at hx
  have old : x = .dJoinW ∨ x = .dJoinC → Safe s' := by
    intro h
    refine safe_step hc hA hA' ?_ (hw i x hx h) hs
    have he := (hA.inv.loc i x hx).efact
    rcases h with rfl | rfl
    · exact he.2.2.2.1
    · exact he.2.2.2.1
  obtain ⟨y', hy', t⟩ := Prog.track hs hx
  rw [hy] at hy'
  cases hy'
  rcases t with ⟨op, -, hst, -⟩ | ⟨e, b, hr⟩ | ⟨-, h | h | h, -⟩
  · rcases hyd with rfl | rfl <;> cases x <;> cases op <;> cases hst
  · have hr := run_ran hc hr
    by_cases hn : x = .dNotify
    · subst hn
      subst e
      have hne0 : (0 : Nat) ≠ i := fun e => absurd ((hA.inv.loc i _ hx).isW.2 e.symm) nofun
      have hlt0 : 0 < s'.pcs.length := Nat.lt_of_lt_of_le (by decide) hA'.two
      have hlt1 : 1 < s'.pcs.length := hA'.two
      have h0 : s'.pcs[0]? = some _ := List.getElem?_eq_getElem hlt0
      have h1 : s'.pcs[1]? = some _ := List.getElem?_eq_getElem hlt1
      have hne1 : (1 : Nat) ≠ i := fun e => absurd ((hA.inv.loc i _ hx).isC.2 e.symm) nofun
      obtain ⟨w0, g0, e0⟩ := Prog.stepped_notify hs hx (y := .dJoinW) (sh := s.sh) rfl hne0 h0
      obtain ⟨w1, g1, e1⟩ := Prog.stepped_notify hs hx (y := .dJoinW) (sh := s.sh) rfl hne1 h1
      rw [e0] at h0
      rw [e1] at h1
      refine ⟨?_, ?_⟩
      · intro h
        rw [h1] at h
        have : w1 = .cSleep := by
          cases w1 <;> first | rfl | (cases h; done)
        subst this
        rcases hh i rfl hx g1 with h' | h'
        · rw [g0] at h'; cases h'; exact Or.inl h0
        · rw [g0] at h'; cases h'; exact Or.inr h0
      · intro h
        rw [h1] at h
        cases w1 <;> cases h
    · refine old ?_
      generalize s'.sh = t at hr
      rcases hyd with rfl | rfl
      · cases hr; exact absurd rfl hn
      · cases hr; exact Or.inl rfl
  · exact old (h ▸ hyd)
  · rcases hyd with rfl | rfl <;> cases x <;> cases h
  · cases h

/-- All of it. -/
structure Full {c : Cfg} (s : Conf (prog c)) : Prop where
  all : All s
  kept : Kept s
  waits : Waits s

section
variable {c : Cfg} (hc : c.callback = .plain) {path : Bool} {n : Nat} (e : (prog c).system.Execution) (hf : e.Fair)
  (h0 : e.at_ 0 = init c path n) (hgone : ∀ m i, e.label m ≠ some (.start i .gone))
  (hheard : ∀ m l, e.label m = some l → Heard (e.at_ m) l)
include hc h0 hgone hheard

theorem full (m : Nat) : Full (e.at_ m) := by
  induction m with
  | zero =>
    refine ⟨all hc e h0 0, ?_, ?_⟩
    · rw [h0]
      refine ⟨nofun, ?_, nofun, ?_⟩
      · intro i h
        rcases init_at h with ⟨-, h⟩ | ⟨-, h⟩ | ⟨-, -, h⟩ <;> cases h
      · intro i x h hx
        rcases init_at h with ⟨-, h⟩ | ⟨-, h⟩ | ⟨-, -, h⟩ <;> subst h <;> rcases hx with h | h <;> cases h
    · rw [h0]
      intro i x h hx
      rcases init_at h with ⟨-, h⟩ | ⟨-, h⟩ | ⟨-, -, h⟩ <;> subst h <;> rcases hx with h | h <;> cases h
  | succ m ih =>
    have hA := all hc e h0 (m + 1)
    rcases e.next m with ⟨-, h2⟩ | ⟨l, h1, h2⟩
    · rw [h2]; exact ih
    · have hs := Prog.step_stepped h2
      refine ⟨hA, kept_step hc ih.all hA ih.kept hs ?_, waits_step hc ih.all hA ih.waits (hheard m l h1) hs⟩
      intro i hl
      subst hl
      exact hgone m i h1

include hf

/-- A step that nothing can block while something holds that is stable unless `Z`. -/
theorem stepZ (St Z : Conf (prog c) → Prop)
    (hst : ∀ (s : Conf (prog c)) l s', Full s → St s → (prog c).Stepped s l s' → St s' ∨ Z s')
    (i : Nat) (x : PC) (hact : x.active = true) (Q : Conf (prog c) → Prop)
    (hable : ∀ s : Conf (prog c), Full s → s.pcs[i]? = some x → St s → (run c i s.sh x).isSome)
    (hdone : ∀ (s s' : Conf (prog c)) (sh : Sh) (y : PC) (b : Bool), Full s → Full s' → s.pcs[i]? = some x → St s →
      St s' → Ran c i s.sh x sh y b → s'.sh = sh → s'.pcs[i]? = some y → Q s' ∨ Z s') :
    e.LeadsTo (fun s => s.pcs[i]? = some x ∧ St s) (fun s => Q s ∨ Z s) := by
  refine Prog.runs' e hf Full (full hc e h0 hgone hheard) i x (active hact) St (fun s => Q s ∨ Z s) ?_
    (fun s h1 h2 h3 => hable s h1 h2 h3) ?_
  · intro s l s' h1 h2 h3 h4 h5 h6
    rcases hst s l s' h1 h4 h5 with h | h
    · exact Or.inl h
    · exact Or.inr (Or.inr h)
  · intro s s' h1 h2 h3 h4 h5
    obtain ⟨sh, y, b, g1, g2, g3⟩ := Prog.stepped_run h5 h3
    rcases hst s _ s' h1 h4 h5 with h | h
    · exact hdone s s' sh y b h1 h2 h3 h4 h (run_ran hc g1) g2 g3
    · exact Or.inr h

/-- The same for a step that needs a mutex. -/
theorem takesZ (St Z : Conf (prog c) → Prop)
    (hst : ∀ (s : Conf (prog c)) l s', Full s → St s → (prog c).Stepped s l s' → St s' ∨ Z s')
    (free : Sh → Prop) (hfree : e.LeadsTo (fun _ => True) (fun s => free s.sh))
    (i : Nat) (x : PC) (hact : x.active = true) (Q : Conf (prog c) → Prop)
    (hable : ∀ s : Conf (prog c), Full s → s.pcs[i]? = some x → St s → free s.sh → (run c i s.sh x).isSome)
    (hdone : ∀ (s s' : Conf (prog c)) (sh : Sh) (y : PC) (b : Bool), Full s → Full s' → s.pcs[i]? = some x → St s →
      St s' → Ran c i s.sh x sh y b → s'.sh = sh → s'.pcs[i]? = some y → Q s' ∨ Z s') :
    e.LeadsTo (fun s => s.pcs[i]? = some x ∧ St s) (fun s => Q s ∨ Z s) := by
  refine acquires e hf Full (full hc e h0 hgone hheard) i x (active hact) St free (fun s => Q s ∨ Z s) ?_ hfree
    (fun s h1 h2 h3 h4 => hable s h1 h2 h3 h4) ?_
  · intro s l s' h1 h2 h3 h4 h5 h6
    rcases hst s l s' h1 h4 h5 with h | h
    · exact Or.inl h
    · exact Or.inr (Or.inr h)
  · intro s s' h1 h2 h3 h4 h5
    obtain ⟨sh, y, b, g1, g2, g3⟩ := Prog.stepped_run h5 h3
    rcases hst s _ s' h1 h4 h5 with h | h
    · exact hdone s s' sh y b h1 h2 h3 h4 h (run_ran hc g1) g2 g3
    · exact Or.inr h

omit h0 hf hgone hheard in
/-- A thread stays where it is until it takes its step. -/
theorem place_step {i : Nat} {x : PC} (hx : x.active = true) {s s' : Conf (prog c)} {l : Label Op}
    (h : s.pcs[i]? = some x) (hs : (prog c).Stepped s l s') :
    s'.pcs[i]? = some x ∨ ∃ y b, Ran c i s.sh x s'.sh y b ∧ s'.pcs[i]? = some y := by
  have ha : (prog c).Active x := active hx
  obtain ⟨y, hy, t⟩ := Prog.track hs h
  rcases t with ⟨op, -, hst, -⟩ | ⟨-, b, hr⟩ | ⟨-, h | h | h, -⟩
  · rw [ha.1 op] at hst; cases hst
  · exact Or.inr ⟨y, b, run_ran hc hr, hy⟩
  · rw [h] at hy; exact Or.inl hy
  · rw [ha.2.1] at h; cases h
  · cases h

/-- Thread 0 ends when it is told to. -/
theorem joins_w (i : Nat) : e.LeadsTo (fun s => s.pcs[i]? = some .dJoinW) (fun s => s.pcs[i]? = some .dJoinC) := by
  have hst : ∀ (s : Conf (prog c)) l s', Full s → s.pcs[i]? = some .dJoinW → (prog c).Stepped s l s' →
      s'.pcs[i]? = some .dJoinW ∨ s'.pcs[i]? = some .dJoinC := by
    intro s l s' _ h1 h2
    rcases place_step hc rfl h1 h2 with h | ⟨y, b, hr, h⟩
    · exact Or.inl h
    · generalize s'.sh = t at hr
      cases hr
      exact Or.inr h
  have done : e.LeadsTo (fun s => s.pcs[i]? = some .dJoinC) (fun s => s.pcs[i]? = some .dJoinC) :=
    .refl e fun _ h => h
  have dest : ∀ s : Conf (prog c), Full s → s.pcs[i]? = some .dJoinW → s.sh.destroy = true ∧ s.sh.wt ≠ .none :=
    fun s h1 h2 => ⟨(h1.all.inv.loc i _ h2).efact.2.2.2.1, (h1.all.inv.loc i _ h2).efact.2.2.2.2.1⟩
  have ended : e.LeadsTo (fun s => s.pcs[i]? = some .dJoinW ∧ s.sh.wt = .ended)
      (fun s => s.pcs[i]? = some .dJoinC) := by
    refine Prog.runs' e hf Full (full hc e h0 hgone hheard) i .dJoinW (active rfl) (fun s => s.sh.wt = .ended) _ ?_ ?_ ?_
    · intro s l s' h1 h2 h3 h4 h5 h6
      rcases Prog.stepped_sh h5 with h | ⟨k, x, y, b, el, hx, hr⟩
      · rw [h]; exact Or.inl h4
      · left
        have hr := run_ran hc (i := k) (x := x) hr
        have hl := h1.all.inv.loc k x hx
        have hw := hl.wfact
        have hev : x.hasEvent = true → False := by
          intro h
          have e1 := hl.event.1 h
          have e2 := (h1.all.inv.loc i _ h3).event.1 rfl
          rw [e1] at e2
          cases e2
          exact h6 el
        generalize s'.sh = t at hr
        cases hker : x.kernel with
        | true => rw [(ran_kernel hr hker).1.wt]; exact h4
        | false =>
          cases hr <;> first
            | (cases hker; done)
            | exact h4
            | (rename_i t _; cases t <;> exact h4)
            | (rename_i t; cases t <;> exact h4)
            | exact (hev rfl).elim
            | exact absurd (hw.1.symm.trans h4) nofun
            | (rename_i h; exact absurd (h.symm.trans h4) nofun)
    · intro s _ _ h
      simp [run, h]
    · intro s s' h1 h2 h3 h4 h5
      obtain ⟨sh, y, b, g1, g2, g3⟩ := Prog.stepped_run h5 h3
      have hr := run_ran hc (i := i) (x := .dJoinW) g1
      cases hr
      exact g3
  have end_ : e.LeadsTo (fun s => s.pcs[0]? = some .wEnd ∧ s.pcs[i]? = some .dJoinW)
      (fun s => s.pcs[i]? = some .dJoinC) := by
    refine (stepZ hc e hf h0 hgone hheard _ _ hst 0 .wEnd rfl (fun s => s.pcs[i]? = some .dJoinW ∧ s.sh.wt = .ended)
      (fun _ _ _ _ => rfl) ?_).trans (ended.or done)
    intro s s' sh y b h1 h2 h3 h4 h5 hr h6 h7
    cases hr
    exact Or.inl ⟨h5, by rw [h6]⟩
  have loop : e.LeadsTo (fun s => s.pcs[0]? = some .wLoop ∧ s.pcs[i]? = some .dJoinW)
      (fun s => s.pcs[i]? = some .dJoinC) := by
    refine (stepZ hc e hf h0 hgone hheard _ _ hst 0 .wLoop rfl (fun s => s.pcs[0]? = some .wEnd ∧ s.pcs[i]? = some .dJoinW)
      (fun _ _ _ _ => rfl) ?_).trans (end_.or done)
    intro s s' sh y b h1 h2 h3 h4 h5 hr h6 h7
    cases hr with
    | wStop => exact Or.inl ⟨h7, h5⟩
    | wGo hd => exact absurd ((dest s h1 h4).1.symm.trans hd) nofun
  have notify : e.LeadsTo (fun s => s.pcs[0]? = some .wNotify ∧ s.pcs[i]? = some .dJoinW)
      (fun s => s.pcs[i]? = some .dJoinC) := by
    refine (stepZ hc e hf h0 hgone hheard _ _ hst 0 .wNotify rfl
      (fun s => s.pcs[0]? = some .wLoop ∧ s.pcs[i]? = some .dJoinW) (fun _ _ _ _ => rfl) ?_).trans (loop.or done)
    intro s s' sh y b h1 h2 h3 h4 h5 hr h6 h7
    cases hr
    exact Or.inl ⟨h7, h5⟩
  have push : e.LeadsTo (fun s => s.pcs[0]? = some .wPush ∧ s.pcs[i]? = some .dJoinW)
      (fun s => s.pcs[i]? = some .dJoinC) := by
    refine (takesZ hc e hf h0 hgone hheard _ _ hst (fun s => s.cbm = none) (cbm_frees hc e hf h0) 0 .wPush rfl
      (fun s => s.pcs[0]? = some .wNotify ∧ s.pcs[i]? = some .dJoinW)
      (fun s _ _ _ h => by change s.sh.cbm = none at h; simp [run, h]) ?_).trans (notify.or done)
    intro s s' sh y b h1 h2 h3 h4 h5 hr h6 h7
    cases hr
    exact Or.inl ⟨h7, h5⟩
  have read : e.LeadsTo (fun s => s.pcs[0]? = some .wRead ∧ s.pcs[i]? = some .dJoinW)
      (fun s => s.pcs[i]? = some .dJoinC) := by
    refine (stepZ hc e hf h0 hgone hheard _ _ hst 0 .wRead rfl
      (fun s => s.pcs[0]? = some .wPush ∧ s.pcs[i]? = some .dJoinW) ?_ ?_).trans (push.or done)
    · intro s h1 h2 h3
      have hq : s.sh.queue ≠ [] := by
        rcases h1.kept.read h2 with h | h
        · exact absurd ((h1.kept.removed i _ h3 (Or.inr rfl)).symm.trans h) nofun
        · exact h
      simp [run, hq]
    intro s s' sh y b h1 h2 h3 h4 h5 hr h6 h7
    cases hr
    exact Or.inl ⟨h7, h5⟩
  have start_ : e.LeadsTo (fun s => s.pcs[0]? = some .wRun ∧ s.pcs[i]? = some .dJoinW)
      (fun s => s.pcs[i]? = some .dJoinC) := by
    refine (stepZ hc e hf h0 hgone hheard _ _ hst 0 .wRun rfl
      (fun s => s.pcs[0]? = some .wLoop ∧ s.pcs[i]? = some .dJoinW) (fun _ _ _ _ => rfl) ?_).trans (loop.or done)
    intro s s' sh y b h1 h2 h3 h4 h5 hr h6 h7
    cases hr
    exact Or.inl ⟨h7, h5⟩
  have off : e.LeadsTo (fun s => s.pcs[0]? = some .wOff ∧ s.pcs[i]? = some .dJoinW ∧ s.sh.wt ≠ .ended)
      (fun s => s.pcs[i]? = some .dJoinC) := by
    refine (stepZ hc e hf h0 hgone hheard (fun s => s.pcs[i]? = some .dJoinW ∧ s.sh.wt ≠ .ended)
      (fun s => s.pcs[i]? = some .dJoinC ∨ (s.pcs[i]? = some .dJoinW ∧ s.sh.wt = .ended)) ?_ 0 .wOff rfl
      (fun s => s.pcs[0]? = some .wRun ∧ s.pcs[i]? = some .dJoinW) ?_ ?_).trans (start_.or (done.or ended))
    · intro s l s' h1 ⟨h2, h3⟩ h4
      rcases hst s l s' h1 h2 h4 with h | h
      · by_cases he : s'.sh.wt = .ended
        · exact Or.inr (Or.inr ⟨h, he⟩)
        · exact Or.inl ⟨h, he⟩
      · exact Or.inr (Or.inl h)
    · intro s h1 h2 ⟨h3, h4⟩
      have hw := (h1.all.inv.loc 0 _ h2).wfact
      cases ht : s.sh.wt with
      | none => exact absurd ht (dest _ h1 h3).2
      | spawned => simp [run, ht]
      | running => exact absurd ht hw.1
      | ended => exact absurd ht h4
    intro s s' sh y b h1 h2 h3 h4 h5 hr h6 h7
    cases hr
    exact Or.inl ⟨h7, h5.1⟩
  intro m hm
  have hF := full hc e h0 hgone hheard m
  have hA := hF.all
  have hlt : 0 < (e.at_ m).pcs.length := Nat.lt_of_lt_of_le (by decide) hA.two
  have hx : (e.at_ m).pcs[0]? = some _ := List.getElem?_eq_getElem hlt
  have hl := hA.inv.loc 0 _ hx
  have hw := hl.isW.2 rfl
  have hf := hl.wfact
  generalize (e.at_ m).pcs[0]'hlt = x at hx hw hf
  have offs : x = .wOff → ∃ k, m ≤ k ∧ (e.at_ k).pcs[i]? = some .dJoinC := by
    intro h
    subst h
    by_cases ht : (e.at_ m).sh.wt = .ended
    · exact ended m ⟨hm, ht⟩
    · exact off m ⟨hx, hm, ht⟩
  cases x <;> first
    | (cases hw; done)
    | exact offs rfl
    | exact start_ m ⟨hx, hm⟩
    | exact loop m ⟨hx, hm⟩
    | exact read m ⟨hx, hm⟩
    | exact push m ⟨hx, hm⟩
    | exact notify m ⟨hx, hm⟩
    | exact end_ m ⟨hx, hm⟩

/-- Thread 1 ends, too. -/
theorem joins_c (i : Nat) :
    e.LeadsTo (fun s => s.pcs[i]? = some .dJoinC) (fun s => s.pcs[i]? = some .unsetStopped) := by
  have hst : ∀ (s : Conf (prog c)) l s', Full s → s.pcs[i]? = some .dJoinC → (prog c).Stepped s l s' →
      s'.pcs[i]? = some .dJoinC ∨ s'.pcs[i]? = some .unsetStopped := by
    intro s l s' _ h1 h2
    rcases place_step hc rfl h1 h2 with h | ⟨y, b, hr, h⟩
    · exact Or.inl h
    · generalize s'.sh = t at hr
      cases hr
      exact Or.inr h
  have done : e.LeadsTo (fun s => s.pcs[i]? = some .unsetStopped) (fun s => s.pcs[i]? = some .unsetStopped) :=
    .refl e fun _ h => h
  have dest : ∀ s : Conf (prog c), Full s → s.pcs[i]? = some .dJoinC →
      s.sh.destroy = true ∧ s.sh.wt = .none ∧ s.sh.ct ≠ .none :=
    fun s h1 h2 => (h1.all.inv.loc i _ h2).efact.2.2.2
  have ended : e.LeadsTo (fun s => s.pcs[i]? = some .dJoinC ∧ s.sh.ct = .ended)
      (fun s => s.pcs[i]? = some .unsetStopped) := by
    refine Prog.runs' e hf Full (full hc e h0 hgone hheard) i .dJoinC (active rfl) (fun s => s.sh.ct = .ended) _ ?_ ?_ ?_
    · intro s l s' h1 h2 h3 h4 h5 h6
      rcases Prog.stepped_sh h5 with h | ⟨k, x, y, b, el, hx, hr⟩
      · rw [h]; exact Or.inl h4
      · left
        have hr := run_ran hc (i := k) (x := x) hr
        have hl := h1.all.inv.loc k x hx
        have hw := hl.cfact
        have hev : x.hasEvent = true → False := by
          intro h
          have e1 := hl.event.1 h
          have e2 := (h1.all.inv.loc i _ h3).event.1 rfl
          rw [e1] at e2
          cases e2
          exact h6 el
        generalize s'.sh = t at hr
        cases hker : x.kernel with
        | true => rw [(ran_kernel hr hker).1.ct]; exact h4
        | false =>
          cases hr <;> first
            | (cases hker; done)
            | exact h4
            | (rename_i t _; cases t <;> exact h4)
            | (rename_i t; cases t <;> exact h4)
            | exact (hev rfl).elim
            | exact absurd (hw.1.symm.trans h4) nofun
            | (rename_i h; exact absurd (h.symm.trans h4) nofun)
    · intro s _ _ h
      simp [run, h]
    · intro s s' h1 h2 h3 h4 h5
      obtain ⟨sh, y, b, g1, g2, g3⟩ := Prog.stepped_run h5 h3
      have hr := run_ran hc (i := i) (x := .dJoinC) g1
      cases hr
      exact g3
  have end_ : e.LeadsTo (fun s => s.pcs[1]? = some .cEnd ∧ s.pcs[i]? = some .dJoinC)
      (fun s => s.pcs[i]? = some .unsetStopped) := by
    refine (stepZ hc e hf h0 hgone hheard _ _ hst 1 .cEnd rfl (fun s => s.pcs[i]? = some .dJoinC ∧ s.sh.ct = .ended)
      (fun _ _ _ _ => rfl) ?_).trans (ended.or done)
    intro s s' sh y b h1 h2 h3 h4 h5 hr h6 h7
    cases hr
    exact Or.inl ⟨h5, by rw [h6]⟩
  have loop : e.LeadsTo (fun s => s.pcs[1]? = some .cLoop ∧ s.pcs[i]? = some .dJoinC)
      (fun s => s.pcs[i]? = some .unsetStopped) := by
    refine (stepZ hc e hf h0 hgone hheard _ _ hst 1 .cLoop rfl (fun s => s.pcs[1]? = some .cEnd ∧ s.pcs[i]? = some .dJoinC)
      (fun _ _ _ _ => rfl) ?_).trans (end_.or done)
    intro s s' sh y b h1 h2 h3 h4 h5 hr h6 h7
    cases hr with
    | cStop => exact Or.inl ⟨h7, h5⟩
    | cGo hd => exact absurd ((dest s h1 h4).1.symm.trans hd) nofun
  have busy : ∀ x : PC, x.busy = true → e.LeadsTo (fun s => s.pcs[1]? = some x ∧ s.pcs[i]? = some .dJoinC)
      (fun s => s.pcs[i]? = some .unsetStopped) := by
    intro x hx
    exact (keeps e Full (fun s => s.pcs[i]? = some .dJoinC) (fun s => s.pcs[i]? = some .unsetStopped)
      (full hc e h0 hgone hheard) (fun s l s' h1 _ h3 h4 => hst s l s' h1 h3 (Prog.step_stepped h4))
      (busy_ends hc e hf h0 x hx)).trans (loop.or done)
  have swap : e.LeadsTo (fun s => s.pcs[1]? = some .cSwap ∧ s.pcs[i]? = some .dJoinC)
      (fun s => s.pcs[i]? = some .unsetStopped) := by
    refine (stepZ hc e hf h0 hgone hheard _ _ hst 1 .cSwap rfl (fun s => s.pcs[1]? = some .cNext ∧ s.pcs[i]? = some .dJoinC)
      (fun _ _ _ _ => rfl) ?_).trans ((busy .cNext rfl).or done)
    intro s s' sh y b h1 h2 h3 h4 h5 hr h6 h7
    cases hr
    exact Or.inl ⟨h7, h5⟩
  have pred : e.LeadsTo (fun s => s.pcs[1]? = some .cPred ∧ s.pcs[i]? = some .dJoinC)
      (fun s => s.pcs[i]? = some .unsetStopped) := by
    refine (stepZ hc e hf h0 hgone hheard _ _ hst 1 .cPred rfl (fun s => s.pcs[1]? = some .cSwap ∧ s.pcs[i]? = some .dJoinC)
      (fun _ _ _ _ => rfl) ?_).trans (swap.or done)
    intro s s' sh y b h1 h2 h3 h4 h5 hr h6 h7
    cases hr with
    | cPredYes => exact Or.inl ⟨h7, h5⟩
    | cPredNo _ hd => exact absurd ((dest s h1 h4).1.symm.trans hd) nofun
  have if_ : e.LeadsTo (fun s => s.pcs[1]? = some .cIf ∧ s.pcs[i]? = some .dJoinC)
      (fun s => s.pcs[i]? = some .unsetStopped) := by
    refine (stepZ hc e hf h0 hgone hheard _ _ hst 1 .cIf rfl (fun s => s.pcs[1]? = some .cSwap ∧ s.pcs[i]? = some .dJoinC)
      (fun _ _ _ _ => rfl) ?_).trans (swap.or done)
    intro s s' sh y b h1 h2 h3 h4 h5 hr h6 h7
    cases hr with
    | cIfNo => exact Or.inl ⟨h7, h5⟩
    | cIfYes _ hd => exact absurd ((dest s h1 h4).1.symm.trans hd) nofun
  have lock : e.LeadsTo (fun s => s.pcs[1]? = some .cLock ∧ s.pcs[i]? = some .dJoinC)
      (fun s => s.pcs[i]? = some .unsetStopped) := by
    refine (takesZ hc e hf h0 hgone hheard _ _ hst (fun s => s.cbm = none) (cbm_frees hc e hf h0) 1 .cLock rfl
      (fun s => s.pcs[1]? = some .cIf ∧ s.pcs[i]? = some .dJoinC)
      (fun s _ _ _ h => by change s.sh.cbm = none at h; simp [run, h]) ?_).trans (if_.or done)
    intro s s' sh y b h1 h2 h3 h4 h5 hr h6 h7
    cases hr
    exact Or.inl ⟨h7, h5⟩
  have again : e.LeadsTo (fun s => s.pcs[1]? = some .cAgain ∧ s.pcs[i]? = some .dJoinC)
      (fun s => s.pcs[i]? = some .unsetStopped) := by
    refine (takesZ hc e hf h0 hgone hheard _ _ hst (fun s => s.cbm = none) (cbm_frees hc e hf h0) 1 .cAgain rfl
      (fun s => s.pcs[1]? = some .cPred ∧ s.pcs[i]? = some .dJoinC)
      (fun s _ _ _ h => by change s.sh.cbm = none at h; simp [run, h]) ?_).trans (pred.or done)
    intro s s' sh y b h1 h2 h3 h4 h5 hr h6 h7
    cases hr
    exact Or.inl ⟨h7, h5⟩
  have off : e.LeadsTo (fun s => s.pcs[1]? = some .cOff ∧ s.pcs[i]? = some .dJoinC ∧ s.sh.ct ≠ .ended)
      (fun s => s.pcs[i]? = some .unsetStopped) := by
    refine (stepZ hc e hf h0 hgone hheard (fun s => s.pcs[i]? = some .dJoinC ∧ s.sh.ct ≠ .ended)
      (fun s => s.pcs[i]? = some .unsetStopped ∨ (s.pcs[i]? = some .dJoinC ∧ s.sh.ct = .ended)) ?_ 1 .cOff rfl
      (fun s => s.pcs[1]? = some .cLoop ∧ s.pcs[i]? = some .dJoinC) ?_ ?_).trans (loop.or (done.or ended))
    · intro s l s' h1 ⟨h2, h3⟩ h4
      rcases hst s l s' h1 h2 h4 with h | h
      · by_cases he : s'.sh.ct = .ended
        · exact Or.inr (Or.inr ⟨h, he⟩)
        · exact Or.inl ⟨h, he⟩
      · exact Or.inr (Or.inl h)
    · intro s h1 h2 ⟨h3, h4⟩
      have hw := (h1.all.inv.loc 1 _ h2).cfact
      cases ht : s.sh.ct with
      | none => exact absurd ht (dest _ h1 h3).2.2
      | spawned => simp [run, ht]
      | running => exact absurd ht hw.1
      | ended => exact absurd ht h4
    intro s s' sh y b h1 h2 h3 h4 h5 hr h6 h7
    cases hr
    exact Or.inl ⟨h7, h5.1⟩
  intro m hm
  have hF := full hc e h0 hgone hheard m
  have hA := hF.all
  have hlt : 1 < (e.at_ m).pcs.length := hA.two
  have hx : (e.at_ m).pcs[1]? = some _ := List.getElem?_eq_getElem hlt
  have hw := (hA.inv.loc 1 _ hx).isC.2 rfl
  generalize (e.at_ m).pcs[1]'hlt = x at hx hw
  have offs : x = .cOff → ∃ k, m ≤ k ∧ (e.at_ k).pcs[i]? = some .unsetStopped := by
    intro h
    subst h
    by_cases ht : (e.at_ m).sh.ct = .ended
    · exact ended m ⟨hm, ht⟩
    · exact off m ⟨hx, hm, ht⟩
  -- thread 0 has ended
  have hno : (e.at_ m).pcs[0]? = some .wRead ∨ (e.at_ m).pcs[0]? = some .wPush ∨ (e.at_ m).pcs[0]? = some .wNotify →
      False := by
    have hn := (dest _ hF hm).2.1
    intro h
    rcases h with h | h | h
    · exact absurd ((hA.inv.loc 0 _ h).wfact.1.symm.trans hn) nofun
    · exact absurd ((hA.inv.loc 0 _ h).wfact.1.symm.trans hn) nofun
    · exact absurd ((hA.inv.loc 0 _ h).wfact.1.symm.trans hn) nofun
  have hsafe := hF.waits i _ hm (Or.inr rfl)
  cases x <;> first
    | (cases hw; done)
    | exact offs rfl
    | exact loop m ⟨hx, hm⟩
    | exact lock m ⟨hx, hm⟩
    | exact if_ m ⟨hx, hm⟩
    | exact pred m ⟨hx, hm⟩
    | exact (hno ((hsafe.late hx).elim Or.inl fun h => Or.inr (Or.inl h))).elim
    | exact (hno (hsafe.asleep hx)).elim
    | exact again m ⟨hx, hm⟩
    | exact swap m ⟨hx, hm⟩
    | exact busy .cNext rfl m ⟨hx, hm⟩
    | exact end_ m ⟨hx, hm⟩
    | (rename_i t; cases t; cases hw; exact busy _ rfl m ⟨hx, hm⟩)

/-- The constructor of `FileWatch` does not wait for ever. -/
theorem set_waits (i : Nat) : e.LeadsTo (fun s => s.pcs[i]? = some .setWait) (fun s => s.pcs[i]? = some .setStarted) := by
  have hst : ∀ (s : Conf (prog c)) l s', Full s → s.pcs[i]? = some .setWait → (prog c).Stepped s l s' →
      s'.pcs[i]? = some .setWait ∨ s'.pcs[i]? = some .setStarted := by
    intro s l s' _ h1 h2
    rcases place_step hc rfl h1 h2 with h | ⟨y, b, hr, h⟩
    · exact Or.inl h
    · generalize s'.sh = t at hr
      cases hr
      exact Or.inr h
  have done : e.LeadsTo (fun s => s.pcs[i]? = some .setStarted) (fun s => s.pcs[i]? = some .setStarted) :=
    .refl e fun _ h => h
  have go : e.LeadsTo (fun s => s.pcs[i]? = some .setWait ∧ s.sh.running = true)
      (fun s => s.pcs[i]? = some .setStarted) := by
    refine Prog.runs' e hf Full (full hc e h0 hgone hheard) i .setWait (active rfl) (fun s => s.sh.running = true) _ ?_ ?_ ?_
    · intro s l s' h1 h2 h3 h4 h5 h6
      rcases Prog.stepped_sh h5 with h | ⟨k, x, y, b, el, hx, hr⟩
      · rw [h]; exact Or.inl h4
      · left
        have hr := run_ran hc (i := k) (x := x) hr
        have hl := h1.all.inv.loc k x hx
        have hev : x.hasEvent = true → False := by
          intro h
          have e1 := hl.event.1 h
          have e2 := (h1.all.inv.loc i _ h3).event.1 rfl
          rw [e1] at e2
          cases e2
          exact h6 el
        generalize s'.sh = t at hr
        cases hker : x.kernel with
        | true => rw [(ran_kernel hr hker).1.running]; exact h4
        | false =>
          cases hr <;> first
            | (cases hker; done)
            | exact h4
            | rfl
            | (rename_i t _; cases t <;> exact h4)
            | (rename_i t; cases t <;> exact h4)
            | exact (hev rfl).elim
    · intro s _ _ h
      simp [run, h]
    · intro s s' h1 h2 h3 h4 h5
      obtain ⟨sh, y, b, g1, g2, g3⟩ := Prog.stepped_run h5 h3
      have hr := run_ran hc (i := i) (x := .setWait) g1
      cases hr
      exact g3
  have start_ : e.LeadsTo (fun s => s.pcs[0]? = some .wRun ∧ s.pcs[i]? = some .setWait)
      (fun s => s.pcs[i]? = some .setStarted) := by
    refine (stepZ hc e hf h0 hgone hheard _ _ hst 0 .wRun rfl
      (fun s => s.pcs[i]? = some .setWait ∧ s.sh.running = true) (fun _ _ _ _ => rfl) ?_).trans (go.or done)
    intro s s' sh y b h1 h2 h3 h4 h5 hr h6 h7
    cases hr
    exact Or.inl ⟨h5, by rw [h6]⟩
  have off : e.LeadsTo (fun s => s.pcs[0]? = some .wOff ∧ s.pcs[i]? = some .setWait)
      (fun s => s.pcs[i]? = some .setStarted) := by
    refine (stepZ hc e hf h0 hgone hheard _ _ hst 0 .wOff rfl
      (fun s => s.pcs[0]? = some .wRun ∧ s.pcs[i]? = some .setWait) ?_ ?_).trans (start_.or done)
    · intro s h1 h2 h3
      have hw := (h1.all.inv.loc 0 _ h2).wfact
      rcases (h1.all.inv.loc i _ h3).efact.2.2.2.2.1 with h | h
      · simp [run, h]
      · exact absurd h hw.1
    intro s s' sh y b h1 h2 h3 h4 h5 hr h6 h7
    cases hr
    exact Or.inl ⟨h7, h5⟩
  intro m hm
  have hF := full hc e h0 hgone hheard m
  have hA := hF.all
  have hlt : 0 < (e.at_ m).pcs.length := Nat.lt_of_lt_of_le (by decide) hA.two
  have hx : (e.at_ m).pcs[0]? = some _ := List.getElem?_eq_getElem hlt
  have hl := hA.inv.loc 0 _ hx
  have hw := hl.isW.2 rfl
  have hf := hl.wfact
  generalize (e.at_ m).pcs[0]'hlt = x at hx hw hf
  cases x <;> first
    | (cases hw; done)
    | exact off m ⟨hx, hm⟩
    | exact start_ m ⟨hx, hm⟩
    | exact go m ⟨hm, hf.2⟩
    | exact go m ⟨hm, hf.2.2⟩
    | exact go m ⟨hm, hf.2.2.2⟩

/-- A thread with `event_mutex_` releases it. -/
theorem event_out (i : Nat) (x : PC) (hx : x.hasEvent = true) :
    e.LeadsTo (fun s => s.pcs[i]? = some x) (fun s => s.pcs[i]? = some .idle ∧ s.sh.event = none) := by
  have fi := internal_frees hc e hf h0
  have setOut := moves hc e hf h0 i .setOut rfl (fun s => s.pcs[i]? = some .idle ∧ s.sh.event = none) (fun _ => rfl)
    (fun _ _ _ _ _ _ hr s' g1 g2 => by cases hr; rw [g1]; exact ⟨g2, rfl⟩)
  have unsetOut := moves hc e hf h0 i .unsetOut rfl (fun s => s.pcs[i]? = some .idle ∧ s.sh.event = none) (fun _ => rfl)
    (fun _ _ _ _ _ _ hr s' g1 g2 => by cases hr; rw [g1]; exact ⟨g2, rfl⟩)
  have setStarted := next hc e hf h0 i .setStarted rfl _ (fun y => y = .setOut) (fun _ => rfl)
    (fun _ _ _ _ _ _ hr => by cases hr; rfl) (fun y hy => by subst hy; exact setOut)
  have setWait := (set_waits hc e hf h0 hgone hheard i).trans setStarted
  have setMake := next hc e hf h0 i .setMake rfl _ (fun y => y = .setWait ∨ y = .setStarted)
    (fun s => by simp only [run]; split <;> rfl) (fun _ _ _ _ _ _ hr => by cases hr <;> simp)
    (fun y hy => by rcases hy with rfl | rfl; exact setWait; exact setStarted)
  have setHook := next hc e hf h0 i .setHook rfl _ (fun y => y = .setMake ∨ y = .setOut) (fun _ => rfl)
    (fun _ _ _ _ _ _ hr => by cases hr <;> simp)
    (fun y hy => by rcases hy with rfl | rfl; exact setMake; exact setOut)
  have setRel := fun was => next hc e hf h0 i (.setRel was) rfl _ (fun y => y = .setHook ∨ y = .setOut) (fun _ => rfl)
    (fun _ _ _ _ _ _ hr => by cases hr <;> simp)
    (fun y hy => by rcases hy with rfl | rfl; exact setHook; exact setOut)
  have setFlag := next hc e hf h0 i .setFlag rfl _ (fun y => ∃ was, y = .setRel was) (fun _ => rfl)
    (fun _ _ _ _ _ _ hr => by cases hr; exact ⟨_, rfl⟩) (fun y ⟨was, hy⟩ => by subst hy; exact setRel was)
  have setInternal := next_takes hc e hf h0 (fun s => s.internal = none) fi i .setInternal rfl _ (fun y => y = .setFlag)
    (fun s h => by change s.internal = none at h; simp [run, h]) (fun _ _ _ _ _ _ hr => by cases hr; rfl)
    (fun y hy => by subst hy; exact setFlag)
  have unsetStopped := next hc e hf h0 i .unsetStopped rfl _ (fun y => y = .unsetOut) (fun _ => rfl)
    (fun _ _ _ _ _ _ hr => by cases hr; rfl) (fun y hy => by subst hy; exact unsetOut)
  have dJoinC := (joins_c hc e hf h0 hgone hheard i).trans unsetStopped
  have dJoinW := (joins_w hc e hf h0 hgone hheard i).trans dJoinC
  have dNotify := next hc e hf h0 i .dNotify rfl _ (fun y => y = .dJoinW) (fun _ => rfl)
    (fun _ _ _ _ _ _ hr => by cases hr; rfl) (fun y hy => by subst hy; exact dJoinW)
  have dRemove := next hc e hf h0 i .dRemove rfl _ (fun y => y = .dNotify) (fun _ => rfl)
    (fun _ _ _ _ _ _ hr => by cases hr; rfl) (fun y hy => by subst hy; exact dNotify)
  have dFlag := next hc e hf h0 i .dFlag rfl _ (fun y => y = .dRemove) (fun _ => rfl)
    (fun _ _ _ _ _ _ hr => by cases hr; rfl) (fun y hy => by subst hy; exact dRemove)
  have unsetHook := next hc e hf h0 i .unsetHook rfl _ (fun y => y = .dFlag ∨ y = .unsetStopped ∨ y = .unsetOut)
    (fun _ => rfl) (fun _ _ _ _ _ _ hr => by cases hr <;> simp)
    (fun y hy => by rcases hy with rfl | rfl | rfl; exact dFlag; exact unsetStopped; exact unsetOut)
  have unsetRel := next hc e hf h0 i .unsetRel rfl _ (fun y => y = .unsetHook) (fun _ => rfl)
    (fun _ _ _ _ _ _ hr => by cases hr; rfl) (fun y hy => by subst hy; exact unsetHook)
  have unsetFlag := next hc e hf h0 i .unsetFlag rfl _ (fun y => y = .unsetRel) (fun _ => rfl)
    (fun _ _ _ _ _ _ hr => by cases hr; rfl) (fun y hy => by subst hy; exact unsetRel)
  have unsetInternal := next_takes hc e hf h0 (fun s => s.internal = none) fi i .unsetInternal rfl _
    (fun y => y = .unsetFlag) (fun s h => by change s.internal = none at h; simp [run, h])
    (fun _ _ _ _ _ _ hr => by cases hr; rfl) (fun y hy => by subst hy; exact unsetFlag)
  have unsetTest := next hc e hf h0 i .unsetTest rfl _ (fun y => y = .unsetInternal ∨ y = .unsetOut) (fun _ => rfl)
    (fun _ _ _ _ _ _ hr => by cases hr <;> simp)
    (fun y hy => by rcases hy with rfl | rfl; exact unsetInternal; exact unsetOut)
  cases x <;> first
    | (cases hx; done)
    | assumption
    | exact setRel _

/-- `event_mutex_` is released again and again. -/
theorem event_frees : e.LeadsTo (fun _ => True) (fun s => s.sh.event = none) := by
  intro m _
  cases hs : (e.at_ m).sh.event with
  | none => exact ⟨m, Nat.le_refl m, hs⟩
  | some j =>
    have hA := all hc e h0 m
    have hx : (e.at_ m).pcs[j]? = some _ := List.getElem?_eq_getElem (hA.owned.1 j hs)
    have hh := (hA.inv.loc j _ hx).event.2 hs
    obtain ⟨k, h1, -, h2⟩ := event_out hc e hf h0 hgone hheard j _ hh m hx
    exact ⟨k, h1, h2⟩

/-- C112, part: under fair scheduling every call of a client returns, the destructor among them, if the callback does not use the
handler, the watched directory is not deleted while it is watched, and the notification of `~FileWatch` does not get lost:
it does if `_callback_thread` has already evaluated its condition, but does not yet sleep, and `_watch_thread` does not
afterwards read an event. -/
theorem C112_returns_partial {i : Nat} (hi : 2 ≤ i) :
    e.LeadsTo (fun s => i < s.pcs.length) (fun s => s.pcs[i]? = some .idle) := by
  have fi := internal_frees hc e hf h0
  have fe := event_frees hc e hf h0 hgone hheard
  have idle : e.LeadsTo (fun s => s.pcs[i]? = some .idle) (fun s => s.pcs[i]? = some .idle) := .refl e fun _ h => h
  have out : ∀ x : PC, x.hasEvent = true → e.LeadsTo (fun s => s.pcs[i]? = some x) (fun s => s.pcs[i]? = some .idle) :=
    fun x hx m h => by
      obtain ⟨k, h1, h2, -⟩ := event_out hc e hf h0 hgone hheard i x hx m h
      exact ⟨k, h1, h2⟩
  have fsC := fun ev => next hc e hf h0 i (.fsChange ev) rfl _ (fun y => y = .idle) (fun _ => rfl)
    (fun _ _ _ _ _ _ hr => by cases hr; rfl) (fun y hy => by subst hy; exact idle)
  have fsP := fun ok => next hc e hf h0 i (.fsPath ok) rfl _ (fun y => y = .idle) (fun _ => rfl)
    (fun _ _ _ _ _ _ hr => by cases hr; rfl) (fun y hy => by subst hy; exact idle)
  have fsG := next hc e hf h0 i .fsGone rfl _ (fun y => y = .idle) (fun _ => rfl)
    (fun _ _ _ _ _ _ hr => by cases hr; rfl) (fun y hy => by subst hy; exact idle)
  have setLock := next_takes hc e hf h0 (fun s => s.event = none) fe i .setLock rfl _ (fun y => y.hasEvent = true)
    (fun s h => by change s.event = none at h; simp [run, h]) (fun _ _ _ _ _ _ hr => by cases hr; rfl)
    (fun y hy => out y hy)
  have unsetLock := next_takes hc e hf h0 (fun s => s.event = none) fe i .unsetLock rfl _ (fun y => y.hasEvent = true)
    (fun s h => by change s.event = none at h; simp [run, h]) (fun _ _ _ _ _ _ hr => by cases hr; rfl)
    (fun y hy => out y hy)
  have evRel := next hc e hf h0 i (.evRel false) rfl _ (fun y => y = .idle) (fun _ => rfl)
    (fun _ _ _ _ _ _ hr => by cases hr; rfl) (fun y hy => by subst hy; exact idle)
  have evCall := next hc e hf h0 i (.evCall false) rfl _ (fun y => y = .evRel false)
    (fun _ => by simp only [run, hc]; rfl)
    (fun _ _ _ _ _ _ hr => by cases hr; rfl) (fun y hy => by subst hy; exact evRel)
  have evTest := next hc e hf h0 i (.evTest false) rfl _ (fun y => y = .evCall false ∨ y = .evRel false)
    (fun s => by simp only [run]; split <;> rfl) (fun _ _ _ _ _ _ hr => by cases hr <;> simp)
    (fun y hy => by rcases hy with rfl | rfl; exact evCall; exact evRel)
  have evLock := next_takes hc e hf h0 (fun s => s.internal = none) fi i (.evLock false) rfl _
    (fun y => y = .evTest false) (fun s h => by change s.internal = none at h; simp [run, h])
    (fun _ _ _ _ _ _ hr => by cases hr; rfl) (fun y hy => by subst hy; exact evTest)
  intro m hm
  have hA := all hc e h0 m
  have hx : (e.at_ m).pcs[i]? = some _ := List.getElem?_eq_getElem hm
  have hl := hA.inv.loc i _ hx
  have hw := hl.isW
  have hcc := hl.isC
  have he := hl.efact
  generalize (e.at_ m).pcs[i]'hm = x at hx hw hcc he
  have nw : x.isW = false := by
    cases h : x.isW with
    | false => rfl
    | true => have := hw.1 h; omega
  have nc : x.isC = false := by
    cases h : x.isC with
    | false => rfl
    | true => have := hcc.1 h; omega
  cases x <;> first
    | (cases nw; done)
    | (cases nc; done)
    | exact he.elim
    | exact out _ rfl m hx
    | exact idle m hx
    | exact fsC _ m hx
    | exact fsP _ m hx
    | exact fsG m hx
    | exact setLock m hx
    | exact unsetLock m hx
    | (rename_i t; cases t; exact evLock m hx; cases nc)
    | (rename_i t; cases t; exact evTest m hx; cases nc)
    | (rename_i t; cases t; exact evCall m hx; cases nc)
    | (rename_i t; cases t; exact evRel m hx; cases nc)

end

/-! ### Where calls do not return, and that the hypotheses are met -/

theorem some_of {α : Type} {o : Option α} (q : α → Bool) (h : o.any q = true) : ∃ s, o = some s ∧ q s = true := by
  cases o with
  | none => cases h
  | some s => exact ⟨s, rfl, h⟩

/-- The file `f` is watched; the buffer takes one event at a time. -/
abbrev watched (k : Callback) : Cfg := ⟨k, .file c!"f", fun _ => 1⟩

/-- A configuration with one client in which no thread can go on. -/
def Stuck {k : Callback} (s : Conf (prog (watched k))) (x : PC) : Bool :=
  decide (s.pcs.length = 3) && decide (s.pcs[2]? = some x) &&
    (List.range 3).all fun i => ((prog (watched k)).system.step s (.run i)).isNone

theorem stuck_run {k : Callback} {s : Conf (prog (watched k))} {x : PC} (h : Stuck s x = true) (i : Nat) :
    (prog (watched k)).system.step s (.run i) = none := by
  unfold Stuck at h
  rw [Bool.and_eq_true, Bool.and_eq_true] at h
  by_cases hi : i < 3
  · exact Option.isNone_iff_eq_none.1 (List.all_eq_true.1 h.2 i (List.mem_range.2 hi))
  · cases hs : (prog (watched k)).system.step s (.run i) with
    | none => rfl
    | some s' =>
      obtain ⟨x, hx⟩ := Prog.stepped_at (Prog.step_stepped hs)
      have := (List.getElem?_eq_some_iff.1 hx).1
      rw [of_decide_eq_true h.1.1] at this
      exact absurd this hi

/-- A run that ends in such a configuration is a fair execution in which the client stays where it is. -/
theorem stuck_fair {k : Callback} (path : Bool) (ls : List (Label Op)) (x : PC)
    (h : ((prog (watched k)).system.exec (init (watched k) path 1) ls).any
      (fun (s : Conf (prog (watched k))) => Stuck s x) = true) :
    ∃ e : (prog (watched k)).system.Execution, e.Fair ∧ e.at_ 0 = init (watched k) path 1 ∧
      (∀ n, e.label n = ls[n]?) ∧
      (∀ n, ∃ s, (prog (watched k)).system.exec (init (watched k) path 1) (ls.take n) = some s ∧ e.at_ n = s) ∧
      ∀ m, ls.length ≤ m → (e.at_ m).pcs[2]? = some x := by
  obtain ⟨s, hs, hq⟩ := some_of _ h
  obtain ⟨e, hf, h0, hat, hlab⟩ := (prog (watched k)).system.finite_fair' (init (watched k) path 1) s ls hs (stuck_run hq)
  refine ⟨e, hf, h0, hlab, hat, ?_⟩
  intro m hm
  obtain ⟨t, ht, he⟩ := hat m
  rw [List.take_of_length_le hm, hs] at ht
  cases ht
  rw [he]
  unfold Stuck at hq
  rw [Bool.and_eq_true, Bool.and_eq_true] at hq
  exact of_decide_eq_true hq.1.2

/-- `Heard` for a run, to be computed. -/
def heardB (k : Callback) (path : Bool) (ls : List (Label Op)) : Bool :=
  (List.range ls.length).all fun n =>
    ((prog (watched k)).system.exec (init (watched k) path 1) (ls.take n)).any
      fun (s : Conf (prog (watched k))) =>
        match ls[n]? with
        | some (.run i) => decide (s.pcs[i]? = some .dNotify → s.pcs[1]? = some .cSleep →
            s.pcs[0]? = some .wRead ∨ s.pcs[0]? = some .wPush)
        | _ => true

theorem heard_all {k : Callback} {path : Bool} (ls : List (Label Op)) {e : (prog (watched k)).system.Execution}
    (hl : ∀ n, e.label n = ls[n]?)
    (hat : ∀ n, ∃ s, (prog (watched k)).system.exec (init (watched k) path 1) (ls.take n) = some s ∧ e.at_ n = s)
    (h : heardB k path ls = true) (m : Nat) (l : Label Op) (hm : e.label m = some l) : Heard (e.at_ m) l := by
  rw [hl] at hm
  obtain ⟨s, hs, hq⟩ := some_of _ (List.all_eq_true.1 h m (List.mem_range.2 (List.getElem?_eq_some_iff.1 hm).1))
  obtain ⟨t, ht, he⟩ := hat m
  rw [hs] at ht
  cases ht
  rw [he]
  intro i hi
  subst hi
  rw [hm] at hq
  exact of_decide_eq_true hq

/-- Labels: `set_callback` of client 2, with the start of `_watch_thread`. -/
def sets : List (Label Op) :=
  [.start 2 .set, .run 2, .run 2, .run 2, .run 2, .run 2, .run 2, .run 0, .run 0, .run 2, .run 2, .run 2]

/-- Labels: `unset_callback` up to the first `join`. -/
def unsets : List (Label Op) :=
  [.start 2 .unset, .run 2, .run 2, .run 2, .run 2, .run 2, .run 2, .run 2, .run 2, .run 2]

/-- A write to `f`. -/
def written : Ev := ⟨some c!"f", false, false, true⟩

/-- Labels: `_callback_thread` gets as far as the wait, but does not sleep when it is notified. -/
def lost : List (Label Op) :=
  sets ++ [.run 1, .run 1, .run 1, .run 1, .run 1] ++ unsets ++ [.run 0, .run 0, .run 1, .run 2]

/-- C112 does not hold: `~FileWatch` stores `_destory` and notifies without `_callback_mutex`, so that `_callback_thread`
may sleep for ever; then the `join` in the destructor, and with it `unset_callback` and `~FileWatcherHandler`, do not return,
although nothing happens to the directory and the callback is never called. -/
theorem C112_negation_lost : ∃ e : (prog (watched .plain)).system.Execution, e.Fair ∧
    e.at_ 0 = init (watched .plain) true 1 ∧ (∀ m i, e.label m ≠ some (.start i .gone)) ∧
    ∃ m, ∀ k, m ≤ k → (e.at_ k).pcs[2]? = some .dJoinC := by
  obtain ⟨e, hf, h0, hl, -, h⟩ := stuck_fair (k := .plain) true lost .dJoinC (by decide +kernel)
  refine ⟨e, hf, h0, ?_, lost.length, h⟩
  intro m i hm
  rw [hl] at hm
  have := List.mem_of_getElem? hm
  simp [lost, sets, unsets] at this

/-- Labels: the watched directory is deleted; `_watch_thread` reads that, and reads on. -/
def deleted : List (Label Op) :=
  sets ++ [.run 0, .run 1, .run 1, .run 1, .run 1, .run 1, .run 1, .start 2 .gone, .run 2,
    .run 0, .run 0, .run 0, .run 0, .run 1, .run 1, .run 1] ++ unsets ++
    [.run 1, .run 1, .run 1, .run 1, .run 1, .run 1]

/-- C112 does not hold: when the watched directory is deleted, its watch is gone; `inotify_rm_watch` in `~FileWatch` then has
nothing to remove and causes no event, so that `_watch_thread` stays in `read` and the destructor does not return. -/
theorem C112_negation_deleted : ∃ e : (prog (watched .plain)).system.Execution, e.Fair ∧
    e.at_ 0 = init (watched .plain) true 1 ∧ (∀ m l, e.label m = some l → Heard (e.at_ m) l) ∧
    ∃ m, ∀ k, m ≤ k → (e.at_ k).pcs[2]? = some .dJoinW := by
  obtain ⟨e, hf, h0, hl, hat, h⟩ := stuck_fair (k := .plain) true deleted .dJoinW (by decide +kernel)
  exact ⟨e, hf, h0, heard_all deleted hl hat (by decide +kernel), deleted.length, h⟩

/-- Labels: the callback, called by `_callback_thread`, unsets itself. -/
def selfUnset : List (Label Op) :=
  sets ++ [.run 0, .start 2 (.change written), .run 2, .run 0, .run 0, .run 0,
    .run 1, .run 1, .run 1, .run 1, .run 1, .run 1, .run 1, .run 1, .run 1, .run 1, .run 1, .run 1, .run 1, .run 1,
    .run 0, .run 0, .run 1, .run 1]

/-- C112 does not hold: a callback that calls `unset_callback` is run by `_callback_thread`, which then joins itself; the exception
this raises leaves the destructor of `FileWatch`, which ends the process. -/
theorem C112_negation_self_unset : ∃ s, (prog (watched .unset)).system.Reachable (init (watched .unset) true 1) s ∧
    s.sh.dead = true := by
  obtain ⟨s, hs, hq⟩ := some_of (o := (prog (watched .unset)).system.exec (init (watched .unset) true 1) selfUnset)
    (fun (s : Conf (prog (watched .unset))) => s.sh.dead) (by decide +kernel)
  exact ⟨s, (prog (watched .unset)).system.exec_reachable' _ hs, hq⟩

/-- Labels: the same callback, called by `simulate_event_occurred` while `_callback_thread` is about to call it. -/
def otherUnset : List (Label Op) :=
  sets ++ [.run 0, .start 2 (.change written), .run 2, .run 0, .run 0, .run 0,
    .run 1, .run 1, .run 1, .run 1, .run 1, .run 1,
    .start 2 .event, .run 2, .run 2, .run 2, .run 2, .run 2, .run 2, .run 2, .run 2, .run 0, .run 0, .run 2]

/-- C112 does not hold: such a callback may also wait for ever, when it is called by `simulate_event_occurred`: it has
`internal_callback_mutex_` while it joins `_callback_thread`, which waits for that mutex. -/
theorem C112_negation_unset_in_callback : ∃ e : (prog (watched .unset)).system.Execution, e.Fair ∧
    e.at_ 0 = init (watched .unset) true 1 ∧ ∃ m, ∀ k, m ≤ k → (e.at_ k).pcs[2]? = some (.cbJoinC false) := by
  obtain ⟨e, hf, h0, -, -, h⟩ := stuck_fair (k := .unset) true otherUnset (.cbJoinC false) (by decide +kernel)
  exact ⟨e, hf, h0, otherUnset.length, h⟩

/-- Labels: the callback sets another one while a client is in `unset_callback`. -/
def changing : List (Label Op) :=
  sets ++ [.run 0, .start 2 (.change written), .run 2, .run 0, .run 0, .run 0, .run 0,
    .run 1, .run 1, .run 1, .run 1, .run 1, .run 1, .run 1, .run 1, .run 1,
    .start 2 .unset, .run 2, .run 2]

/-- C112 does not hold: a callback that calls `set_callback` waits for `event_mutex_` with `internal_callback_mutex_`, a client in
`unset_callback` waits for the second with the first. -/
theorem C112_negation_set_in_callback : ∃ e : (prog (watched .change)).system.Execution, e.Fair ∧
    e.at_ 0 = init (watched .change) true 1 ∧ ∃ m, ∀ k, m ≤ k → (e.at_ k).pcs[2]? = some .unsetInternal := by
  obtain ⟨e, hf, h0, -, -, h⟩ := stuck_fair (k := .change) true changing .unsetInternal (by decide +kernel)
  exact ⟨e, hf, h0, changing.length, h⟩

/-- Labels: the file is written to, the callback called, and unset. -/
def whole : List (Label Op) :=
  sets ++ [.run 0, .run 1, .run 1, .run 1, .run 1, .run 1, .run 1, .start 2 (.change written), .run 2,
    .run 0, .run 0, .run 0, .run 0] ++
    [.run 1, .run 1, .run 1, .run 1, .run 1, .run 1, .run 1, .run 1, .run 1, .run 1, .run 1, .run 1, .run 1, .run 1] ++
    unsets ++ [.run 0, .run 0, .run 0, .run 0, .run 0, .run 2, .run 1, .run 1, .run 1, .run 1, .run 1, .run 1,
    .run 2, .run 2, .run 2]

/-- The hypotheses of `C112_returns_partial` are met by an execution in which `unset_callback` ends both threads. -/
example : ∃ e : (prog (watched .plain)).system.Execution, e.Fair ∧ e.at_ 0 = init (watched .plain) true 1 ∧
    (∀ m i, e.label m ≠ some (.start i .gone)) ∧ (∀ m l, e.label m = some l → Heard (e.at_ m) l) ∧
    2 < (e.at_ 0).pcs.length ∧ (e.at_ 49).pcs[2]? = some .dJoinW ∧ (e.at_ 64).pcs[2]? = some .idle := by
  obtain ⟨e, hf, h0, hl, hat, h⟩ := stuck_fair (k := .plain) true whole .idle (by decide +kernel)
  refine ⟨e, hf, h0, ?_, heard_all whole hl hat (by decide +kernel), by rw [h0]; decide, ?_, h 64 (by decide)⟩
  · intro m i hm
    rw [hl] at hm
    have := List.mem_of_getElem? hm
    simp [whole, sets, unsets] at this
  · obtain ⟨t, ht, he⟩ := hat 49
    obtain ⟨s, hs, hq⟩ := some_of (o := (prog (watched .plain)).system.exec (init (watched .plain) true 1) (whole.take 49))
      (fun (s : Conf (prog (watched .plain))) => decide (s.pcs[2]? = some PC.dJoinW)) (by decide +kernel)
    rw [hs] at ht
    cases ht
    rw [he]
    exact of_decide_eq_true hq

/-- The hypotheses of `C110_calls` and `C111_called` are met: an execution in which the callback is set and `f` is written to. -/
example : ∃ e : (prog (watched .plain)).system.Execution, e.Fair ∧ e.at_ 0 = init (watched .plain) true 1 ∧
    (e.at_ 21).sh.set = true ∧ (e.at_ 21).sh.present = true ∧
    (∀ ev ∈ (e.at_ 21).sh.fed, ∀ n, ev.name = some n → '/' ∉ n) ∧
    [c!"f"] <+: modifications (.file c!"f") (e.at_ 21).sh.fed ∧ (e.at_ 21).sh.called = [] ∧
    (e.at_ 39).sh.called = [c!"f"] ∧ (e.at_ 39).sh.set = true := by
  obtain ⟨e, hf, h0, hl, hat, h⟩ := stuck_fair (k := .plain) true whole .idle (by decide +kernel)
  obtain ⟨t, ht, he⟩ := hat 21
  obtain ⟨s, hs, hq⟩ := some_of (o := (prog (watched .plain)).system.exec (init (watched .plain) true 1) (whole.take 21))
    (fun (s : Conf (prog (watched .plain))) => decide (s.sh.set = true ∧ s.sh.present = true ∧ s.sh.fed = [written] ∧
      s.sh.called = [])) (by decide +kernel)
  rw [hs] at ht
  cases ht
  obtain ⟨t, ht, he'⟩ := hat 39
  obtain ⟨s', hs', hq'⟩ := some_of (o := (prog (watched .plain)).system.exec (init (watched .plain) true 1) (whole.take 39))
    (fun (s : Conf (prog (watched .plain))) => decide (s.sh.called = [c!"f"] ∧ s.sh.set = true)) (by decide +kernel)
  rw [hs'] at ht
  cases ht
  obtain ⟨q1, q2, q3, q4⟩ := of_decide_eq_true hq
  obtain ⟨q5, q6⟩ := of_decide_eq_true hq'
  refine ⟨e, hf, h0, ?_⟩
  rw [he, he', q3]
  refine ⟨q1, q2, ?_, ?_, q4, q5, q6⟩
  · intro ev hev n hn
    rw [List.mem_singleton.1 hev] at hn
    cases hn
    decide
  · decide

end Verif.FileWatcher
