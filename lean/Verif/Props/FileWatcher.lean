import Verif.Lemmas.FileWatcher
/-!
C110, C111, C112, C113, C114: `FileWatcherHandler`.
-/
namespace Verif.FileWatcher
open Verif.Threads
open Verif.FileWatch

/-! ### C110 -/

/-- The files to be reported: the watched file, or, when a directory is watched, all files in it whose name is in one
line. -/
def reported : Filter → Str → Bool
  | .file m, n => n == m
  | .directory, n => !n.contains '\n' && !n.contains '\r'

/-- The modifications to be reported, from the events of the kernel. -/
def modifications (f : Filter) (evs : List Ev) : List Str :=
  evs.filterMap fun e =>
    match e.name with
    | none => none
    | some n =>
      if reported f n && e.modify && !e.create && !e.delete then some n else none

theorem split_name {n : Str} (h : '/' ∉ n) : (split n).2 = n := by
  have h1 : ∀ l : Str, '/' ∉ l → l.takeWhile (· ≠ '/') = l := by
    intro l hl
    induction l with
    | nil => rfl
    | cons c l ih =>
      have hc : c ≠ '/' := fun e => hl (by simp [e])
      rw [List.takeWhile_cons_of_pos (by simpa using hc), ih fun h => hl (List.mem_cons_of_mem _ h)]
  unfold split
  simp only
  rw [h1 n.reverse (by simpa using h), List.reverse_reverse]

theorem mods_notes (f : Filter) (evs : List Ev) (h : ∀ e ∈ evs, ∀ n, e.name = some n → '/' ∉ n) :
    mods (notes f evs) = modifications f evs := by
  induction evs with
  | nil => rfl
  | cons e evs ih =>
    have ih := ih fun e he => h e (List.mem_cons_of_mem _ he)
    have hn := h e List.mem_cons_self
    unfold notes modifications at ih ⊢
    simp only [List.filterMap_cons]
    cases hm : e.name with
    | none => simpa only [note, hm] using ih
    | some n =>
      have hs := split_name (hn n hm)
      have hp : pass f n = reported f n := by
        cases f with
        | file m => simp [pass, reported, hs]
        | directory =>
          rw [Bool.eq_iff_iff]
          simp only [pass, reported, List.all_eq_true, Bool.and_eq_true, decide_eq_true_eq, List.contains_eq_mem,
            Bool.not_eq_true', decide_eq_false_iff_not]
          exact ⟨fun h => ⟨fun h' => (h _ h').1 rfl, fun h' => (h _ h').2 rfl⟩,
            fun h c hc => ⟨fun e => h.1 (e ▸ hc), fun e => h.2 (e ▸ hc)⟩⟩
      simp only [note, hm]
      rw [← hp]
      cases hq : pass f n <;> cases h1 : e.create <;> cases h2 : e.delete <;> cases h3 : e.modify <;>
        simpa [mods] using ih

/-- C110: however the threads are scheduled, the callback has been called for the modifications the kernel has reported,
in their order and once for each, up to some point; it is not called for other files.  If everything has been read and passed on,
and the callback is set all the time since the watch exists, it has been called for all of them. -/
theorem C110_calls {c : Cfg} (hc : c.callback = .plain) {path : Bool} {n : Nat} {s : Conf (prog c)}
    (h : (prog c).system.Reachable (init c path n) s) (hn : ∀ e ∈ s.sh.fed, ∀ n, e.name = some n → '/' ∉ n) :
    s.sh.called <+: modifications c.filter s.sh.fed ∧
      (s.sh.set = true → s.sh.present = true → s.sh.queue = [] → s.sh.parsed = [] → s.sh.info = [] → s.sh.batch = [] →
        s.sh.called = modifications c.filter s.sh.fed) := by
  have hg := (inv hc h).glob
  have hf := hg.flow
  rw [mods_notes _ _ hn] at hf
  refine ⟨?_, ?_⟩
  · rw [hf]
    simp only [List.append_assoc]
    exact hg.called.trans (List.prefix_append _ _)
  · intro h1 h2 h3 h4 h5 h6
    rw [hf, h3, h4, h5, h6, hg.all h1 h2]
    simp [mods, notes]

/-! ### C111 -/

/-- Everything that always holds. -/
structure All {c : Cfg} (s : Conf (prog c)) : Prop where
  inv : (prog c).Inv (Glob c) Loc s
  sleep : Sleep s
  owned : Owned s
  two : 2 ≤ s.pcs.length

theorem two {c : Cfg} {path : Bool} {n : Nat} {s : Conf (prog c)}
    (h : (prog c).system.Reachable (init c path n) s) : 2 ≤ s.pcs.length := by
  refine System.ReachableBy.invariant (S := (prog c).system) (fun s : Conf (prog c) => 2 ≤ s.pcs.length) ?_ ?_ h
  · simp [init]
  · intro s l s' hi _ hs
    rw [Prog.stepped_length (Prog.step_stepped hs)]
    exact hi

/-- The callback is set and the path is watched. -/
def K {c : Cfg} (s : Conf (prog c)) : Prop := s.sh.set = true ∧ s.sh.present = true

theorem All.live {c : Cfg} {s : Conf (prog c)} (h : All s) (hk : K s) : On s.sh := by
  obtain ⟨hs, hp⟩ := hk
  have off : ∀ {p : Prop}, Off s.sh → p := fun ho => absurd (ho.1.symm.trans hp) nofun
  have cons : Cons s.sh → On s.sh := fun hc => by
    rcases (hc.1 hs).2 with ho | ho
    · exact ho.1
    · exact off ho
  cases he : s.sh.event with
  | none => exact cons (h.inv.glob.cons he)
  | some j =>
    have hx : s.pcs[j]? = some _ := List.getElem?_eq_getElem (h.owned.1 j he)
    have hl := h.inv.loc j _ hx
    have h1 := hl.event.2 he
    have h2 := hl.efact
    generalize s.pcs[j]'(h.owned.1 j he) = x at h1 h2
    have cl : ∀ {p : Prop}, s.sh.set = false → p := fun e => absurd (e.symm.trans hs) nofun
    cases x <;> first
      | (cases h1; done)
      | exact cons h2
      | exact cons h2.1
      | exact cl h2.1
      | exact off h2.2.2
      | exact h2.2.2
      | skip
    case setRel was =>
      cases was with
      | true => exact cons h2.1
      | false => exact off h2.2.2
    case setStarted =>
      rcases h2.2.2 with ho | ho
      · exact ho.1
      · exact off ho

/-- The paths on their way to the callback, given the events `q` not yet read. -/
def way (c : Cfg) (s : Sh) (q : List Ev) : List Str :=
  s.tried ++ mods s.batch ++ mods s.info ++ mods s.parsed ++ mods (notes c.filter q)

/-- What has got so far stays so or gets further. -/
structure Grow (c : Cfg) (s s' : Sh) : Prop where
  tried : s.tried <+: s'.tried
  batch : s.tried ++ mods s.batch <+: s'.tried ++ mods s'.batch
  info : s.tried ++ mods s.batch ++ mods s.info <+: s'.tried ++ mods s'.batch ++ mods s'.info
  parsed : s.tried ++ mods s.batch ++ mods s.info ++ mods s.parsed <+:
    s'.tried ++ mods s'.batch ++ mods s'.info ++ mods s'.parsed
  queue : ∀ q1 q2, s.queue = q1 ++ q2 → ∃ q1' q2', s'.queue = q1' ++ q2' ∧ q1'.length ≤ q1.length ∧
    way c s q1 <+: way c s' q1'

theorem Grow.same {c : Cfg} {s s' : Sh} (h1 : s'.tried = s.tried) (h2 : s'.batch = s.batch) (h3 : s'.info = s.info)
    (h4 : s'.parsed = s.parsed) (h5 : ∃ q, s'.queue = s.queue ++ q) : Grow c s s' := by
  refine ⟨by rw [h1]; exact List.prefix_refl _, by rw [h1, h2]; exact List.prefix_refl _,
    by rw [h1, h2, h3]; exact List.prefix_refl _, by rw [h1, h2, h3, h4]; exact List.prefix_refl _, ?_⟩
  intro q1 q2 hq
  obtain ⟨q, h5⟩ := h5
  refine ⟨q1, q2 ++ q, by rw [h5, hq, List.append_assoc], Nat.le_refl _, ?_⟩
  unfold way
  rw [h1, h2, h3, h4]
  exact List.prefix_refl _

theorem feed_queue (s : Sh) (e : Ev) : ∃ q, (s.feed e).queue = s.queue ++ q := by
  unfold Sh.feed
  split
  · exact ⟨_, rfl⟩
  · exact ⟨[], by simp⟩

theorem grow_feed (c : Cfg) (s : Sh) (e : Ev) : Grow c s (s.feed e) := by
  have h := feed_calm s e
  exact .same h.tried h.batch h.info h.parsed (feed_queue s e)

/-- A change that moves things forward. -/
theorem Grow.forward {c : Cfg} {s s' : Sh} (h0 : s.tried <+: s'.tried)
    (h1 : s.tried ++ mods s.batch <+: s'.tried ++ mods s'.batch)
    (h2 : s.tried ++ mods s.batch ++ mods s.info <+: s'.tried ++ mods s'.batch ++ mods s'.info)
    (h3 : s.tried ++ mods s.batch ++ mods s.info ++ mods s.parsed =
      s'.tried ++ mods s'.batch ++ mods s'.info ++ mods s'.parsed) (h4 : s'.queue = s.queue) : Grow c s s' := by
  refine ⟨h0, h1, h2, by rw [h3]; exact List.prefix_refl _, ?_⟩
  intro q1 q2 hq
  refine ⟨q1, q2, h4.trans hq, Nat.le_refl _, ?_⟩
  unfold way
  rw [h3]
  exact List.prefix_refl _

theorem ran_grow {c : Cfg} {i : Nat} {s s' : Sh} {x y : PC} {b : Bool} (hr : Ran c i s x s' y b) (he : x.efact s)
    (hw : x.wfact s) (hcf : x.cfact s) (hp : s.present = true) : Grow c s s' := by
  have step : ∀ (t : Bool) (z : Sh), PC.cfact s (.evTest t) → z.tried = (s.next t).tried → z.batch = (s.next t).batch →
      z.info = s.info → z.parsed = s.parsed → z.queue = s.queue → Grow c s z := by
    intro t z ht e1 e2 e3 e4 e5
    cases t with
    | false => exact .same e1 e2 e3 e4 ⟨[], by rw [e5, List.append_nil]⟩
    | true =>
      obtain ⟨-, -, p, rest, hb⟩ := ht
      have h1 : mods s.batch = p :: mods rest := by rw [hb]; rfl
      have h2 : z.tried = s.tried ++ [p] := by rw [e1]; simp [Sh.next, hb]
      have h3 : z.batch = rest := by rw [e2]; simp [Sh.next, hb]
      refine .forward ?_ ?_ ?_ ?_ e5
      · rw [h2]; exact List.prefix_append _ _
      · rw [h1, h2, h3]; simp
      · rw [h1, h2, h3, e3]; simp
      · rw [h1, h2, h3, e3, e4]; simp
  cases hr <;> first
    | exact .same rfl rfl rfl rfl ⟨[], by rw [List.append_nil]⟩
    | exact grow_feed _ _ _
    | skip
  case fsGone =>
    obtain ⟨g1, g2, g3, g4, g5⟩ := grow_feed c s ignored
    exact ⟨g1, g2, g3, g4, g5⟩
  case dRemove =>
    obtain ⟨g1, g2, g3, g4, g5⟩ := grow_feed c s ignored
    exact ⟨g1, g2, g3, g4, g5⟩
  case makeYes => exact absurd (he.2.2.1.symm.trans hp) nofun
  case evNo t hs => exact step t _ hcf rfl rfl (by cases t <;> rfl) (by cases t <;> rfl) (by cases t <;> rfl)
  case evCall t =>
    exact step t _ (by cases t <;> exact hcf) (by cases t <;> rfl) (by cases t <;> rfl) (by cases t <;> rfl)
      (by cases t <;> rfl) (by cases t <;> rfl)
  case wRead hq =>
    have h1 : s.parsed = [] := hw.2.1
    have h2 : mods ([] : List (Str × Change)) = [] := rfl
    refine ⟨List.prefix_refl _, List.prefix_refl _, List.prefix_refl _, ?_, ?_⟩
    · rw [h1, h2, List.append_nil]; exact List.prefix_append _ _
    · intro q1 q2 hq
      refine ⟨q1.drop (max 1 (c.fit s.queue)), q2.drop (max 1 (c.fit s.queue) - q1.length), ?_, ?_, ?_⟩
      · show s.queue.drop _ = _
        rw [hq, List.drop_append]
      · simp
      · show s.tried ++ mods s.batch ++ mods s.info ++ mods s.parsed ++ mods (notes c.filter q1) <+:
          s.tried ++ mods s.batch ++ mods s.info ++ mods (notes c.filter (s.queue.take (max 1 (c.fit s.queue)))) ++
          mods (notes c.filter (q1.drop (max 1 (c.fit s.queue))))
        rw [h1, h2, List.append_nil]
        simp only [List.append_assoc, List.prefix_append_right_inj]
        rw [← mods_append, ← notes_append, hq, List.take_append]
        by_cases hk : max 1 (c.fit (q1 ++ q2)) ≤ q1.length
        · rw [Nat.sub_eq_zero_of_le hk]
          simp
        · rw [List.take_of_length_le (by omega), List.append_assoc, notes_append, mods_append]
          exact List.prefix_append _ _
  case wPush hq =>
    have h2 : mods ([] : List (Str × Change)) = [] := rfl
    refine .forward (List.prefix_refl _) (List.prefix_refl _) ?_ ?_ rfl
    · show _ <+: s.tried ++ mods s.batch ++ mods (s.info ++ s.parsed)
      rw [mods_append, ← List.append_assoc]
      exact List.prefix_append _ _
    · show _ = s.tried ++ mods s.batch ++ mods (s.info ++ s.parsed) ++ mods []
      rw [mods_append, h2]
      simp
  case cSwap =>
    have h1 : s.batch = [] := hcf.2.2
    have h2 : mods ([] : List (Str × Change)) = [] := rfl
    refine .forward (List.prefix_refl _) ?_ ?_ ?_ rfl
    · show _ <+: s.tried ++ mods s.info
      rw [h1, h2, List.append_nil]
      exact List.prefix_append _ _
    · show _ <+: s.tried ++ mods s.info ++ mods []
      rw [h1, h2, List.append_nil, List.append_nil]
      exact List.prefix_refl _
    · show _ = s.tried ++ mods s.info ++ mods [] ++ mods s.parsed
      rw [h1, h2, List.append_nil, List.append_nil]
  case cNextSkip p k rest hb hk =>
    have h1 : mods s.batch = mods rest := by rw [hb]; simp [mods, hk]
    refine .forward (List.prefix_refl _) ?_ ?_ ?_ rfl
    · show _ <+: s.tried ++ mods rest
      rw [h1]
      exact List.prefix_refl _
    · show _ <+: s.tried ++ mods rest ++ mods s.info
      rw [h1]
      exact List.prefix_refl _
    · show _ = s.tried ++ mods rest ++ mods s.info ++ mods s.parsed
      rw [h1]

/-- The paths have got past a stage, and the callback is set since. -/
structure Got {c : Cfg} (p : Sh → List Str) (w : List Str) (s : Conf (prog c)) : Prop where
  k : K s
  got : w <+: p s.sh

/-- They are at most at the first `r` events of the queue. -/
structure Read {c : Cfg} (w : List Str) (r : Nat) (s : Conf (prog c)) : Prop where
  k : K s
  got : ∃ q1 q2, s.sh.queue = q1 ++ q2 ∧ q1.length ≤ r ∧ w <+: way c s.sh q1

/-- `K` holds until the callback is unset. -/
theorem k_step {c : Cfg} (hc : c.callback = .plain) {s s' : Conf (prog c)} {l : Label Op} (hA : All s) (hk : K s)
    (hs : (prog c).Stepped s l s') : (K s' ∧ Grow c s.sh s'.sh) ∨ s'.sh.set = false := by
  rcases Prog.stepped_sh hs with e | ⟨i, x, y, b, -, hx, hr⟩
  · unfold K
    rw [e]
    exact Or.inl ⟨hk, .same rfl rfl rfl rfl ⟨[], by rw [List.append_nil]⟩⟩
  · have hr := run_ran hc (i := i) (x := x) hr
    have hl := hA.inv.loc i x hx
    have hg := ran_grow hr hl.efact hl.wfact hl.cfact hk.2
    have he := hl.efact
    have hkk : (s'.sh.set = true ∧ s'.sh.present = true) ∨ s'.sh.set = false := by
      clear hg
      unfold K at hk
      generalize s'.sh = t at hr
      cases hker : x.kernel with
      | true =>
        have h := (ran_kernel hr hker).1
        rw [h.set, h.present]
        exact Or.inl hk
      | false =>
        cases hr <;> first
          | (cases hker; done)
          | exact Or.inl hk
          | exact Or.inr rfl
          | exact Or.inl ⟨rfl, hk.2⟩
          | exact Or.inl ⟨hk.1, rfl⟩
          | (rename_i t _; cases t <;> exact Or.inl hk)
          | (rename_i t; cases t <;> exact Or.inl hk)
          | exact absurd (he.1.symm.trans hk.1) nofun
    rcases hkk with h | h
    · exact Or.inl ⟨h, hg⟩
    · exact Or.inr h

theorem read_step {c : Cfg} (hc : c.callback = .plain) {w : List Str} {r : Nat} {s s' : Conf (prog c)} {l : Label Op}
    (hA : All s) (h : Read w r s) (hs : (prog c).Stepped s l s') : Read w r s' ∨ s'.sh.set = false := by
  rcases k_step hc hA h.k hs with ⟨hk, hg⟩ | h'
  · obtain ⟨q1, q2, h1, h2, h3⟩ := h.got
    obtain ⟨q1', q2', h4, h5, h6⟩ := hg.queue q1 q2 h1
    exact Or.inl ⟨hk, q1', q2', h4, Nat.le_trans h5 h2, h3.trans h6⟩
  · exact Or.inr h'

/-- The stages. -/
def toInfo (s : Sh) : List Str := s.tried ++ mods s.batch ++ mods s.info
def toParsed (s : Sh) : List Str := s.tried ++ mods s.batch ++ mods s.info ++ mods s.parsed
def toBatch (s : Sh) : List Str := s.tried ++ mods s.batch

theorem got_step {c : Cfg} (hc : c.callback = .plain) {p : Sh → List Str}
    (hp : ∀ s s', Grow c s s' → p s <+: p s') {w : List Str} {s s' : Conf (prog c)} {l : Label Op}
    (hA : All s) (h : Got p w s) (hs : (prog c).Stepped s l s') : Got p w s' ∨ s'.sh.set = false := by
  rcases k_step hc hA h.k hs with ⟨hk, hg⟩ | h'
  · exact Or.inl ⟨hk, h.got.trans (hp _ _ hg)⟩
  · exact Or.inr h'

/-- The thread is neither outside calls nor asleep. -/
def PC.active : PC → Bool
  | .idle | .asleep => false
  | _ => true

theorem active {c : Cfg} {x : PC} (h : x.active = true) : (prog c).Active x := by
  refine ⟨?_, ?_, rfl⟩
  · intro op
    cases x <;> first | rfl | cases h
  · cases x <;> first | rfl | cases h

/-- The places of thread 1 while it raises events. -/
def PC.busy : PC → Bool
  | .cNext | .evLock true | .evTest true | .evCall true | .evRel true => true
  | _ => false

section
variable {c : Cfg} (hc : c.callback = .plain) {path : Bool} {n : Nat} (e : (prog c).system.Execution) (hf : e.Fair)
  (h0 : e.at_ 0 = init c path n)
include hc h0

theorem all (m : Nat) : All (e.at_ m) := by
  have hR : (prog c).system.Reachable (init c path n) (e.at_ m) := e.reachable (by rw [h0]; exact .init) m
  exact ⟨inv hc hR, sleep hc hR, owned hc hR, two hR⟩

include hf

/-- A step that nothing can block. -/
theorem moves (i : Nat) (x : PC) (hact : x.active = true) (Q : Conf (prog c) → Prop)
    (hable : ∀ s : Sh, (run c i s x).isSome)
    (hdone : ∀ (s : Conf (prog c)) (sh : Sh) (y : PC) (b : Bool), All s → s.pcs[i]? = some x → Ran c i s.sh x sh y b →
      ∀ s' : Conf (prog c), s'.sh = sh → s'.pcs[i]? = some y → Q s') :
    e.LeadsTo (fun s => s.pcs[i]? = some x) Q := by
  refine Prog.free_step e hf All (all hc e h0) i x (active hact) Q (fun s _ _ => hable s.sh) ?_
  intro s s' hi hi' hx hs
  obtain ⟨sh, y, b, h1, h2, h3⟩ := Prog.stepped_run hs hx
  exact hdone s sh y b hi hx (run_ran hc h1) s' h2 h3

/-- A step that needs a mutex. -/
theorem takes (free : Sh → Prop) (hfree : e.LeadsTo (fun _ => True) (fun s => free s.sh))
    (i : Nat) (x : PC) (hact : x.active = true) (Q : Conf (prog c) → Prop)
    (hable : ∀ s : Sh, free s → (run c i s x).isSome)
    (hdone : ∀ (s : Conf (prog c)) (sh : Sh) (y : PC) (b : Bool), All s → s.pcs[i]? = some x → Ran c i s.sh x sh y b →
      ∀ s' : Conf (prog c), s'.sh = sh → s'.pcs[i]? = some y → Q s') :
    e.LeadsTo (fun s => s.pcs[i]? = some x) Q := by
  refine Prog.acquire e hf All (all hc e h0) i x (active hact) (fun _ => True) free Q (fun _ _ _ => trivial)
    (fun m _ => hfree m trivial) (fun s _ _ h => hable s.sh h) ?_
  intro s s' hi hi' hx hs
  obtain ⟨sh, y, b, h1, h2, h3⟩ := Prog.stepped_run hs hx
  exact hdone s sh y b hi hx (run_ran hc h1) s' h2 h3

/-- From one place to the next. -/
theorem next (i : Nat) (x : PC) (hact : x.active = true) (Q : Conf (prog c) → Prop) (P : PC → Prop)
    (hable : ∀ s : Sh, (run c i s x).isSome)
    (hy : ∀ (s : Conf (prog c)) (sh : Sh) (y : PC) (b : Bool), All s → s.pcs[i]? = some x → Ran c i s.sh x sh y b → P y)
    (hP : ∀ y, P y → e.LeadsTo (fun s => s.pcs[i]? = some y) Q) :
    e.LeadsTo (fun s => s.pcs[i]? = some x) Q := by
  have h1 : e.LeadsTo (fun s => s.pcs[i]? = some x) (fun s => ∃ y, s.pcs[i]? = some y ∧ P y) :=
    moves hc e hf h0 i x hact _ hable fun s sh y b h1 h2 hr s' _ h3 => ⟨y, h3, hy s sh y b h1 h2 hr⟩
  exact h1.trans fun m ⟨y, hy, hc⟩ => hP y hc m hy

/-- The same for a step that needs a mutex. -/
theorem next_takes (free : Sh → Prop) (hfree : e.LeadsTo (fun _ => True) (fun s => free s.sh))
    (i : Nat) (x : PC) (hact : x.active = true) (Q : Conf (prog c) → Prop) (P : PC → Prop)
    (hable : ∀ s : Sh, free s → (run c i s x).isSome)
    (hy : ∀ (s : Conf (prog c)) (sh : Sh) (y : PC) (b : Bool), All s → s.pcs[i]? = some x → Ran c i s.sh x sh y b → P y)
    (hP : ∀ y, P y → e.LeadsTo (fun s => s.pcs[i]? = some y) Q) :
    e.LeadsTo (fun s => s.pcs[i]? = some x) Q := by
  have h1 : e.LeadsTo (fun s => s.pcs[i]? = some x) (fun s => ∃ y, s.pcs[i]? = some y ∧ P y) :=
    takes hc e hf h0 free hfree i x hact _ hable fun s sh y b h1 h2 hr s' _ h3 => ⟨y, h3, hy s sh y b h1 h2 hr⟩
  exact h1.trans fun m ⟨y, hy, hc⟩ => hP y hc m hy

/-- `internal_callback_mutex_` is released again and again. -/
theorem internal_frees : e.LeadsTo (fun _ => True) (fun s => s.sh.internal = none) := by
  have last : ∀ (i : Nat) (x : PC), (∃ was, x = .setRel was) ∨ x = .unsetRel ∨ (∃ t, x = .evRel t) →
      e.LeadsTo (fun s => s.pcs[i]? = some x) (fun s => s.sh.internal = none) := by
    intro i x hx
    refine moves hc e hf h0 i x (by rcases hx with ⟨_, rfl⟩ | rfl | ⟨_, rfl⟩ <;> rfl) _
      (fun s => by rcases hx with ⟨_, rfl⟩ | rfl | ⟨_, rfl⟩ <;> rfl) ?_
    intro s sh y b _ _ hr s' h2 _
    rw [h2]
    rcases hx with ⟨_, rfl⟩ | rfl | ⟨_, rfl⟩ <;> cases hr <;> rfl
  have flag := fun i => next hc e hf h0 i .setFlag rfl _ (fun y => ∃ was, y = .setRel was) (fun _ => rfl)
    (fun _ _ _ _ _ _ hr => by cases hr; exact ⟨_, rfl⟩) (fun y hy => last i y (Or.inl hy))
  have uflag := fun i => next hc e hf h0 i .unsetFlag rfl _ (fun y => y = .unsetRel) (fun _ => rfl)
    (fun _ _ _ _ _ _ hr => by cases hr; rfl) (fun y hy => last i y (Or.inr (Or.inl hy)))
  have call := fun i t => next hc e hf h0 i (.evCall t) rfl _ (fun y => ∃ t, y = .evRel t)
    (fun _ => by simp only [run, hc]; rfl)
    (fun _ _ _ _ _ _ hr => by cases hr; exact ⟨_, rfl⟩) (fun y hy => last i y (Or.inr (Or.inr hy)))
  have test := fun i t => next hc e hf h0 i (.evTest t) rfl _ (fun y => y = .evCall t ∨ y = .evRel t)
    (fun s => by simp only [run]; split <;> rfl) (fun _ _ _ _ _ _ hr => by cases hr <;> simp)
    (fun y hy => by rcases hy with rfl | rfl; exact call i t; exact last i _ (Or.inr (Or.inr ⟨t, rfl⟩)))
  intro m _
  cases hs : (e.at_ m).sh.internal with
  | none => exact ⟨m, Nat.le_refl m, hs⟩
  | some j =>
    have hA := all hc e h0 m
    have hx : (e.at_ m).pcs[j]? = some _ := List.getElem?_eq_getElem (hA.owned.2.1 j hs)
    have hh := (hA.inv.loc j _ hx).internal.2 hs
    generalize (e.at_ m).pcs[j]'(hA.owned.2.1 j hs) = x at hx hh
    cases x <;> first
      | (cases hh; done)
      | exact flag j m hx
      | exact last j _ (Or.inl ⟨_, rfl⟩) m hx
      | exact uflag j m hx
      | exact last j _ (Or.inr (Or.inl rfl)) m hx
      | exact test j _ m hx
      | exact call j _ m hx
      | exact last j _ (Or.inr (Or.inr ⟨_, rfl⟩)) m hx

/-- `_callback_mutex` is released again and again. -/
theorem cbm_frees : e.LeadsTo (fun _ => True) (fun s => s.sh.cbm = none) := by
  have last : ∀ (i : Nat) (x : PC), x = .cSleep ∨ x = .cSwap →
      e.LeadsTo (fun s => s.pcs[i]? = some x) (fun s => s.sh.cbm = none) := by
    intro i x hx
    refine moves hc e hf h0 i x (by rcases hx with rfl | rfl <;> rfl) _
      (fun s => by rcases hx with rfl | rfl <;> rfl) ?_
    intro s sh y b _ _ hr s' h2 _
    rw [h2]
    rcases hx with rfl | rfl <;> cases hr <;> rfl
  have pred := fun i => next hc e hf h0 i .cPred rfl _ (fun y => y = .cSleep ∨ y = .cSwap) (fun _ => rfl)
    (fun _ _ _ _ _ _ hr => by cases hr <;> simp) (fun y hy => last i y hy)
  have if_ := fun i => next hc e hf h0 i .cIf rfl _ (fun y => y = .cPred ∨ y = .cSwap) (fun _ => rfl)
    (fun _ _ _ _ _ _ hr => by cases hr <;> simp)
    (fun y hy => by rcases hy with rfl | rfl; exact pred i; exact last i _ (Or.inr rfl))
  intro m _
  cases hs : (e.at_ m).sh.cbm with
  | none => exact ⟨m, Nat.le_refl m, hs⟩
  | some j =>
    have hA := all hc e h0 m
    have hx : (e.at_ m).pcs[j]? = some _ := List.getElem?_eq_getElem (hA.owned.2.2.1 j hs)
    have hh := (hA.inv.loc j _ hx).cbm.2 hs
    generalize (e.at_ m).pcs[j]'(hA.owned.2.2.1 j hs) = x at hx hh
    cases x <;> first
      | (cases hh; done)
      | exact if_ j m hx
      | exact pred j m hx
      | exact last j _ (Or.inl rfl) m hx
      | exact last j _ (Or.inr rfl) m hx

/-- Thread 1 finishes its list. -/
theorem busy_ends (x : PC) (hx : x.busy = true) :
    e.LeadsTo (fun s => s.pcs[1]? = some x) (fun s => s.pcs[1]? = some .cLoop) := by
  have key : ∀ r x, x.busy = true →
      e.LeadsTo (fun s => s.pcs[1]? = some x ∧ s.sh.batch.length = r) (fun s => s.pcs[1]? = some .cLoop) := by
    intro r
    induction r using Nat.strongRecOn with
    | _ r ih =>
    have keep : ∀ (x : PC), x.busy = true → ∀ (s : Conf (prog c)) (l : Label Op) (s' : Conf (prog c)), All s → All s' →
        s.pcs[1]? = some x → s.sh.batch.length = r → (prog c).Stepped s l s' → l ≠ .run 1 →
        s'.sh.batch.length = r := by
      intro x hx s l s' hA _ h1 hb hs hl
      rcases Prog.stepped_sh hs with e | ⟨i, z, y, b, el, hz, hr⟩
      · rw [e]; exact hb
      · have hi : i ≠ 1 := fun h => hl (by rw [el, h])
        have hr := run_ran hc (i := i) (x := z) hr
        have hlz := hA.inv.loc i z hz
        have hlx := (hA.inv.loc 1 x h1).cfact
        have hzc : z.isC = false := by
          cases h : z.isC with
          | false => rfl
          | true => exact absurd (hlz.isC.1 h) hi
        have hct : s.sh.ct = .running := by
          cases x <;> first | (cases hx; done) | exact hlx.1 | (rename_i t; cases t <;> first | (cases hx; done) | exact hlx.1)
        have he := hlz.efact
        generalize s'.sh = t at hr
        cases hk : z.kernel with
        | true => rw [(ran_kernel hr hk).1.batch]; exact hb
        | false =>
          cases hr <;> first
            | (cases hk; done)
            | (cases hzc; done)
            | exact hb
            | (rename_i t _; cases t <;> first | (cases hzc; done) | exact hb)
            | (rename_i t; cases t <;> first | (cases hzc; done) | exact hb)
            | exact absurd (he.2.2.2.2.symm.trans hct) nofun
    have step : ∀ (x : PC), x.busy = true → x.active = true → ∀ (Q : Conf (prog c) → Prop),
        (∀ s : Sh, (run c 1 s x).isSome) →
        (∀ (s : Conf (prog c)) (sh : Sh) (y : PC) (b : Bool), All s → s.pcs[1]? = some x → Ran c 1 s.sh x sh y b →
          s.sh.batch.length = r → ∀ s' : Conf (prog c), s'.sh = sh → s'.pcs[1]? = some y → Q s') →
        e.LeadsTo (fun s => s.pcs[1]? = some x ∧ s.sh.batch.length = r) Q := by
      intro x hx ha Q hable hdone
      refine Prog.runs' e hf All (all hc e h0) 1 x (active ha) (fun s => s.sh.batch.length = r) Q ?_
        (fun s _ _ _ => hable s.sh) ?_
      · intro s l s' h1 h2 h3 h4 h5 h6
        exact Or.inl (keep x hx s l s' h1 h2 h3 h4 h5 h6)
      · intro s s' h1 h2 h3 h4 h5
        obtain ⟨sh, y, b, g1, g2, g3⟩ := Prog.stepped_run h5 h3
        exact hdone s sh y b h1 h3 (run_ran hc g1) h4 s' g2 g3
    have shorter : ∀ (x : PC), x.busy = true →
        e.LeadsTo (fun s => s.pcs[1]? = some x ∧ s.sh.batch.length < r) (fun s => s.pcs[1]? = some .cLoop) :=
      fun x hx m hm => ih _ hm.2 x hx m ⟨hm.1, rfl⟩
    have less : ∀ (s : Sh), (∃ p rest, s.batch = (p, Change.modified) :: rest) → s.batch.length = r →
        (s.next true).batch.length < r := by
      intro s ⟨p, rest, hb⟩ hr
      rw [← hr]
      simp [Sh.next, hb]
    have call : e.LeadsTo (fun s => s.pcs[1]? = some (.evCall true) ∧ s.sh.batch.length = r)
        (fun s => s.pcs[1]? = some .cLoop) := by
      refine (step (.evCall true) rfl rfl (fun s => s.pcs[1]? = some (.evRel true) ∧ s.sh.batch.length < r)
        (fun _ => by simp only [run, hc]; rfl) ?_).trans (shorter _ rfl)
      intro s sh y b hA hx hr hb s' h1 h2
      have hl := (hA.inv.loc 1 _ hx).cfact
      cases hr
      rw [h1]
      exact ⟨h2, less _ hl.2.2 hb⟩
    have test : e.LeadsTo (fun s => s.pcs[1]? = some (.evTest true) ∧ s.sh.batch.length = r)
        (fun s => s.pcs[1]? = some .cLoop) := by
      refine (step (.evTest true) rfl rfl (fun s => (s.pcs[1]? = some (.evCall true) ∧ s.sh.batch.length = r) ∨
        (s.pcs[1]? = some (.evRel true) ∧ s.sh.batch.length < r))
        (fun s => by simp only [run]; split <;> rfl) ?_).trans (call.or (shorter _ rfl))
      intro s sh y b hA hx hr hb s' h1 h2
      have hl := (hA.inv.loc 1 _ hx).cfact
      rw [h1]
      cases hr with
      | evYes => exact Or.inl ⟨h2, hb⟩
      | evNo => exact Or.inr ⟨h2, less _ hl.2.2 hb⟩
    have lock : e.LeadsTo (fun s => s.pcs[1]? = some (.evLock true) ∧ s.sh.batch.length = r)
        (fun s => s.pcs[1]? = some .cLoop) := by
      refine (acquires e hf All (all hc e h0) 1 (.evLock true) (active rfl) (fun s => s.sh.batch.length = r)
        (fun s => s.internal = none) (fun s => s.pcs[1]? = some (.evTest true) ∧ s.sh.batch.length = r) ?_
        (internal_frees hc e hf h0) ?_ ?_).trans test
      · intro s l s' h1 h2 h3 h4 h5 h6
        exact Or.inl (keep _ rfl s l s' h1 h2 h3 h4 h5 h6)
      · intro s _ _ _ h
        change s.sh.internal = none at h
        simp [run, h]
      · intro s s' h1 h2 h3 h4 h5
        obtain ⟨sh, y, b, g1, g2, g3⟩ := Prog.stepped_run h5 h3
        have hr := run_ran hc (i := 1) (x := .evLock true) g1
        cases hr
        rw [g2]
        exact ⟨g3, h4⟩
    have nxt : e.LeadsTo (fun s => s.pcs[1]? = some .cNext ∧ s.sh.batch.length = r)
        (fun s => s.pcs[1]? = some .cLoop) := by
      refine (step .cNext rfl rfl (fun s => s.pcs[1]? = some .cLoop ∨
        ((s.pcs[1]? = some (.evLock true) ∧ s.sh.batch.length = r) ∨ (s.pcs[1]? = some .cNext ∧ s.sh.batch.length < r)))
        (fun s => by simp only [run]; split <;> rfl) ?_).trans (.or (.refl e fun _ h => h) (lock.or (shorter _ rfl)))
      intro s sh y b hA hx hr hb s' h1 h2
      rw [h1]
      cases hr with
      | cNextEnd => exact Or.inl h2
      | cNextMod => exact Or.inr (Or.inl ⟨h2, hb⟩)
      | cNextSkip p k rest h =>
        refine Or.inr (Or.inr ⟨h2, ?_⟩)
        rw [← hb, h]
        exact Nat.lt_succ_self _
    have rel : e.LeadsTo (fun s => s.pcs[1]? = some (.evRel true) ∧ s.sh.batch.length = r)
        (fun s => s.pcs[1]? = some .cLoop) := by
      refine (step (.evRel true) rfl rfl (fun s => s.pcs[1]? = some .cNext ∧ s.sh.batch.length = r)
        (fun _ => rfl) ?_).trans nxt
      intro s sh y b hA hx hr hb s' h1 h2
      rw [h1]
      cases hr
      exact ⟨h2, hb⟩
    intro x hx
    cases x <;> first
      | (cases hx; done)
      | exact nxt
      | skip
    all_goals
      rename_i t
      cases t
      · cases hx
    · exact lock
    · exact test
    · exact call
    · exact rel
  intro m hm
  exact key _ x hx m ⟨hm, rfl⟩

omit hf in
/-- What is stable until the callback is unset can be added. -/
theorem along {A B : Conf (prog c) → Prop} (St : Conf (prog c) → Prop)
    (hst : ∀ (s : Conf (prog c)) l s', All s → St s → (prog c).Stepped s l s' → St s' ∨ s'.sh.set = false)
    (h : e.LeadsTo A B) : e.LeadsTo (fun s => A s ∧ St s) (fun s => (B s ∧ St s) ∨ s.sh.set = false) :=
  keeps e All St (fun s => s.sh.set = false) (all hc e h0)
    (fun s l s' h1 _ h3 h4 => hst s l s' h1 h3 (Prog.step_stepped h4)) h

/-- A step that nothing can block while something stable holds. -/
theorem stepS (St : Conf (prog c) → Prop)
    (hst : ∀ (s : Conf (prog c)) l s', All s → St s → (prog c).Stepped s l s' → St s' ∨ s'.sh.set = false)
    (i : Nat) (x : PC) (hact : x.active = true) (Q : Conf (prog c) → Prop)
    (hable : ∀ s : Conf (prog c), All s → s.pcs[i]? = some x → St s → (run c i s.sh x).isSome)
    (hdone : ∀ (s s' : Conf (prog c)) (sh : Sh) (y : PC) (b : Bool), All s → All s' → s.pcs[i]? = some x → St s → St s' →
      Ran c i s.sh x sh y b → s'.sh = sh → s'.pcs[i]? = some y → Q s') :
    e.LeadsTo (fun s => s.pcs[i]? = some x ∧ St s) (fun s => Q s ∨ s.sh.set = false) := by
  refine Prog.runs' e hf All (all hc e h0) i x (active hact) St (fun s => Q s ∨ s.sh.set = false) ?_
    (fun s h1 h2 h3 => hable s h1 h2 h3) ?_
  · intro s l s' h1 h2 h3 h4 h5 h6
    rcases hst s l s' h1 h4 h5 with h | h
    · exact Or.inl h
    · exact Or.inr (Or.inr h)
  · intro s s' h1 h2 h3 h4 h5
    obtain ⟨sh, y, b, g1, g2, g3⟩ := Prog.stepped_run h5 h3
    rcases hst s _ s' h1 h4 h5 with h | h
    · exact Or.inl (hdone s s' sh y b h1 h2 h3 h4 h (run_ran hc g1) g2 g3)
    · exact Or.inr h

/-- The same for a step that needs a mutex. -/
theorem takesS (St : Conf (prog c) → Prop)
    (hst : ∀ (s : Conf (prog c)) l s', All s → St s → (prog c).Stepped s l s' → St s' ∨ s'.sh.set = false)
    (free : Sh → Prop) (hfree : e.LeadsTo (fun _ => True) (fun s => free s.sh))
    (i : Nat) (x : PC) (hact : x.active = true) (Q : Conf (prog c) → Prop)
    (hable : ∀ s : Conf (prog c), All s → s.pcs[i]? = some x → St s → free s.sh → (run c i s.sh x).isSome)
    (hdone : ∀ (s s' : Conf (prog c)) (sh : Sh) (y : PC) (b : Bool), All s → All s' → s.pcs[i]? = some x → St s → St s' →
      Ran c i s.sh x sh y b → s'.sh = sh → s'.pcs[i]? = some y → Q s') :
    e.LeadsTo (fun s => s.pcs[i]? = some x ∧ St s) (fun s => Q s ∨ s.sh.set = false) := by
  refine acquires e hf All (all hc e h0) i x (active hact) St free (fun s => Q s ∨ s.sh.set = false) ?_ hfree
    (fun s h1 h2 h3 h4 => hable s h1 h2 h3 h4) ?_
  · intro s l s' h1 h2 h3 h4 h5 h6
    rcases hst s l s' h1 h4 h5 with h | h
    · exact Or.inl h
    · exact Or.inr (Or.inr h)
  · intro s s' h1 h2 h3 h4 h5
    obtain ⟨sh, y, b, g1, g2, g3⟩ := Prog.stepped_run h5 h3
    rcases hst s _ s' h1 h4 h5 with h | h
    · exact Or.inl (hdone s s' sh y b h1 h2 h3 h4 h (run_ran hc g1) g2 g3)
    · exact Or.inr h

/-- Thread 0 comes back to reading. -/
theorem w_reads (St : Conf (prog c) → Prop)
    (hst : ∀ (s : Conf (prog c)) l s', All s → St s → (prog c).Stepped s l s' → St s' ∨ s'.sh.set = false)
    (hk : ∀ s, St s → K s) : e.LeadsTo St (fun s => (s.pcs[0]? = some .wRead ∧ St s) ∨ s.sh.set = false) := by
  have stop : e.LeadsTo (fun s => s.sh.set = false)
      (fun s => (s.pcs[0]? = some .wRead ∧ St s) ∨ s.sh.set = false) := .refl e fun _ h => Or.inr h
  have loop : e.LeadsTo (fun s => s.pcs[0]? = some .wLoop ∧ St s)
      (fun s => (s.pcs[0]? = some .wRead ∧ St s) ∨ s.sh.set = false) := by
    refine stepS hc e hf h0 St hst 0 .wLoop rfl _ (fun _ _ _ _ => rfl) ?_
    intro s s' sh y b h1 h2 h3 h4 h5 hr h6 h7
    cases hr with
    | wStop hd => exact absurd ((h1.live (hk s h4)).2.1.symm.trans hd) nofun
    | wGo => exact ⟨h7, h5⟩
  have notify : e.LeadsTo (fun s => s.pcs[0]? = some .wNotify ∧ St s)
      (fun s => (s.pcs[0]? = some .wRead ∧ St s) ∨ s.sh.set = false) := by
    refine (stepS hc e hf h0 St hst 0 .wNotify rfl (fun s => s.pcs[0]? = some .wLoop ∧ St s)
      (fun _ _ _ _ => rfl) ?_).trans (loop.or stop)
    intro s s' sh y b h1 h2 h3 h4 h5 hr h6 h7
    cases hr
    exact ⟨h7, h5⟩
  have push : e.LeadsTo (fun s => s.pcs[0]? = some .wPush ∧ St s)
      (fun s => (s.pcs[0]? = some .wRead ∧ St s) ∨ s.sh.set = false) := by
    refine (takesS hc e hf h0 St hst (fun s => s.cbm = none) (cbm_frees hc e hf h0) 0 .wPush rfl
      (fun s => s.pcs[0]? = some .wNotify ∧ St s) ?_ ?_).trans (notify.or stop)
    · intro s _ _ _ h
      change s.sh.cbm = none at h
      simp [run, h]
    intro s s' sh y b h1 h2 h3 h4 h5 hr h6 h7
    cases hr
    exact ⟨h7, h5⟩
  have start_ : e.LeadsTo (fun s => s.pcs[0]? = some .wRun ∧ St s)
      (fun s => (s.pcs[0]? = some .wRead ∧ St s) ∨ s.sh.set = false) := by
    refine (stepS hc e hf h0 St hst 0 .wRun rfl (fun s => s.pcs[0]? = some .wLoop ∧ St s)
      (fun _ _ _ _ => rfl) ?_).trans (loop.or stop)
    intro s s' sh y b h1 h2 h3 h4 h5 hr h6 h7
    cases hr
    exact ⟨h7, h5⟩
  have off : e.LeadsTo (fun s => s.pcs[0]? = some .wOff ∧ St s)
      (fun s => (s.pcs[0]? = some .wRead ∧ St s) ∨ s.sh.set = false) := by
    refine (stepS hc e hf h0 St hst 0 .wOff rfl (fun s => s.pcs[0]? = some .wRun ∧ St s) ?_ ?_).trans (start_.or stop)
    · intro s h1 h2 h3
      have hw := (h1.inv.loc 0 _ h2).wfact
      rcases (h1.live (hk s h3)).2.2.1 with h | h
      · simp [run, h]
      · exact absurd h hw.1
    intro s s' sh y b h1 h2 h3 h4 h5 hr h6 h7
    cases hr
    exact ⟨h7, h5⟩
  intro m hm
  have hA := all hc e h0 m
  have hlt : 0 < (e.at_ m).pcs.length := Nat.lt_of_lt_of_le (by decide) hA.two
  have hx : (e.at_ m).pcs[0]? = some _ := List.getElem?_eq_getElem hlt
  have hl := hA.inv.loc 0 _ hx
  have hw := hl.isW.2 rfl
  have hf := hl.wfact
  generalize (e.at_ m).pcs[0]'hlt = x at hx hw hf
  cases x <;> first
    | (cases hw; done)
    | exact off m ⟨hx, hm⟩
    | exact start_ m ⟨hx, hm⟩
    | exact loop m ⟨hx, hm⟩
    | exact ⟨m, Nat.le_refl m, Or.inl ⟨hx, hm⟩⟩
    | exact push m ⟨hx, hm⟩
    | exact notify m ⟨hx, hm⟩
    | exact absurd ((hA.live (hk _ hm)).2.1.symm.trans hf.2.2.1) nofun

omit hc h0 hf in
/-- Nothing is left to be read. -/
theorem read_zero {w : List Str} {s : Conf (prog c)} (h : Read w 0 s) : Got toParsed w s := by
  obtain ⟨q1, q2, -, h2, h3⟩ := h.got
  cases q1 with
  | cons => exact absurd h2 (Nat.not_succ_le_zero _)
  | nil =>
    refine ⟨h.k, ?_⟩
    simpa [way, toParsed, notes, mods] using h3

omit hc h0 hf in
theorem read_more {w : List Str} {r : Nat} {s : Conf (prog c)} (h : Read w 0 s) : Read w r s := by
  obtain ⟨q1, q2, h1, h2, h3⟩ := h.got
  exact ⟨h.k, q1, q2, h1, Nat.le_trans h2 (Nat.zero_le r), h3⟩

/-- All events are read. -/
theorem to_parsed (w : List Str) (r : Nat) :
    e.LeadsTo (Read w r) (fun s => Got toParsed w s ∨ s.sh.set = false) := by
  classical
  induction r with
  | zero => exact .refl e fun s h => Or.inl (read_zero h)
  | succ r ih =>
    have stop : e.LeadsTo (fun s => s.sh.set = false) (fun s => Read w r s ∨ s.sh.set = false) :=
      .refl e fun _ h => Or.inr h
    have one : e.LeadsTo (fun s => s.pcs[0]? = some .wRead ∧ Read w (r + 1) s ∧ ¬ Read w r s)
        (fun s => Read w r s ∨ s.sh.set = false) := by
      refine Prog.runs' e hf All (all hc e h0) 0 .wRead (active rfl)
        (fun s => Read w (r + 1) s ∧ ¬ Read w r s) _ ?_ ?_ ?_
      · intro s l s' h1 h2 h3 h4 h5 h6
        by_cases h : Read w r s'
        · exact Or.inr (Or.inl h)
        · rcases read_step hc h1 h4.1 h5 with h' | h'
          · exact Or.inl ⟨h', h⟩
          · exact Or.inr (Or.inr h')
      · intro s _ _ ⟨h, hn⟩
        have : s.sh.queue ≠ [] := by
          intro hq
          obtain ⟨q1, q2, g1, g2, g3⟩ := h.got
          rw [hq] at g1
          have g := List.append_eq_nil_iff.1 g1.symm
          exact hn (read_more ⟨h.k, q1, q2, by rw [hq]; exact g1, by rw [g.1]; exact Nat.zero_le _, g3⟩)
        simp [run, this]
      · intro s s' h1 h2 h3 ⟨h4, hn⟩ h5
        rcases k_step hc h1 h4.k h5 with ⟨hk, -⟩ | h
        · refine Or.inl ⟨hk, ?_⟩
          obtain ⟨sh, y, b, g1, g2, g3⟩ := Prog.stepped_run h5 h3
          have hr := run_ran hc (i := 0) (x := .wRead) g1
          have hp := (h1.inv.loc 0 _ h3).wfact.2.1
          obtain ⟨q1, q2, e1, e2, e3⟩ := h4.got
          cases hr
          rw [g2]
          have hle : 1 ≤ max 1 (c.fit s.sh.queue) := Nat.le_max_left _ _
          generalize max 1 (c.fit s.sh.queue) = k at hle
          refine ⟨q1.drop k, q2.drop (k - q1.length), ?_, ?_, ?_⟩
          · change s.sh.queue.drop k = _
            rw [e1, List.drop_append]
          · rw [List.length_drop]
            omega
          · refine e3.trans ?_
            unfold way
            change _ <+: s.sh.tried ++ mods s.sh.batch ++ mods s.sh.info ++ mods (notes c.filter (s.sh.queue.take k)) ++
              mods (notes c.filter (q1.drop k))
            rw [hp, e1, List.take_append, notes_append, mods_append]
            have hs : mods (notes c.filter q1) = mods (notes c.filter (q1.take k)) ++ mods (notes c.filter (q1.drop k)) := by
              rw [← mods_append, ← notes_append, List.take_append_drop]
            rw [hs]
            by_cases hkl : k ≤ q1.length
            · rw [Nat.sub_eq_zero_of_le hkl]
              simp [mods, notes]
            · rw [List.drop_eq_nil_of_le (Nat.le_of_lt (Nat.lt_of_not_le hkl))]
              simp [mods, notes]
        · exact Or.inr h
    have first : e.LeadsTo (Read w (r + 1)) (fun s => Read w r s ∨ s.sh.set = false) := by
      refine (w_reads hc e hf h0 (Read w (r + 1)) (fun s l s' h1 h2 h3 => read_step hc h1 h2 h3)
        (fun s h => h.k)).trans (.or ?_ stop)
      intro m ⟨h1, h2⟩
      by_cases h : Read w r (e.at_ m)
      · exact ⟨m, Nat.le_refl m, Or.inl h⟩
      · exact one m ⟨h1, h2, h⟩
    exact first.trans (ih.or (.refl e fun _ h => Or.inr h))

omit hc h0 hf in
theorem grow_parsed (s s' : Sh) (h : Grow c s s') : toParsed s <+: toParsed s' := h.parsed

omit hc h0 hf in
theorem grow_info (s s' : Sh) (h : Grow c s s') : toInfo s <+: toInfo s' := h.info

omit hc h0 hf in
theorem grow_batch (s s' : Sh) (h : Grow c s s') : toBatch s <+: toBatch s' := h.batch

omit hc h0 hf in
theorem parsed_info {w : List Str} {s : Conf (prog c)} (h : Got toParsed w s) (hp : s.sh.parsed = []) :
    Got toInfo w s := by
  refine ⟨h.k, ?_⟩
  have := h.got
  simpa [toParsed, toInfo, hp, mods] using this

omit hc h0 hf in
theorem info_batch {w : List Str} {s : Conf (prog c)} (h : Got toInfo w s) (hp : s.sh.info = []) :
    Got toBatch w s := by
  refine ⟨h.k, ?_⟩
  have := h.got
  simpa [toInfo, toBatch, hp, mods] using this

omit hc h0 hf in
theorem batch_tried {w : List Str} {s : Conf (prog c)} (h : Got toBatch w s) (hp : s.sh.batch = []) :
    Got Sh.tried w s := by
  refine ⟨h.k, ?_⟩
  have := h.got
  simpa [toBatch, hp, mods] using this

/-- What thread 0 has read it passes on. -/
theorem to_info (w : List Str) : e.LeadsTo (Got toParsed w) (fun s => Got toInfo w s ∨ s.sh.set = false) := by
  have push := takesS hc e hf h0 (Got toParsed w) (fun s l s' h1 h2 h3 => got_step hc grow_parsed h1 h2 h3)
    (fun s => s.cbm = none) (cbm_frees hc e hf h0) 0 .wPush rfl (Got toInfo w)
    (fun s _ _ _ h => by change s.sh.cbm = none at h; simp [run, h])
    (fun s s' sh y b _ _ _ _ h5 hr h6 _ => by
      refine parsed_info h5 ?_
      cases hr
      rw [h6])
  intro m hm
  have hA := all hc e h0 m
  have hlt : 0 < (e.at_ m).pcs.length := Nat.lt_of_lt_of_le (by decide) hA.two
  have hx : (e.at_ m).pcs[0]? = some _ := List.getElem?_eq_getElem hlt
  have hl := hA.inv.loc 0 _ hx
  have hw := hl.isW.2 rfl
  have hf := hl.wfact
  generalize (e.at_ m).pcs[0]'hlt = x at hx hw hf
  cases x <;> first
    | (cases hw; done)
    | exact push m ⟨hx, hm⟩
    | exact ⟨m, Nat.le_refl m, Or.inl (parsed_info hm hf.2)⟩
    | exact ⟨m, Nat.le_refl m, Or.inl (parsed_info hm hf.2.1)⟩

omit hc h0 hf in
/-- A notification wakes thread 1. -/
theorem woke {s s' : Conf (prog c)} {i : Nat} {x y : PC} (h2 : All s') (h : (prog c).Stepped s (.run i) s')
    (hx : s.pcs[i]? = some x) (h1 : s.pcs[1]? = some .asleep) (hr : run c i s.sh x = some (s.sh, y, true) := by rfl) :
    s'.pcs[1]? = some .cAgain := by
  have hlt : 1 < s'.pcs.length := h2.two
  have hz : s'.pcs[1]? = some _ := List.getElem?_eq_getElem hlt
  have hi : (1 : Nat) ≠ i := by
    rintro rfl
    rw [h1] at hx
    cases hx
    cases hr
  obtain ⟨w, hw, e⟩ := Prog.stepped_notify h hx hr hi hz
  rw [h1] at hw
  cases hw
  rw [hz, e]
  rfl

/-- Thread 1 takes the list. -/
theorem to_batch (w : List Str) : e.LeadsTo (Got toInfo w) (fun s => Got toBatch w s ∨ s.sh.set = false) := by
  have hst : ∀ (s : Conf (prog c)) l s', All s → Got toInfo w s → (prog c).Stepped s l s' →
      Got toInfo w s' ∨ s'.sh.set = false := fun s l s' h1 h2 h3 => got_step hc grow_info h1 h2 h3
  have stop : e.LeadsTo (fun s => s.sh.set = false) (fun s => Got toBatch w s ∨ s.sh.set = false) :=
    .refl e fun _ h => Or.inr h
  have swap : e.LeadsTo (fun s => s.pcs[1]? = some .cSwap ∧ Got toInfo w s)
      (fun s => Got toBatch w s ∨ s.sh.set = false) := by
    refine stepS hc e hf h0 _ hst 1 .cSwap rfl _ (fun _ _ _ _ => rfl) ?_
    intro s s' sh y b h1 h2 h3 h4 h5 hr h6 h7
    refine info_batch h5 ?_
    cases hr
    rw [h6]
  have slp : e.LeadsTo (fun s => s.pcs[1]? = some .cSleep ∧ Got toInfo w s)
      (fun s => Got toBatch w s ∨ s.sh.set = false) := by
    intro m ⟨h1, h2⟩
    exact ⟨m, Nat.le_refl m, Or.inl (info_batch h2 (((all hc e h0 m).inv.loc 1 _ h1).nap rfl))⟩
  have pred : e.LeadsTo (fun s => s.pcs[1]? = some .cPred ∧ Got toInfo w s)
      (fun s => Got toBatch w s ∨ s.sh.set = false) := by
    refine (stepS hc e hf h0 _ hst 1 .cPred rfl (fun s => (s.pcs[1]? = some .cSwap ∧ Got toInfo w s) ∨
      (s.pcs[1]? = some .cSleep ∧ Got toInfo w s)) (fun _ _ _ _ => rfl) ?_).trans ((swap.or slp).or stop)
    intro s s' sh y b h1 h2 h3 h4 h5 hr h6 h7
    cases hr with
    | cPredYes => exact Or.inl ⟨h7, h5⟩
    | cPredNo => exact Or.inr ⟨h7, h5⟩
  have if_ : e.LeadsTo (fun s => s.pcs[1]? = some .cIf ∧ Got toInfo w s)
      (fun s => Got toBatch w s ∨ s.sh.set = false) := by
    refine (stepS hc e hf h0 _ hst 1 .cIf rfl (fun s => (s.pcs[1]? = some .cSwap ∧ Got toInfo w s) ∨
      (s.pcs[1]? = some .cPred ∧ Got toInfo w s)) (fun _ _ _ _ => rfl) ?_).trans ((swap.or pred).or stop)
    intro s s' sh y b h1 h2 h3 h4 h5 hr h6 h7
    cases hr with
    | cIfNo => exact Or.inl ⟨h7, h5⟩
    | cIfYes => exact Or.inr ⟨h7, h5⟩
  have lock : e.LeadsTo (fun s => s.pcs[1]? = some .cLock ∧ Got toInfo w s)
      (fun s => Got toBatch w s ∨ s.sh.set = false) := by
    refine (takesS hc e hf h0 _ hst (fun s => s.cbm = none) (cbm_frees hc e hf h0) 1 .cLock rfl
      (fun s => s.pcs[1]? = some .cIf ∧ Got toInfo w s)
      (fun s _ _ _ h => by change s.sh.cbm = none at h; simp [run, h]) ?_).trans (if_.or stop)
    intro s s' sh y b h1 h2 h3 h4 h5 hr h6 h7
    cases hr
    exact ⟨h7, h5⟩
  have again : e.LeadsTo (fun s => s.pcs[1]? = some .cAgain ∧ Got toInfo w s)
      (fun s => Got toBatch w s ∨ s.sh.set = false) := by
    refine (takesS hc e hf h0 _ hst (fun s => s.cbm = none) (cbm_frees hc e hf h0) 1 .cAgain rfl
      (fun s => s.pcs[1]? = some .cPred ∧ Got toInfo w s)
      (fun s _ _ _ h => by change s.sh.cbm = none at h; simp [run, h]) ?_).trans (pred.or stop)
    intro s s' sh y b h1 h2 h3 h4 h5 hr h6 h7
    cases hr
    exact ⟨h7, h5⟩
  have loop : e.LeadsTo (fun s => s.pcs[1]? = some .cLoop ∧ Got toInfo w s)
      (fun s => Got toBatch w s ∨ s.sh.set = false) := by
    refine (stepS hc e hf h0 _ hst 1 .cLoop rfl (fun s => s.pcs[1]? = some .cLock ∧ Got toInfo w s)
      (fun _ _ _ _ => rfl) ?_).trans (lock.or stop)
    intro s s' sh y b h1 h2 h3 h4 h5 hr h6 h7
    cases hr with
    | cStop hd => exact absurd ((h1.live h4.k).2.1.symm.trans hd) nofun
    | cGo => exact ⟨h7, h5⟩
  have off : e.LeadsTo (fun s => s.pcs[1]? = some .cOff ∧ Got toInfo w s)
      (fun s => Got toBatch w s ∨ s.sh.set = false) := by
    refine (stepS hc e hf h0 _ hst 1 .cOff rfl (fun s => s.pcs[1]? = some .cLoop ∧ Got toInfo w s) ?_ ?_).trans
      (loop.or stop)
    · intro s h1 h2 h3
      have hw := (h1.inv.loc 1 _ h2).cfact
      rcases (h1.live h3.k).2.2.2 with h | h
      · simp [run, h]
      · exact absurd h hw.1
    intro s s' sh y b h1 h2 h3 h4 h5 hr h6 h7
    cases hr
    exact ⟨h7, h5⟩
  have busy : ∀ x : PC, x.busy = true → e.LeadsTo (fun s => s.pcs[1]? = some x ∧ Got toInfo w s)
      (fun s => Got toBatch w s ∨ s.sh.set = false) := by
    intro x hx
    exact (along hc e h0 (Got toInfo w) hst (busy_ends hc e hf h0 x hx)).trans (loop.or stop)
  have wake : e.LeadsTo (fun s => s.pcs[0]? = some .wNotify ∧ s.pcs[1]? = some .asleep ∧ Got toInfo w s)
      (fun s => Got toBatch w s ∨ s.sh.set = false) := by
    have : e.LeadsTo (fun s => s.pcs[0]? = some .wNotify ∧ s.pcs[1]? = some .asleep ∧ Got toInfo w s)
        (fun s => (s.pcs[1]? = some .cAgain ∧ Got toInfo w s) ∨ s.sh.set = false) := by
      refine Prog.runs' e hf All (all hc e h0) 0 .wNotify (active rfl)
        (fun s => s.pcs[1]? = some .asleep ∧ Got toInfo w s) _ ?_ (fun _ _ _ _ => rfl) ?_
      · intro s l s' h1 h2 h3 ⟨h4, h5⟩ h6 h7
        rcases hst s l s' h1 h5 h6 with h | h
        · rcases Prog.frame_sleep h6 h4 (y := .cAgain) rfl (fun _ => rfl) (fun _ => rfl) with
            h' | h' | ⟨z, hz, -⟩
          · exact Or.inl ⟨h', h⟩
          · exact Or.inr (Or.inl ⟨h', h⟩)
          · cases hz
        · exact Or.inr (Or.inr h)
      · intro s s' h1 h2 h3 ⟨h4, h5⟩ h6
        rcases hst s _ s' h1 h5 h6 with h | h
        · refine Or.inl ⟨?_, h⟩
          exact woke h2 h6 h3 h4
        · exact Or.inr h
    exact this.trans (again.or stop)
  intro m hm
  have hA := all hc e h0 m
  have hlt : 1 < (e.at_ m).pcs.length := hA.two
  have hx : (e.at_ m).pcs[1]? = some _ := List.getElem?_eq_getElem hlt
  have hl := hA.inv.loc 1 _ hx
  have hw := hl.isC.2 rfl
  have hf := hl.cfact
  generalize (e.at_ m).pcs[1]'hlt = x at hx hw hf
  have asleep_ : x = .asleep → ∃ k, m ≤ k ∧ (Got toBatch w (e.at_ k) ∨ (e.at_ k).sh.set = false) := by
    intro hs
    subst hs
    rcases hA.sleep 1 _ hx rfl with h | ⟨k, z, h, rfl⟩
    · exact ⟨m, Nat.le_refl m, Or.inl (info_batch hm h)⟩
    · have := (hA.inv.loc k _ h).isW.1 rfl
      subst this
      exact wake m ⟨h, hx, hm⟩
  cases x <;> first
    | (cases hw; done)
    | exact off m ⟨hx, hm⟩
    | exact loop m ⟨hx, hm⟩
    | exact lock m ⟨hx, hm⟩
    | exact if_ m ⟨hx, hm⟩
    | exact pred m ⟨hx, hm⟩
    | exact slp m ⟨hx, hm⟩
    | exact asleep_ rfl
    | exact again m ⟨hx, hm⟩
    | exact swap m ⟨hx, hm⟩
    | exact busy .cNext rfl m ⟨hx, hm⟩
    | exact absurd ((hA.live hm.k).2.1.symm.trans hf.2.2.2) nofun
    | (rename_i t; cases t; cases hw; exact busy _ rfl m ⟨hx, hm⟩)

/-- Thread 1 raises the event for all of its list. -/
theorem to_tried (w : List Str) : e.LeadsTo (Got toBatch w) (fun s => Got Sh.tried w s ∨ s.sh.set = false) := by
  have busy : ∀ x : PC, x.busy = true → e.LeadsTo (fun s => s.pcs[1]? = some x ∧ Got toBatch w s)
      (fun s => Got Sh.tried w s ∨ s.sh.set = false) := by
    intro x hx
    refine (along hc e h0 (Got toBatch w) (fun s l s' h1 h2 h3 => got_step hc grow_batch h1 h2 h3)
      (busy_ends hc e hf h0 x hx)).trans (.or ?_ (.refl e fun _ h => Or.inr h))
    intro m ⟨h1, h2⟩
    exact ⟨m, Nat.le_refl m, Or.inl (batch_tried h2 ((all hc e h0 m).inv.loc 1 _ h1).cfact.2.2)⟩
  intro m hm
  have hA := all hc e h0 m
  have hlt : 1 < (e.at_ m).pcs.length := hA.two
  have hx : (e.at_ m).pcs[1]? = some _ := List.getElem?_eq_getElem hlt
  have hl := hA.inv.loc 1 _ hx
  have hw := hl.isC.2 rfl
  have hf := hl.cfact
  generalize (e.at_ m).pcs[1]'hlt = x at hx hw hf
  cases x <;> first
    | (cases hw; done)
    | exact busy .cNext rfl m ⟨hx, hm⟩
    | exact ⟨m, Nat.le_refl m, Or.inl (batch_tried hm hf.2)⟩
    | exact ⟨m, Nat.le_refl m, Or.inl (batch_tried hm hf.2.2)⟩
    | exact ⟨m, Nat.le_refl m, Or.inl (batch_tried hm hf.2.2.1)⟩
    | (rename_i t; cases t; cases hw; exact busy _ rfl m ⟨hx, hm⟩)

/-- C111: under fair scheduling the callback is called for every modification the kernel has reported, whatever else happens,
unless it is unset. -/
theorem C111_called (w : List Str) :
    e.LeadsTo (fun s => s.sh.set = true ∧ s.sh.present = true ∧ (∀ e ∈ s.sh.fed, ∀ n, e.name = some n → '/' ∉ n) ∧
        w <+: modifications c.filter s.sh.fed)
      (fun s => w <+: s.sh.called ∨ s.sh.set = false) := by
  intro m ⟨h1, h2, h3, h4⟩
  have hA := all hc e h0 m
  have hr : Read w (e.at_ m).sh.queue.length (e.at_ m) := by
    refine ⟨⟨h1, h2⟩, (e.at_ m).sh.queue, [], by rw [List.append_nil], Nat.le_refl _, ?_⟩
    unfold way
    rw [← hA.inv.glob.flow, mods_notes _ _ h3]
    exact h4
  have stop : ∀ p : Conf (prog c) → Prop, e.LeadsTo (fun s => s.sh.set = false) (fun s => p s ∨ s.sh.set = false) :=
    fun p => .refl e fun _ h => Or.inr h
  obtain ⟨k, hk, hq⟩ := (((to_parsed hc e hf h0 w _).trans ((to_info hc e hf h0 w).or (stop _))).trans
    ((to_batch hc e hf h0 w).or (stop _))).trans ((to_tried hc e hf h0 w).or (stop _)) m hr
  refine ⟨k, hk, ?_⟩
  rcases hq with hq | hq
  · left
    rw [(all hc e h0 k).inv.glob.all hq.k.1 hq.k.2]
    exact hq.got
  · exact Or.inr hq

end

end Verif.FileWatcher
