import Verif.Lemmas.OwnerPtr
/-!
C67-C70, C90: `OwnerPtr`, `LesseePtr` and `GuardedPtr`.
-/
namespace Verif.OwnerPtr
open Verif.Threads

/-- The datum was given to an owner, no owner has it any more, and no thread is inside `release_reference_`
for it. -/
def Released (d : Nat) (s : Conf prog) : Prop :=
  d < s.sh.next ∧ (∀ o, s.sh.owners o ≠ some d) ∧
  ∀ (j o : Nat) (k : After), s.pcs[j]? ≠ some (.rAcq o d k) ∧ s.pcs[j]? ≠ some (.rDel o d k) ∧
    s.pcs[j]? ≠ some (.rNull o d k) ∧ s.pcs[j]? ≠ some (.rUnl o d k)

theorem released_status {d : Nat} {s : Conf prog} (hi : Inv s) (h : Released d s) :
    d ∈ s.sh.deleted ∧ s.sh.alive d = false := by
  rcases hi.status d h.1 with ⟨o, ho⟩ | ⟨j, x, hx, hd⟩ | h'
  · exact absurd ho (h.2.1 o)
  · cases x with
    | rAcq o d' k => cases hd; exact absurd hx (h.2.2 j o k).1
    | rDel o d' k => cases hd; exact absurd hx (h.2.2 j o k).2.1
    | rNull o d' k => cases hd; exact absurd hx (h.2.2 j o k).2.2.1
    | rUnl o d' k => cases hd; exact absurd hx (h.2.2 j o k).2.2.2
    | _ => cases hd
  · exact h'

/-- Deletions are not undone, and a datum that is gone does not come back. -/
theorem mono_step {s s' : Conf prog} {l : Label Op} (hs : Stepped s l s') (d : Nat) :
    (d ∈ s.sh.deleted → d ∈ s'.sh.deleted) ∧
    (d < s.sh.next ∧ s.sh.alive d = false → d < s'.sh.next ∧ s'.sh.alive d = false) := by
  cases hs with
  | start i r op hx => exact ⟨id, id⟩
  | run i x y sh hx hr =>
    cases hr with
    | rDel o d' k ha => exact ⟨fun h => List.mem_append_left _ h, id⟩
    | rNull o d' k =>
      refine ⟨id, fun h => ⟨h.1, ?_⟩⟩
      show upd s.sh.alive d' false d = false
      unfold upd
      split
      · rfl
      · exact h.2
    | give o ho =>
      refine ⟨id, fun h => ⟨Nat.lt_succ_of_lt h.1, ?_⟩⟩
      exact (upd_ne (Nat.ne_of_lt h.1)).trans h.2
    | _ => exact ⟨id, id⟩

theorem exec_inv (I : Conf prog → Prop) (hI : ∀ s l s', I s → Stepped s l s' → I s') :
    ∀ (ls : List (Label Op)) {s s' : Conf prog}, I s → prog.system.exec s ls = some s' → I s'
  | [], s, s', h, he => by cases he; exact h
  | l :: ls, s, s', h, he => by
    obtain ⟨s1, h1, h2⟩ := System.exec_cons he
    exact exec_inv I hI ls (hI s l s1 h (step_stepped h1)) h2

/-- What a thread does while it starts no new call. -/
theorem exec_thread (R : Conf prog → PC → Prop) (i : Nat)
    (hrun : ∀ (s : Conf prog) (x y : PC) (sh : Sh), s.pcs[i]? = some x → Ran i s.sh x sh y → R s x →
      R ⟨sh, s.pcs.set i y⟩ y)
    (hother : ∀ (s s' : Conf prog) (l : Label Op) (x : PC), Stepped s l s' → s.pcs[i]? = some x →
      s'.pcs[i]? = some x → R s x → R s' x) :
    ∀ (ls : List (Label Op)), (∀ l ∈ ls, ∀ op, l ≠ .start i op) → ∀ {s s' : Conf prog},
      prog.system.exec s ls = some s' → ∀ {x : PC}, s.pcs[i]? = some x → R s x →
      ∃ y, s'.pcs[i]? = some y ∧ R s' y := by
  intro ls hls s s' he x hx h
  refine Prog.exec_keep (P := prog) R i ?_ ls hls he hx h
  intro s l s' x hs hl hx hR
  have hs := step_stepped (Prog.stepped_step hs)
  cases hs with
  | start j r op hj =>
    have : j ≠ i := by
      rintro rfl
      exact hl op rfl
    have hx' : (s.pcs.set j (entry op))[i]? = some x := (get_set_ne (fun e => this e.symm)).trans hx
    exact ⟨x, hx', hother s _ _ x (.start j r op hj) hx hx' hR⟩
  | run j z y sh hz hr =>
    by_cases e : j = i
    · subst e
      rw [hx] at hz
      cases hz
      exact ⟨y, get_set_self hx, hrun s x y sh hx hr hR⟩
    · have hx' : (s.pcs.set j y)[i]? = some x := (get_set_ne (fun h => e h.symm)).trans hx
      exact ⟨x, hx', hother s _ _ x (.run j z y sh hz hr) hx hx' hR⟩

theorem exec_inv' {s s' : Conf prog} {ls : List (Label Op)} (hi : Inv s) (he : prog.system.exec s ls = some s') :
    Inv s' := exec_inv Inv (fun _ _ _ h hs => inv_step h hs) ls hi he

/-! ### C67 -/

/-- C67: the deleter is called at most once for each datum. -/
theorem C67_once {n : Nat} {s : Conf prog} (h : prog.system.Reachable (init n) s) : s.sh.deleted.Nodup :=
  (inv h).deleted.1

/-- C67: a datum that no owner has any more and that no thread is just releasing was deleted. -/
theorem C67_released {n : Nat} {s : Conf prog} (h : prog.system.Reachable (init n) s) {d : Nat}
    (hd : Released d s) : d ∈ s.sh.deleted := (released_status (inv h) hd).1

/-- C67: when `reset()`, `reset(reference)`, an assignment or the destructor of an owner returns (or throws),
the datum that the owner had is deleted, whatever other threads do meanwhile. -/
theorem C67_call {n : Nat} {s s1 s' : Conf prog} (h : prog.system.Reachable (init n) s) {i o d : Nat} {k : After}
    (hx : s.pcs[i]? = some (.oTest o k)) (ho : s.sh.owners o = some d)
    (h1 : prog.system.step s (.run i) = some s1) {ls : List (Label Op)} (hls : ∀ l ∈ ls, ∀ op, l ≠ .start i op)
    (he : prog.system.exec s1 ls = some s') {r : Option Ret} (hr : s'.pcs[i]? = some (.idle r)) :
    d ∈ s'.sh.deleted := by
  have hi := inv h
  have hi1 : Inv s1 := inv_step hi (step_stepped h1)
  have hx1 : s1.pcs[i]? = some (.rAcq o d k) := by
    cases step_stepped h1 with
    | run _ z y sh hz hr =>
      rw [hx] at hz
      cases hz
      cases hr with
      | skip _ _ hs =>
        have := hs d ho
        rw [(hi.owned o d ho).1] at this
        cases this
      | take _ d' _ ho' ha =>
        rw [ho] at ho'
        cases ho'
        exact get_set_self hx
  obtain ⟨y, hy, -, hR⟩ := exec_thread (fun s x => Inv s ∧ (x.rel = some d ∨ d ∈ s.sh.deleted)) i
    (by
      intro s x y sh hx hr ⟨hi, hR⟩
      have hst : Stepped s (.run i) ⟨sh, s.pcs.set i y⟩ := .run i x y sh hx hr
      refine ⟨inv_step hi hst, ?_⟩
      rcases hR with hR | hR
      · have hl := hi.loc i x hx
        cases hr with
        | rUnl o' d' k' =>
          cases hR
          exact Or.inr hl.2
        | rAcq _ _ _ _ _ => exact Or.inl hR
        | rDel _ _ _ _ => exact Or.inl hR
        | rSkip _ _ _ _ => exact Or.inl hR
        | rNull _ _ _ => exact Or.inl hR
        | _ => cases hR
      · exact Or.inr ((mono_step hst d).1 hR))
    (by
      intro s s' l x hs hx hx' ⟨hi, hR⟩
      exact ⟨inv_step hi hs, hR.imp id (mono_step hs d).1⟩)
    ls hls he hx1 ⟨hi1, Or.inl rfl⟩
  rw [hr] at hy
  cases hy
  rcases hR with hR | hR
  · cases hR
  · exact hR

/-- C67: `reset(nullptr)` throws, with the old datum deleted and the owner empty. -/
theorem C67_null {n : Nat} {s s1 s' : Conf prog} (h : prog.system.Reachable (init n) s) {i o d : Nat}
    (hx : s.pcs[i]? = some (entry (.giveNull o))) (ho : s.sh.owners o = some d)
    (h1 : prog.system.step s (.run i) = some s1) {ls : List (Label Op)} (hls : ∀ l ∈ ls, ∀ op, l ≠ .start i op)
    (he : prog.system.exec s1 ls = some s') {r : Option Ret} (hr : s'.pcs[i]? = some (.idle r)) :
    r = some .initialization ∧ d ∈ s'.sh.deleted ∧ s'.sh.owners o ≠ some d := by
  have hdel := C67_call h hx ho h1 hls he hr
  have hi1 : Inv s1 := inv_step (inv h) (step_stepped h1)
  have hi' := exec_inv' hi1 he
  refine ⟨?_, hdel, fun e => (hi'.owned o d e).2.1 hdel⟩
  have hx1 : ∃ y, s1.pcs[i]? = some y ∧ (y = .oNext o .null ∨ y.rel = some d ∧ ∃ o' d', y = .rAcq o' d' .null) := by
    cases step_stepped h1 with
    | run _ z y sh hz hr =>
      rw [hx] at hz
      cases hz
      refine ⟨y, get_set_self hx, ?_⟩
      cases hr with
      | skip _ _ hs => exact Or.inl rfl
      | take _ d' _ ho' ha =>
        rw [ho] at ho'
        cases ho'
        exact Or.inr ⟨rfl, _, _, rfl⟩
  obtain ⟨y1, hy1, hR1⟩ := hx1
  obtain ⟨y, hy, hR⟩ := exec_thread (fun _ x => x = .idle (some .initialization) ∨ ∃ o' d', x = .oNext o' .null ∨
      x = .rAcq o' d' .null ∨ x = .rDel o' d' .null ∨ x = .rNull o' d' .null ∨ x = .rUnl o' d' .null) i
    (by
      intro s x y sh hx hr hR
      rcases hR with rfl | ⟨o', d', rfl | rfl | rfl | rfl | rfl⟩
      · cases hr
      · cases hr
        exact Or.inl rfl
      · cases hr
        exact Or.inr ⟨o', d', Or.inr (Or.inr (Or.inl rfl))⟩
      · cases hr with
        | rDel _ _ _ _ => exact Or.inr ⟨o', d', Or.inr (Or.inr (Or.inr (Or.inl rfl)))⟩
        | rSkip _ _ _ _ => exact Or.inr ⟨o', d', Or.inr (Or.inr (Or.inr (Or.inr rfl)))⟩
      · cases hr
        exact Or.inr ⟨o', d', Or.inr (Or.inr (Or.inr (Or.inr rfl)))⟩
      · cases hr
        exact Or.inr ⟨o', d', Or.inl rfl⟩)
    (fun s s' l x hs _ _ hR => hR) ls hls he hy1
    (by
      rcases hR1 with rfl | ⟨-, o', d', rfl⟩
      · exact Or.inr ⟨o, d, Or.inl rfl⟩
      · exact Or.inr ⟨o', d', Or.inr (Or.inl rfl)⟩)
  rw [hr] at hy
  cases hy
  rcases hR with e | ⟨o', d', e | e | e | e | e⟩ <;> cases e
  rfl

theorem guard_readers {s : Conf prog} (hi : Inv s) {g d : Nat} (hg : s.sh.guards[g]? = some (some (some d))) :
    s.sh.writer d = none := by
  have h1 : 0 < guardsOf d s.sh := countP_pos_of_get (p := fun c => c == some (some d)) hg (by simp)
  have h2 := hi.leaked d
  unfold Leaked at h2
  cases hw : s.sh.writer d with
  | none => rfl
  | some j =>
    have := hi.excl d (by rw [hw]; nofun)
    omega

theorem shared_readers {s : Conf prog} (hi : Inv s) {j d : Nat} {x : PC} (hx : s.pcs[j]? = some x)
    (hd : x.shared = some d) : s.sh.writer d = none := by
  have h1 : 0 < holders d s.pcs := countP_pos_of_get (p := fun x : PC => x.shared == some d) hx (by simp [hd])
  have h2 := hi.leaked d
  unfold Leaked at h2
  cases hw : s.sh.writer d with
  | none => rfl
  | some j =>
    have := hi.excl d (by rw [hw]; nofun)
    omega

/-- C67: a datum is not deleted while there is a guard of it (valid or not), nor while a thread is inside
`lock_with_exception` with the lock taken. -/
theorem C67_guard {n : Nat} {s s' : Conf prog} (h : prog.system.Reachable (init n) s) {l : Label Op}
    (hs : prog.system.step s l = some s') {d : Nat} (h0 : d ∉ s.sh.deleted) (h1 : d ∈ s'.sh.deleted) :
    (∀ g : Nat, s.sh.guards[g]? ≠ some (some (some d))) ∧ ∀ (j : Nat) (m : Mode), s.pcs[j]? ≠ some (.gChk d m) := by
  have hi := inv h
  have hw : s.sh.writer d ≠ none := by
    cases step_stepped hs with
    | start i r op hx => exact absurd h1 h0
    | run i x y sh hx hr =>
      cases hr with
      | rDel o d' k ha =>
        rcases List.mem_append.1 h1 with h | h
        · exact absurd h h0
        · rw [List.mem_singleton] at h
          subst h
          rw [(hi.writer i _ d hx).1 rfl]
          nofun
      | _ => exact absurd h1 h0
  exact ⟨fun g hg => hw (guard_readers hi hg), fun j m hx => hw (shared_readers hi hx rfl)⟩

/-- C67: while a guard of a datum exists, the datum stays: valid at one moment, it is valid and not deleted
as long as the guard is not destroyed or moved. -/
theorem C67_keeps {n : Nat} {s : Conf prog} (h : prog.system.Reachable (init n) s) {g d : Nat} {ls : List (Label Op)}
    {s' : Conf prog} (hg : ∀ ls1 ls2 s1, ls = ls1 ++ ls2 → prog.system.exec s ls1 = some s1 →
      s1.sh.guards[g]? = some (some (some d)))
    (ha : s.sh.alive d = true) (he : prog.system.exec s ls = some s') :
    s'.sh.alive d = true ∧ d ∉ s'.sh.deleted := by
  induction ls generalizing s with
  | nil =>
    cases he
    have hi := inv h
    have hw := guard_readers hi (hg [] [] _ rfl rfl)
    refine ⟨ha, fun hd => ?_⟩
    rcases hi.status d (hi.alive d ha) with ⟨o, ho⟩ | ⟨j, x, hx, hr⟩ | ⟨-, hf⟩
    · exact (hi.owned o d ho).2.1 hd
    · have hl := hi.loc j x hx
      have hex : x.excl = none := by
        cases he : x.excl with
        | none => rfl
        | some d' =>
          have : d' = d := by
            have := excl_rel he
            rw [hr] at this
            cases this
            rfl
          subst this
          have := (hi.writer j x d' hx).1 he
          rw [hw] at this
          cases this
      cases x with
      | rAcq o d' k => cases hr; exact hl.2 hd
      | rDel o d' k => cases hex
      | rNull o d' k => cases hex
      | rUnl o d' k => cases hex
      | _ => cases hr
    · rw [ha] at hf
      cases hf
  | cons l ls ih =>
    obtain ⟨s1, h1, h2⟩ := System.exec_cons he
    refine ih (.step h (Label.allowed_true l) h1) ?_ ?_ h2
    · intro ls1 ls2 s2 e hs2
      refine hg (l :: ls1) ls2 s2 (by rw [e]; rfl) ?_
      show (prog.system.step s l).bind _ = _
      rw [h1]
      exact hs2
    · have hi := inv h
      have hw := guard_readers hi (hg [] (l :: ls) s rfl rfl)
      cases step_stepped h1 with
      | start i r op hx => exact ha
      | run i x y sh hx hr =>
        cases hr with
        | rNull o d' k =>
          have : d ≠ d' := by
            rintro rfl
            have := (hi.writer i _ d hx).1 rfl
            rw [hw] at this
            cases this
          exact (upd_ne this).trans ha
        | give o ho =>
          show upd s.sh.alive s.sh.next true d = true
          unfold upd
          split
          · rfl
          · exact ha
        | _ => exact ha

/-! ### C68 -/

/-- C68: while an owner has the datum a lessee of it is valid: `operator bool` gives true, and `lock()` in its
three forms finds the datum. -/
theorem C68_held {n : Nat} {s s' : Conf prog} (h : prog.system.Reachable (init n) s) {i o d : Nat}
    (ho : s.sh.owners o = some d) (hs : prog.system.step s (.run i) = some s') :
    (s.pcs[i]? = some (.vRead d) → s'.pcs[i]? = some (.idle (some (.bool true)))) ∧
    (∀ m, s.pcs[i]? = some (.gChk d m) → s'.pcs[i]? ≠ some (.gFail d)) ∧
    (∀ g, s.pcs[i]? = some (.useGuard g) → s.sh.guards[g]? = some (some (some d)) →
      s'.pcs[i]? = some (.idle (some (.used true)))) := by
  have hi := inv h
  obtain ⟨ha, hd, -⟩ := hi.owned o d ho
  cases step_stepped hs with
  | run _ x y sh hx hr =>
    refine ⟨fun e => ?_, fun m e => ?_, fun g e hg => ?_⟩
    · rw [e] at hx
      cases hx
      cases hr
      rw [ha]
      exact get_set_self e
    · rw [e] at hx
      cases hx
      cases hr with
      | gAccess _ _ => rw [get_set_self e]; nofun
      | gOk _ _ _ _ => rw [get_set_self e]; nofun
      | gBad _ _ hf =>
        rw [ha] at hf
        cases hf
    · rw [e] at hx
      cases hx
      cases hr with
      | ugBad _ hb => exact absurd hg (hb _)
      | ugNone _ hb =>
        rw [hg] at hb
        cases hb
      | ugNull _ d' hb hf =>
        rw [hg] at hb
        cases hb
        rw [ha] at hf
        cases hf
      | ug _ d' hb _ =>
        rw [hg] at hb
        cases hb
        have := get_set_self (y := PC.idle (some (.used (decide (d ∉ s.sh.deleted))))) e
        rw [decide_eq_true hd] at this ⊢
        exact this

/-- C68: a lessee got from an owner refers to the datum the owner has; a copy of a lessee to that of the
original. -/
theorem C68_lease {n : Nat} {s s' : Conf prog} (_h : prog.system.Reachable (init n) s) {i l : Nat}
    (hs : prog.system.step s (.run i) = some s') :
    (∀ o, s.pcs[i]? = some (entry (.lease o l)) → s'.sh.lessees l = s.sh.owners o ∧
      ∀ l', l' ≠ l → s'.sh.lessees l' = s.sh.lessees l') ∧
    (∀ l0, s.pcs[i]? = some (entry (.copyLessee l l0)) → s'.sh.lessees l = s.sh.lessees l0 ∧
      ∀ l', l' ≠ l → s'.sh.lessees l' = s.sh.lessees l') := by
  cases step_stepped hs with
  | run _ x y sh hx hr =>
    refine ⟨fun o e => ?_, fun l0 e => ?_⟩
    · rw [e] at hx
      cases hx
      cases hr
      exact ⟨upd_same _ _ _, fun l' hl => upd_ne hl⟩
    · rw [e] at hx
      cases hx
      cases hr
      exact ⟨upd_same _ _ _, fun l' hl => upd_ne hl⟩

/-- C68: while an owner has the datum (when the call returns), calls on its lessees find it: `operator bool` gives
true, `lock_with_exception` returns a guard of the datum, `->` and `*` do not throw. -/
theorem C68_found {n : Nat} {s1 s2 s' : Conf prog} (h : prog.system.Reachable (init n) s1) {i l d o : Nat}
    (hl : s1.sh.lessees l = some d) (hd : d < s1.sh.next) (h2 : prog.system.step s1 (.run i) = some s2)
    {ls' : List (Label Op)} (hls : ∀ l ∈ ls', ∀ op, l ≠ .start i op)
    (h3 : prog.system.exec s2 ls' = some s') {r : Option Ret} (hr : s'.pcs[i]? = some (.idle r))
    (ho : s'.sh.owners o = some d) :
    (s1.pcs[i]? = some (entry (.valid l)) → r = some (.bool true)) ∧
    (s1.pcs[i]? = some (entry (.lockExc l)) → ∃ g, r = some (.guard g)) ∧
    (s1.pcs[i]? = some (entry (.access l)) → ∃ b, r = some (.used b)) := by
  have ha' : s'.sh.alive d ≠ false := by
    have hr2 : prog.system.Reachable (init n) s2 := .step h (Label.allowed_true _) h2
    rw [((exec_inv' (inv hr2) h3).owned o d ho).1]
    nofun
  have hd2 : d < s2.sh.next := by
    have : ∀ {s s' : Conf prog} {l : Label Op}, Stepped s l s' → d < s.sh.next → d < s'.sh.next := by
      intro s s' l hs h
      cases hs with
      | start i r op hx => exact h
      | run i x y sh hx hr =>
        cases hr with
        | give o ho => exact Nat.lt_succ_of_lt h
        | _ => exact h
    exact this (step_stepped h2) hd
  have key : ∀ (x : PC), s2.pcs[i]? = some x → ∀ (R : PC → Prop), R x →
      (∀ (s : Conf prog) (x y : PC) (sh : Sh), Ran i s.sh x sh y → R x → R y ∨ s.sh.alive d = false) →
      R (.idle r) := by
    intro x hx R hRx hrun
    obtain ⟨y, hy, hn, hR⟩ := exec_thread
      (fun s x => d < s.sh.next ∧ (R x ∨ s.sh.alive d = false)) i
      (by
        intro s x y sh hx hr ⟨hn, hR⟩
        have hst : Stepped s (.run i) ⟨sh, s.pcs.set i y⟩ := .run i x y sh hx hr
        have hn' : d < sh.next := by
          cases hr with
          | give o ho => exact Nat.lt_succ_of_lt hn
          | _ => exact hn
        refine ⟨hn', ?_⟩
        rcases hR with hR | hR
        · rcases hrun s x y sh hr hR with h | h
          · exact Or.inl h
          · exact Or.inr ((mono_step hst d).2 ⟨hn, h⟩).2
        · exact Or.inr ((mono_step hst d).2 ⟨hn, hR⟩).2)
      (by
        intro s s' l x hs _ _ ⟨hn, hR⟩
        have hn' : d < s'.sh.next := by
          cases hs with
          | start i r op hx => exact hn
          | run i x y sh hx hr =>
            cases hr with
            | give o ho => exact Nat.lt_succ_of_lt hn
            | _ => exact hn
        exact ⟨hn', hR.imp id (fun h => ((mono_step hs d).2 ⟨hn, h⟩).2)⟩)
      ls' hls h3 hx ⟨hd2, Or.inl hRx⟩
    rw [hr] at hy
    cases hy
    rcases hR with h | h
    · exact h
    · exact absurd h ha'
  have acq : ∀ m, s1.pcs[i]? = some (.gTest l m) → s2.pcs[i]? = some (.gAcq d m) := by
    intro m hx
    cases step_stepped h2 with
    | run _ x y sh hz hr =>
      rw [hx] at hz
      cases hz
      cases hr with
      | gNone _ e =>
        rw [hl] at e
        cases e
      | gThrow _ _ e _ =>
        rw [hl] at e
        cases e
      | gSome _ _ d' e =>
        rw [hl] at e
        cases e
        exact get_set_self hx
  refine ⟨fun hx => ?_, fun hx => ?_, fun hx => ?_⟩
  · have hx2 : s2.pcs[i]? = some (.vRead d) := by
      cases step_stepped h2 with
      | run _ x y sh hz hr =>
        rw [hx] at hz
        cases hz
        cases hr with
        | vNone _ e =>
          rw [hl] at e
          cases e
        | vSome _ d' e =>
          rw [hl] at e
          cases e
          exact get_set_self hx
    have := key _ hx2 (fun x => x = .vRead d ∨ x = .idle (some (.bool true))) (Or.inl rfl) (by
      intro s x y sh hr hR
      rcases hR with rfl | rfl
      · cases hr
        cases ha : s.sh.alive d with
        | false => exact Or.inr rfl
        | true => exact Or.inl (Or.inr rfl)
      · cases hr)
    rcases this with e | e
    · cases e
    · cases e
      rfl
  · have := key _ (acq _ hx) (fun x => x = .gAcq d .exc ∨ x = .gChk d .exc ∨ ∃ g, x = .idle (some (.guard g)))
      (Or.inl rfl) (by
      intro s x y sh hr hR
      rcases hR with rfl | rfl | ⟨g, rfl⟩
      · cases hr
        exact Or.inl (Or.inr (Or.inl rfl))
      · cases hr with
        | gOk _ _ _ _ => exact Or.inl (Or.inr (Or.inr ⟨_, rfl⟩))
        | gBad _ _ ha => exact Or.inr ha
      · cases hr)
    rcases this with e | e | ⟨g, e⟩
    · cases e
    · cases e
    · cases e
      exact ⟨g, rfl⟩
  · have := key _ (acq _ hx) (fun x => x = .gAcq d .access ∨ x = .gChk d .access ∨ x = .aUnl d ∨ x = .aUse d ∨
        ∃ b, x = .idle (some (.used b))) (Or.inl rfl) (by
      intro s x y sh hr hR
      rcases hR with rfl | rfl | rfl | rfl | ⟨b, rfl⟩
      · cases hr
        exact Or.inl (Or.inr (Or.inl rfl))
      · cases hr with
        | gAccess _ _ => exact Or.inl (Or.inr (Or.inr (Or.inl rfl)))
        | gOk _ _ _ hm => exact absurd rfl hm
        | gBad _ _ ha => exact Or.inr ha
      · cases hr
        exact Or.inl (Or.inr (Or.inr (Or.inr (Or.inl rfl))))
      · cases hr
        exact Or.inl (Or.inr (Or.inr (Or.inr (Or.inr ⟨_, rfl⟩))))
      · cases hr)
    rcases this with e | e | e | e | ⟨b, e⟩
    · cases e
    · cases e
    · cases e
    · cases e
    · cases e
      exact ⟨b, rfl⟩

/-- C68: once a datum is released, and for ever (`ls`), calls on its lessees do not find it: `operator bool`
gives false, `lock_with_exception`, `->` and `*` throw. -/
theorem C68_gone {n : Nat} {s s1 s2 s' : Conf prog} (h : prog.system.Reachable (init n) s) {d : Nat}
    (hd : Released d s) {ls : List (Label Op)} (h1 : prog.system.exec s ls = some s1) {i l : Nat}
    (hl : s1.sh.lessees l = some d) (h2 : prog.system.step s1 (.run i) = some s2)
    {ls' : List (Label Op)} (hls : ∀ l ∈ ls', ∀ op, l ≠ .start i op)
    (h3 : prog.system.exec s2 ls' = some s') {r : Option Ret} (hr : s'.pcs[i]? = some (.idle r)) :
    (s1.pcs[i]? = some (entry (.valid l)) → r = some (.bool false)) ∧
    (s1.pcs[i]? = some (entry (.lockExc l)) ∨ s1.pcs[i]? = some (entry (.access l)) → r = some .valueAccess) := by
  have gone : d < s2.sh.next ∧ s2.sh.alive d = false := by
    have g0 : d < s.sh.next ∧ s.sh.alive d = false := ⟨hd.1, (released_status (inv h) hd).2⟩
    have g1 := exec_inv (fun s => d < s.sh.next ∧ s.sh.alive d = false) (fun _ _ _ h hs => (mono_step hs d).2 h) ls g0 h1
    exact (mono_step (step_stepped h2) d).2 g1
  constructor
  · intro hx
    have hx2 : s2.pcs[i]? = some (.vRead d) := by
      cases step_stepped h2 with
      | run _ x y sh hz hr =>
        rw [hx] at hz
        cases hz
        cases hr with
        | vNone _ e =>
          rw [hl] at e
          cases e
        | vSome _ d' e =>
          rw [hl] at e
          cases e
          exact get_set_self hx
    obtain ⟨y, hy, -, hR⟩ := exec_thread
      (fun s x => (d < s.sh.next ∧ s.sh.alive d = false) ∧ (x = .vRead d ∨ x = .idle (some (.bool false)))) i
      (by
        intro s x y sh hx hr ⟨hg, hR⟩
        refine ⟨(mono_step (.run i x y sh hx hr) d).2 hg, ?_⟩
        rcases hR with rfl | rfl
        · cases hr
          rw [hg.2]
          exact Or.inr rfl
        · cases hr)
      (fun s s' l x hs _ _ ⟨hg, hR⟩ => ⟨(mono_step hs d).2 hg, hR⟩)
      ls' hls h3 hx2 ⟨gone, Or.inl rfl⟩
    rw [hr] at hy
    cases hy
    rcases hR with e | e
    · cases e
    · cases e
      rfl
  · intro hx
    have hx2 : ∃ m, m ≠ .plain ∧ s2.pcs[i]? = some (.gAcq d m) := by
      have aux : ∀ m, s1.pcs[i]? = some (.gTest l m) → s2.pcs[i]? = some (.gAcq d m) := by
        intro m hx
        cases step_stepped h2 with
        | run _ x y sh hz hr =>
          rw [hx] at hz
          cases hz
          cases hr with
          | gNone _ e =>
            rw [hl] at e
            cases e
          | gThrow _ _ e _ =>
            rw [hl] at e
            cases e
          | gSome _ _ d' e =>
            rw [hl] at e
            cases e
            exact get_set_self hx
      rcases hx with hx | hx
      · exact ⟨.exc, nofun, aux _ hx⟩
      · exact ⟨.access, nofun, aux _ hx⟩
    obtain ⟨m, hm, hx2⟩ := hx2
    obtain ⟨y, hy, -, hR⟩ := exec_thread
      (fun s x => (d < s.sh.next ∧ s.sh.alive d = false) ∧
        (x = .gAcq d m ∨ x = .gChk d m ∨ x = .gFail d ∨ x = .idle (some .valueAccess))) i
      (by
        intro s x y sh hx hr ⟨hg, hR⟩
        refine ⟨(mono_step (.run i x y sh hx hr) d).2 hg, ?_⟩
        rcases hR with rfl | rfl | rfl | rfl
        · cases hr with
          | gLock _ _ => exact absurd rfl hm
          | gAcq _ _ _ _ => exact Or.inr (Or.inl rfl)
        · cases hr with
          | gAccess _ ha =>
            rw [hg.2] at ha
            cases ha
          | gOk _ _ ha _ =>
            rw [hg.2] at ha
            cases ha
          | gBad _ _ _ => exact Or.inr (Or.inr (Or.inl rfl))
        · cases hr
          exact Or.inr (Or.inr (Or.inr rfl))
        · cases hr)
      (fun s s' l x hs _ _ ⟨hg, hR⟩ => ⟨(mono_step hs d).2 hg, hR⟩)
      ls' hls h3 hx2 ⟨gone, Or.inl rfl⟩
    rw [hr] at hy
    cases hy
    rcases hR with e | e | e | e
    · cases e
    · cases e
    · cases e
    · cases e
      rfl

/-- C68: guards of a datum that was released are empty: using one is using a null pointer. -/
theorem C68_empty {n : Nat} {s s1 s2 : Conf prog} (h : prog.system.Reachable (init n) s) {d : Nat}
    (hd : Released d s) {ls : List (Label Op)} (h1 : prog.system.exec s ls = some s1) {i g : Nat}
    (hx : s1.pcs[i]? = some (.useGuard g)) (hg : s1.sh.guards[g]? = some (some (some d)))
    (h2 : prog.system.step s1 (.run i) = some s2) : s2.pcs[i]? = some (.idle (some .null)) := by
  have g0 : d < s.sh.next ∧ s.sh.alive d = false := ⟨hd.1, (released_status (inv h) hd).2⟩
  have g1 := exec_inv (fun s => d < s.sh.next ∧ s.sh.alive d = false) (fun _ _ _ h hs => (mono_step hs d).2 h) ls g0 h1
  cases step_stepped h2 with
  | run _ x y sh hz hr =>
    rw [hx] at hz
    cases hz
    cases hr with
    | ugBad _ hb => exact absurd hg (hb _)
    | ugNone _ hb => exact get_set_self hx
    | ugNull _ d' hb hf => exact get_set_self hx
    | ug _ d' hb ha =>
      rw [hg] at hb
      cases hb
      rw [g1.2] at ha
      cases ha

/-! ### C69 -/

/-- C69 is false: between the end of `operator ->` (or `*`), which releases the lock, and the use of the
pointer it returned, the owner can delete the datum. -/
theorem C69_negation : ∃ s, prog.system.Reachable (init 2) s ∧
    s.pcs[1]? = some (.idle (some (.used false))) := by
  refine ⟨_, prog.system.exec_reachable' ([.start 0 (.give 0), .run 0, .run 0, .start 0 (.lease 0 0), .run 0,
    .start 1 (.access 0), .run 1, .run 1, .run 1, .run 1,
    .start 0 (.reset 0), .run 0, .run 0, .run 0, .run 0, .run 0, .run 0, .run 1] : List (Label Op)) rfl, rfl⟩

/-- C69, what holds: a use through a guard always finds the datum there (or the guard is empty).  Missing: uses
of the pointer that `operator ->` and `*` of `LesseePtr` return. -/
theorem C69_guarded_partial {n : Nat} {s s' : Conf prog} (h : prog.system.Reachable (init n) s) {i g : Nat}
    (hx : s.pcs[i]? = some (.useGuard g)) (hs : prog.system.step s (.run i) = some s') :
    s'.pcs[i]? ≠ some (.idle (some (.used false))) := by
  have hi := inv h
  cases step_stepped hs with
  | run _ x y sh hz hr =>
    rw [hx] at hz
    cases hz
    cases hr with
    | ugBad _ hb => rw [get_set_self hx]; nofun
    | ugNone _ hb => rw [get_set_self hx]; nofun
    | ugNull _ d' hb hf => rw [get_set_self hx]; nofun
    | ug _ d hg ha =>
      have hk := C67_keeps (ls := []) h (g := g) (d := d)
        (fun ls1 ls2 s1 e h1 => by
          obtain ⟨rfl, -⟩ := List.append_eq_nil_iff.1 e.symm
          cases h1
          exact hg) ha rfl
      rw [get_set_self hx, decide_eq_true hk.2]
      nofun

/-- C69, what holds: a use through `operator ->` or `*` finds the datum if an owner still has it at that
moment. -/
theorem C69_owned_partial {n : Nat} {s s' : Conf prog} (h : prog.system.Reachable (init n) s) {i o d : Nat}
    (hx : s.pcs[i]? = some (.aUse d)) (ho : s.sh.owners o = some d) (hs : prog.system.step s (.run i) = some s') :
    s'.pcs[i]? = some (.idle (some (.used true))) := by
  have hd := ((inv h).owned o d ho).2.1
  cases step_stepped hs with
  | run _ x y sh hz hr =>
    rw [hx] at hz
    cases hz
    cases hr
    have := get_set_self (y := PC.idle (some (.used (decide (d ∉ s.sh.deleted))))) hx
    rw [decide_eq_true hd] at this ⊢
    exact this

/-! ### C70 -/

/-- C70 is false of guards: move-assigning to a guard loses the lock it holds; all guards are destroyed, and the
owner blocks in `reset()` for ever. -/
theorem C70_negation_guard : ∃ s, prog.system.Reachable (init 1) s ∧
    (∀ (g : Nat) (c : Option Nat), s.sh.guards[g]? ≠ some (some c)) ∧
    ∀ (ls : List (Label Op)) (s' : Conf prog), prog.system.exec s ls = some s' →
      s'.pcs[0]? = some (.rAcq 0 0 .stop) := by
  refine ⟨_, prog.system.exec_reachable' ([.start 0 (.give 0), .run 0, .run 0, .start 0 (.lease 0 0), .run 0,
    .start 0 (.lock 0), .run 0, .run 0, .start 0 (.lock 0), .run 0, .run 0,
    .start 0 (.assignGuard 0 1), .run 0, .start 0 (.destroyGuard 0), .run 0, .start 0 (.destroyGuard 1), .run 0,
    .start 0 (.reset 0), .run 0] : List (Label Op)) rfl, ?_, ?_⟩
  · intro g c
    match g with
    | 0 => nofun
    | 1 => nofun
    | g + 2 => nofun
  · intro ls s' he
    have h := exec_inv (fun s => Leaked 1 0 s ∧ s.pcs[0]? = some (.rAcq 0 0 .stop)) ?_ ls ?_ he
    · exact h.2
    · intro s l s' ⟨hl, hx⟩ hs
      refine ⟨leaked_step hl hs, ?_⟩
      cases hs with
      | start i r op hi =>
        have : i ≠ 0 := by
          rintro rfl
          rw [hx] at hi
          cases hi
        exact (get_set_ne (fun e => this e.symm)).trans hx
      | run i x y sh hi hr =>
        by_cases e : i = 0
        · subst e
          rw [hx] at hi
          cases hi
          cases hr with
          | rAcq _ _ _ hw hr =>
            unfold Leaked at hl
            omega
        · exact (get_set_ne (fun h => e h.symm)).trans hx
    · exact ⟨by unfold Leaked; decide, rfl⟩

/-- C70 is false of owners: a self-move-assignment destroys the datum. -/
theorem C70_negation_self : ∃ s s', prog.system.Reachable (init 1) s ∧ s.sh.owners 0 = some 0 ∧
    s.sh.deleted = [] ∧ prog.system.exec s ([.start 0 (.moveOwner 0 0), .run 0, .run 0, .run 0, .run 0, .run 0, .run 0] :
      List (Label Op)) = some s' ∧ s'.pcs[0]? = some (.idle (some .done)) ∧ s'.sh.owners 0 = none ∧
    s'.sh.deleted = [0] :=
  ⟨_, _, prog.system.exec_reachable' ([.start 0 (.give 0), .run 0, .run 0] : List (Label Op)) rfl,
    rfl, rfl, rfl, rfl, rfl, rfl⟩

/-- C70, what holds of owners: assigning from another owner (when no lessee has the old datum locked) deletes the
old datum, moves the new one, and changes no other owner.  Missing: self-assignment. -/
theorem C70_owner_partial {n : Nat} {s : Conf prog} (h : prog.system.Reachable (init n) s) {i o o' d d' : Nat}
    (hx : s.pcs[i]? = some (entry (.moveOwner o o'))) (hne : o ≠ o') (ho : s.sh.owners o = some d)
    (ho' : s.sh.owners o' = some d') (hfree : s.sh.readers d = 0) :
    ∃ s', prog.system.exec s (List.replicate 6 (.run i)) = some s' ∧ s'.pcs[i]? = some (.idle (some .done)) ∧
      s'.sh.owners o = some d' ∧ s'.sh.owners o' = none ∧ s'.sh.deleted = s.sh.deleted ++ [d] ∧
      ∀ p, p ≠ o → p ≠ o' → s'.sh.owners p = s.sh.owners p := by
  have hi := inv h
  obtain ⟨ha, hdel, hrel⟩ := hi.owned o d ho
  have hdd : d ≠ d' := by
    rintro rfl
    exact hne (hi.uniq _ _ _ ho ho')
  have hw : s.sh.writer d = none := by
    cases hw : s.sh.writer d with
    | none => rfl
    | some j =>
      obtain ⟨x, hj⟩ := hi.at_ d j hw
      exact absurd (excl_rel ((hi.writer j x d hj).2 hw)) (hrel j x hj)
  have go : ∀ {t : Conf prog} {x y : PC} {sh : Sh} {m : Nat} {u : Conf prog}, t.pcs[i]? = some x →
      run i t.sh x = some (sh, y, false) →
      prog.system.exec ⟨sh, t.pcs.set i y⟩ (List.replicate m (.run i)) = some u →
      prog.system.exec t (List.replicate (m + 1) (.run i)) = some u := by
    intro t x y sh m u hx hr hu
    show (prog.step t (.run i)).bind _ = _
    have : prog.step t (.run i) = some ⟨sh, t.pcs.set i y⟩ := by
      simp only [Prog.step, hx, Option.bind_some]
      rw [hr]
      rfl
    rw [this]
    exact hu
  have h0 : run i s.sh (.oTest o (.move o')) =
      some ({ s.sh with owners := upd s.sh.owners o none }, .rAcq o d (.move o'), false) := by
    simp only [run, ho, ha]
    rfl
  refine ⟨_, go hx h0 <|
    go (get_set_self hx) (y := .rDel o d (.move o')) (if_pos ⟨hw, hfree⟩) <|
    go (get_set_self (get_set_self hx)) (y := .rNull o d (.move o')) (if_pos ha) <|
    go (get_set_self (get_set_self (get_set_self hx))) (y := .rUnl o d (.move o')) rfl <|
    go (get_set_self (get_set_self (get_set_self (get_set_self hx)))) (y := .oNext o (.move o')) rfl <|
    go (get_set_self (get_set_self (get_set_self (get_set_self (get_set_self hx))))) (y := .idle (some .done))
      (if_neg (by simp [upd])) rfl, ?_⟩
  refine ⟨get_set_self (get_set_self (get_set_self (get_set_self (get_set_self (get_set_self hx))))), ?_, ?_, rfl, ?_⟩
  · show upd (upd (upd s.sh.owners o none) o' none) o (upd s.sh.owners o none o') o = _
    rw [upd_same, upd_ne (fun e => hne e.symm)]
    exact ho'
  · show upd (upd (upd s.sh.owners o none) o' none) o (upd s.sh.owners o none o') o' = _
    rw [upd_ne (fun e => hne e.symm), upd_same]
  · intro p h1 h2
    show upd (upd (upd s.sh.owners o none) o' none) o (upd s.sh.owners o none o') p = _
    rw [upd_ne h1, upd_ne h2, upd_ne h1]

/-- No guard is assigned. -/
def noAssign : Op → Prop
  | .assignGuard _ _ => False
  | _ => True

theorem exact_readers {n : Nat} {s : Conf prog} (h : prog.system.ReachableBy noAssign (init n) s) (d : Nat) :
    s.sh.readers d = guardsOf d s.sh + holders d s.pcs := by
  have : (∀ (j g g' : Nat), s.pcs[j]? ≠ some (.assignGuard g g')) ∧
      s.sh.readers d = guardsOf d s.sh + holders d s.pcs := by
    refine System.ReachableBy.invariant (S := prog.system) (fun s : Conf prog =>
      (∀ (j g g' : Nat), s.pcs[j]? ≠ some (.assignGuard g g')) ∧
      s.sh.readers d = guardsOf d s.sh + holders d s.pcs) ?_ ?_ h
    · refine ⟨fun j g g' h => (by cases (Prog.init_get h : PC.assignGuard g g' = .idle none)), ?_⟩
      have : holders d (init n).pcs = 0 := by
        unfold holders
        rw [List.countP_eq_zero]
        intro x hx
        have : x = .idle none := (List.mem_replicate.1 hx).2
        rw [this]
        nofun
      rw [this]
      rfl
    · rintro s l s' ⟨hn, hc⟩ hA hs
      cases step_stepped hs with
      | start i r op hx =>
        have h1 := holders_set (d := d) (entry op) hx
        rw [ind_none (entry_pc op).2.2, ind_none rfl] at h1
        refine ⟨?_, ?_⟩
        · intro j g g' hz
          rcases set_get hz with ⟨rfl, e, -⟩ | ⟨-, hz⟩
          · cases op <;> first | exact hA | (cases e; done)
          · exact hn j g g' hz
        · show s.sh.readers d = guardsOf d s.sh + holders d (s.pcs.set i (entry op))
          omega
      | run i x y sh hx hr =>
        have h1 := holders_set (d := d) y hx
        have hle : ind d x ≤ holders d s.pcs := by
          unfold ind
          split
          · rename_i e
            exact countP_pos_of_get (p := fun x : PC => x.shared == some d) hx (by simp [e])
          · exact Nat.zero_le _
        have h2 := (count_ran (d := d) hr (by omega)).2 (fun g g' e => hn i g g' (by rw [hx, e]))
        refine ⟨?_, ?_⟩
        · intro j g g' hz
          rcases set_get hz with ⟨rfl, e, -⟩ | ⟨-, hz⟩
          · cases hr <;> cases e
          · exact hn j g g' hz
        · show sh.readers d = guardsOf d sh + holders d (s.pcs.set i y)
          omega
  exact this.2

/-- Nobody uses the datum through a lessee: no guard of it, and no thread inside `lock_with_exception`, `->` or
`*` with the lock taken. -/
def Unused (d : Nat) (s : Conf prog) : Prop :=
  (∀ g : Nat, s.sh.guards[g]? ≠ some (some (some d))) ∧
  ∀ j : Nat, (∀ m, s.pcs[j]? ≠ some (.gChk d m)) ∧ s.pcs[j]? ≠ some (.gFail d) ∧ s.pcs[j]? ≠ some (.aUnl d)

theorem unused_count {d : Nat} {s : Conf prog} (h : Unused d s) : guardsOf d s.sh = 0 ∧ holders d s.pcs = 0 := by
  constructor
  · unfold guardsOf
    rw [List.countP_eq_zero]
    intro c hc e
    obtain ⟨g, hg⟩ := List.getElem?_of_mem hc
    have : c = some (some d) := by simpa using e
    exact h.1 g (by rw [hg, this])
  · unfold holders
    rw [List.countP_eq_zero]
    intro x hx e
    obtain ⟨j, hj⟩ := List.getElem?_of_mem hx
    have e : x.shared = some d := by simpa using e
    have := h.2 j
    cases x with
    | gChk d' m => cases e; exact this.1 m hj
    | gFail d' => cases e; exact this.2.1 hj
    | aUnl d' => cases e; exact this.2.2 hj
    | _ => cases e

/-- C70, what holds of guards: if guards are not assigned, they release their locks: a thread that waits in
`reset()` can go on as soon as the datum is not used.  Missing: assignment of guards. -/
theorem C70_guard_partial {n : Nat} {s : Conf prog} (h : prog.system.ReachableBy noAssign (init n) s) {i o d : Nat}
    {k : After} (hx : s.pcs[i]? = some (.rAcq o d k)) (hu : Unused d s) :
    ∃ s', prog.system.step s (.run i) = some s' ∧ s'.pcs[i]? = some (.rDel o d k) := by
  have hi := inv h.reachable
  have hr := exact_readers h d
  obtain ⟨h1, h2⟩ := unused_count hu
  have hw : s.sh.writer d = none := by
    cases hw : s.sh.writer d with
    | none => rfl
    | some j =>
      obtain ⟨x, hj⟩ := hi.at_ d j hw
      have he := (hi.writer j x d hj).2 hw
      have := hi.relUniq _ _ _ _ _ hj hx (excl_rel he) rfl
      subst this
      rw [hx] at hj
      cases hj
      cases he
  have hrun : run i s.sh (.rAcq o d k) =
      some ({ s.sh with writer := upd s.sh.writer d (some i) }, .rDel o d k, false) := if_pos ⟨hw, by omega⟩
  refine ⟨⟨{ s.sh with writer := upd s.sh.writer d (some i) }, s.pcs.set i (.rDel o d k)⟩, ?_, get_set_self hx⟩
  show prog.step s (.run i) = _
  simp only [Prog.step, hx, Option.bind_some]
  rw [hrun]
  rfl

/-! ### Progress -/

theorem active {x : PC} (h : ∀ r, x ≠ .idle r) : prog.Active x := by
  refine ⟨?_, rfl, rfl⟩
  intro op
  cases x with
  | idle r => exact absurd rfl (h r)
  | _ => rfl

/-- The states of an execution whose clients start only calls in `A`. -/
theorem at_reachable {A : Op → Prop} {n : Nat} (e : prog.system.Execution)
    (h0 : e.at_ 0 = init n) (hA : ∀ n l, e.label n = some l → l.Allowed A) (m : Nat) :
    prog.system.ReachableBy A (init n) (e.at_ m) := by
  induction m with
  | zero => rw [h0]; exact .init
  | succ m ih =>
    rcases e.next m with ⟨-, h⟩ | ⟨l, hl, h⟩
    · rw [h]; exact ih
    · exact .step ih (hA m l hl) h

section
variable (e : prog.system.Execution) (hf : e.Fair)
include hf

/-- A thread that nothing blocks takes its step. -/
theorem moves (i : Nat) (x : PC) (hx : ∀ r, x ≠ .idle r) (Q : Conf prog → Prop)
    (hable : ∀ s : Sh, (run i s x).isSome)
    (hdone : ∀ (s : Conf prog) (sh : Sh) (y : PC), Ran i s.sh x sh y →
      ∀ s' : Conf prog, s'.sh = sh → s'.pcs[i]? = some y → Q s') :
    e.LeadsTo (fun s => s.pcs[i]? = some x) Q := by
  refine Prog.free_step e hf (fun _ => True) (fun _ => trivial) i x (active hx) Q (fun s _ _ => hable s.sh) ?_
  intro s s' _ _ hx hs
  obtain ⟨sh, y, b, h1, h2, h3⟩ := Prog.stepped_run hs hx
  exact hdone s sh y (run_ran h1).1 s' h2 h3

/-- A thread that releases a datum ends the exclusive lock. -/
theorem excl_frees (d j : Nat) :
    e.LeadsTo (fun s => ∃ x, s.pcs[j]? = some x ∧ x.excl = some d) (fun s => s.sh.writer d = none) := by
  have unl : ∀ o k, e.LeadsTo (fun s => s.pcs[j]? = some (.rUnl o d k)) (fun s => s.sh.writer d = none) := by
    intro o k
    refine moves e hf j _ (by nofun) _ (fun _ => rfl) ?_
    intro s sh y hr s' h1 h2
    cases hr
    rw [h1]
    exact upd_same _ _ _
  have nul : ∀ o k, e.LeadsTo (fun s => s.pcs[j]? = some (.rNull o d k)) (fun s => s.sh.writer d = none) := by
    intro o k
    refine (moves e hf j _ (by nofun) (fun s => s.pcs[j]? = some (.rUnl o d k)) (fun _ => rfl) ?_).trans (unl o k)
    intro s sh y hr s' h1 h2
    cases hr
    exact h2
  have del : ∀ o k, e.LeadsTo (fun s => s.pcs[j]? = some (.rDel o d k)) (fun s => s.sh.writer d = none) := by
    intro o k
    refine (moves e hf j _ (by nofun) (fun s => s.pcs[j]? = some (.rNull o d k) ∨ s.pcs[j]? = some (.rUnl o d k))
      ?_ ?_).trans ((nul o k).or (unl o k))
    · intro s
      show (if s.alive d then _ else _ : Option (Sh × PC × Bool)).isSome
      split <;> rfl
    · intro s sh y hr s' h1 h2
      cases hr with
      | rDel _ _ _ _ => exact Or.inl h2
      | rSkip _ _ _ _ => exact Or.inr h2
  intro n ⟨x, hx, he⟩
  cases x with
  | rDel o d' k => cases he; exact del o k n hx
  | rNull o d' k => cases he; exact nul o k n hx
  | rUnl o d' k => cases he; exact unl o k n hx
  | _ => cases he

/-- `lock()` finds the mutex free of writers again and again. -/
theorem writer_frees {n : Nat} (h0 : e.at_ 0 = init n) (d : Nat) :
    e.LeadsTo (fun _ => True) (fun s => s.sh.writer d = none) := by
  intro m _
  cases hw : (e.at_ m).sh.writer d with
  | none => exact ⟨m, Nat.le_refl m, hw⟩
  | some j =>
    have hi := inv (at_reachable (A := fun _ => True) e h0 (fun _ l _ => Label.allowed_true l) m)
    obtain ⟨x, hj⟩ := hi.at_ d j hw
    exact excl_frees e hf d j m ⟨x, hj, (hi.writer j x d hj).2 hw⟩

/-- C68: in every fair execution every call of `lock()`, `lock_with_exception()`, `->` and `*` returns. -/
theorem C68_returns {n : Nat} (h0 : e.at_ 0 = init n) (i l : Nat) (m : Mode) :
    e.LeadsTo (fun s => s.pcs[i]? = some (.gTest l m)) (fun s => ∃ r, s.pcs[i]? = some (.idle r)) := by
  have use : ∀ d, e.LeadsTo (fun s => s.pcs[i]? = some (.aUse d)) (fun s => ∃ r, s.pcs[i]? = some (.idle r)) := by
    intro d
    refine moves e hf i _ (by nofun) _ (fun _ => rfl) ?_
    intro s sh y hr s' h1 h2
    cases hr
    exact ⟨_, h2⟩
  have unl : ∀ d, e.LeadsTo (fun s => s.pcs[i]? = some (.aUnl d)) (fun s => ∃ r, s.pcs[i]? = some (.idle r)) := by
    intro d
    refine (moves e hf i _ (by nofun) (fun s => s.pcs[i]? = some (.aUse d)) (fun _ => rfl) ?_).trans (use d)
    intro s sh y hr s' h1 h2
    cases hr
    exact h2
  have fail : ∀ d, e.LeadsTo (fun s => s.pcs[i]? = some (.gFail d)) (fun s => ∃ r, s.pcs[i]? = some (.idle r)) := by
    intro d
    refine moves e hf i _ (by nofun) _ (fun _ => rfl) ?_
    intro s sh y hr s' h1 h2
    cases hr
    exact ⟨_, h2⟩
  have chk : ∀ d, e.LeadsTo (fun s => s.pcs[i]? = some (.gChk d m)) (fun s => ∃ r, s.pcs[i]? = some (.idle r)) := by
    intro d
    refine (moves e hf i _ (by nofun) (fun s => (s.pcs[i]? = some (.aUnl d) ∨ s.pcs[i]? = some (.gFail d)) ∨
      ∃ r, s.pcs[i]? = some (.idle r)) ?_ ?_).trans (((unl d).or (fail d)).or (.refl e fun _ h => h))
    · intro s
      show (if s.alive d then (if m = .access then _ else _) else _ : Option (Sh × PC × Bool)).isSome
      split
      · split <;> rfl
      · rfl
    · intro s sh y hr s' h1 h2
      cases hr with
      | gAccess _ _ => exact Or.inl (Or.inl h2)
      | gOk _ _ _ _ => exact Or.inr ⟨_, h2⟩
      | gBad _ _ _ => exact Or.inl (Or.inr h2)
  have acq : ∀ d, e.LeadsTo (fun s => s.pcs[i]? = some (.gAcq d m)) (fun s => ∃ r, s.pcs[i]? = some (.idle r)) := by
    intro d
    have h1 : e.LeadsTo (fun s => s.pcs[i]? = some (.gAcq d m)) (fun s => s.pcs[i]? = some (.gChk d m) ∨
        ∃ r, s.pcs[i]? = some (.idle r)) := by
      refine Prog.acquire e hf (fun _ => True) (fun _ => trivial) i _ (active (by nofun)) (fun _ => True)
        (fun s => s.writer d = none) _ (fun _ _ _ => trivial) (fun k _ => writer_frees e hf h0 d k trivial) ?_ ?_
      · intro s _ _ hw
        show (if (s.sh.writer d).isSome then none else
          if m = .plain then _ else _ : Option (Sh × PC × Bool)).isSome
        rw [hw]
        rw [if_neg (by nofun)]
        split <;> rfl
      · intro s s' _ _ hx hs
        obtain ⟨sh, y, b, h1, h2, h3⟩ := Prog.stepped_run hs hx
        cases (run_ran (i := i) (x := .gAcq d m) h1).1 with
        | gLock _ _ => exact Or.inr ⟨_, h3⟩
        | gAcq _ _ _ _ => exact Or.inl h3
    exact h1.trans ((chk d).or (.refl e fun _ h => h))
  have h1 : e.LeadsTo (fun s => s.pcs[i]? = some (.gTest l m)) (fun s => (∃ d, s.pcs[i]? = some (.gAcq d m)) ∨
      ∃ r, s.pcs[i]? = some (.idle r)) := by
    refine moves e hf i _ (by nofun) _ ?_ ?_
    · intro s
      simp only [run]
      split
      · split <;> rfl
      · rfl
    · intro s sh y hr s' h1 h2
      cases hr with
      | gNone _ _ => exact Or.inr ⟨_, h2⟩
      | gThrow _ _ _ _ => exact Or.inr ⟨_, h2⟩
      | gSome _ _ d _ => exact Or.inl ⟨d, h2⟩
  refine h1.trans ?_
  intro k hk
  rcases hk with ⟨d, hd⟩ | h
  · exact acq d k hd
  · exact ⟨k, Nat.le_refl k, h⟩

/-- C70, what holds of guards: if guards are not assigned and the datum is unused again and again, every call
that releases it (`reset()`, the destructor of the owner, an assignment to it) returns.  Missing: assignment of
guards. -/
theorem C70_returns_partial {n : Nat} (h0 : e.at_ 0 = init n)
    (hA : ∀ n l, e.label n = some l → l.Allowed noAssign) {d : Nat}
    (hu : e.LeadsTo (fun _ => True) (Unused d)) (i o : Nat) (k : After) :
    e.LeadsTo (fun s => s.pcs[i]? = some (.rAcq o d k)) (fun s => ∃ r, s.pcs[i]? = some (.idle r)) := by
  have next : e.LeadsTo (fun s => s.pcs[i]? = some (.oNext o k)) (fun s => ∃ r, s.pcs[i]? = some (.idle r)) := by
    refine moves e hf i _ (by nofun) _ ?_ ?_
    · intro s
      cases k with
      | stop => rfl
      | null => rfl
      | give =>
        simp only [run]
        split <;> rfl
      | move o' =>
        simp only [run]
        split <;> rfl
    · intro s sh y hr s' h1 h2
      cases hr <;> exact ⟨_, h2⟩
  have unl : e.LeadsTo (fun s => s.pcs[i]? = some (.rUnl o d k)) (fun s => ∃ r, s.pcs[i]? = some (.idle r)) := by
    refine (moves e hf i _ (by nofun) (fun s => s.pcs[i]? = some (.oNext o k)) (fun _ => rfl) ?_).trans next
    intro s sh y hr s' h1 h2
    cases hr
    exact h2
  have nul : e.LeadsTo (fun s => s.pcs[i]? = some (.rNull o d k)) (fun s => ∃ r, s.pcs[i]? = some (.idle r)) := by
    refine (moves e hf i _ (by nofun) (fun s => s.pcs[i]? = some (.rUnl o d k)) (fun _ => rfl) ?_).trans unl
    intro s sh y hr s' h1 h2
    cases hr
    exact h2
  have del : e.LeadsTo (fun s => s.pcs[i]? = some (.rDel o d k)) (fun s => ∃ r, s.pcs[i]? = some (.idle r)) := by
    refine (moves e hf i _ (by nofun) (fun s => s.pcs[i]? = some (.rNull o d k) ∨ s.pcs[i]? = some (.rUnl o d k))
      ?_ ?_).trans (nul.or unl)
    · intro s
      show (if s.alive d then _ else _ : Option (Sh × PC × Bool)).isSome
      split <;> rfl
    · intro s sh y hr s' h1 h2
      cases hr with
      | rDel _ _ _ _ => exact Or.inl h2
      | rSkip _ _ _ _ => exact Or.inr h2
  refine System.Execution.LeadsTo.trans (Q := fun s : Conf prog => s.pcs[i]? = some (.rDel o d k)) ?_ del
  intro m hm
  obtain ⟨m', hm', hx, -, hs⟩ := e.runs_when hf i
    (fun s => s.pcs[i]? = some (.rAcq o d k) ∧ prog.system.ReachableBy (fun _ => True) (init n) s)
    (fun s => Unused d s ∧ prog.system.ReachableBy noAssign (init n) s)
    (fun s l s' ⟨hx, hr⟩ hl hs => ⟨Prog.frame_active (Prog.step_stepped hs) hx (active (by nofun)) hl,
      .step hr (Label.allowed_true l) hs⟩)
    m ⟨hm, at_reachable e h0 (fun _ l _ => Label.allowed_true l) m⟩
    (fun m1 _ => by
      obtain ⟨m2, h2, h3⟩ := hu m1 trivial
      exact ⟨m2, h2, h3, at_reachable e h0 hA m2⟩)
    (fun s ⟨hx, _⟩ ⟨hu, hr⟩ => by
      obtain ⟨s', h1, -⟩ := C70_guard_partial hr hx hu
      rw [h1]
      rfl)
  refine ⟨m' + 1, Nat.le_succ_of_le hm', ?_⟩
  obtain ⟨sh, y, b, h1, -, h3⟩ := Prog.stepped_run (Prog.step_stepped hs) hx.1
  cases (run_ran (i := i) (x := .rAcq o d k) h1).1
  exact h3

end

/-! ### C90 -/

/-- Two threads are about to access `reference_` of the same datum without synchronisation, one of them to
write. -/
def Race (d : Nat) (s : Conf prog) : Prop :=
  ∃ (i j o : Nat) (k : After), s.pcs[i]? = some (.rNull o d k) ∧ s.pcs[j]? = some (.vRead d)

/-- C90 is false: `operator bool` of a lessee reads without lock what `reset()` of the owner writes. -/
theorem C90_negation : ∃ s, prog.system.Reachable (init 2) s ∧ Race 0 s := by
  refine ⟨_, prog.system.exec_reachable' ([.start 0 (.give 0), .run 0, .run 0, .start 0 (.lease 0 0), .run 0,
    .start 1 (.valid 0), .run 1, .start 0 (.reset 0), .run 0, .run 0, .run 0] : List (Label Op)) rfl,
    0, 1, 0, .stop, rfl, rfl⟩

/-- C90, what holds: the validity is not read while it is written by the functions that take the lock (`lock`
with exception, `->`, `*`), nor through a guard. -/
theorem C90_locked_partial {n : Nat} {s : Conf prog} (h : prog.system.Reachable (init n) s) {i o d : Nat} {k : After}
    (hx : s.pcs[i]? = some (.rNull o d k)) :
    (∀ g : Nat, s.sh.guards[g]? ≠ some (some (some d))) ∧ ∀ (j : Nat) (m : Mode), s.pcs[j]? ≠ some (.gChk d m) := by
  have hi := inv h
  have hw := (hi.writer i _ d hx).1 rfl
  refine ⟨fun g hg => ?_, fun j m hj => ?_⟩
  · have := guard_readers hi hg
    rw [hw] at this
    cases this
  · have := shared_readers hi hj rfl
    rw [hw] at this
    cases this

/-! ### Cases -/

/-- A datum is given to owner 0, leased to lessee 0, and locked (guard 0) by thread 1; thread 0 calls `reset()`
and waits. -/
def blocked : List (Label Op) :=
  [.start 0 (.give 0), .run 0, .run 0, .start 0 (.lease 0 0), .run 0,
   .start 1 (.lockExc 0), .run 1, .run 1, .run 1, .start 0 (.reset 0), .run 0]

/-- Then the guard is destroyed and the datum is deleted. -/
def resumed : List (Label Op) :=
  [.start 1 (.destroyGuard 0), .run 1, .run 0, .run 0, .run 0, .run 0, .run 0]

/-- C67_guard, C67_keeps: the guard keeps the datum while the owner waits. -/
example : ∃ s, prog.system.Reachable (init 2) s ∧ s.pcs[0]? = some (.rAcq 0 0 .stop) ∧
    s.sh.guards[0]? = some (some (some 0)) ∧ s.sh.alive 0 = true ∧ s.sh.deleted = [] ∧
    prog.system.step s (.run 0) = none :=
  ⟨_, prog.system.exec_reachable' blocked rfl, rfl, rfl, rfl, rfl, rfl⟩

/-- C67_once, C67_released, C67_call, C68_gone: afterwards the datum is deleted, and the lessee is not valid. -/
example : ∃ s, prog.system.Reachable (init 2) s ∧ s.pcs[0]? = some (.idle (some .done)) ∧
    s.sh.deleted = [0] ∧ s.sh.lessees 0 = some 0 ∧ (∃ s', prog.system.exec s ([.start 1 (.valid 0), .run 1, .run 1] :
      List (Label Op)) = some s' ∧ s'.pcs[1]? = some (.idle (some (.bool false)))) ∧
    ∃ s', prog.system.exec s ([.start 1 (.lockExc 0), .run 1, .run 1, .run 1, .run 1] :
      List (Label Op)) = some s' ∧ s'.pcs[1]? = some (.idle (some .valueAccess)) :=
  ⟨_, prog.system.exec_reachable' (blocked ++ resumed) rfl, rfl, rfl, rfl, ⟨_, rfl, rfl⟩, _, rfl, rfl⟩

/-- C68_empty: `lock()` after the release gives an empty guard. -/
example : ∃ s, prog.system.Reachable (init 2) s ∧ s.sh.guards[1]? = some (some (some 0)) ∧
    s.pcs[1]? = some (.useGuard 1) ∧ ∃ s', prog.system.step s (.run 1) = some s' ∧
      s'.pcs[1]? = some (.idle (some .null)) :=
  ⟨_, prog.system.exec_reachable' (blocked ++ resumed ++ ([.start 1 (.lock 0), .run 1, .run 1, .start 1 (.useGuard 1)] :
    List (Label Op))) rfl, rfl, rfl, _, rfl, rfl⟩

/-- C68_held, C69_guarded_partial: a guard is used while the owner has the datum. -/
example : ∃ s, prog.system.Reachable (init 2) s ∧ s.sh.owners 0 = some 0 ∧ s.pcs[1]? = some (.useGuard 0) ∧
    s.sh.guards[0]? = some (some (some 0)) :=
  ⟨_, prog.system.exec_reachable' ([.start 0 (.give 0), .run 0, .run 0, .start 0 (.lease 0 0), .run 0,
    .start 1 (.lock 0), .run 1, .run 1, .start 1 (.useGuard 0)] : List (Label Op)) rfl, rfl, rfl, rfl⟩

/-- C67_null, C68_lease, C68_found: `reset(nullptr)` of an owner with a datum; a check of a leased lessee. -/
example : ∃ s, prog.system.Reachable (init 2) s ∧ s.sh.owners 0 = some 0 ∧ s.sh.lessees 0 = some 0 ∧
    s.pcs[0]? = some (entry (.giveNull 0)) ∧ s.pcs[1]? = some (entry (.valid 0)) ∧
    (∃ s', prog.system.exec s (List.replicate 6 (.run 0)) = some s' ∧
      s'.pcs[0]? = some (.idle (some .initialization))) ∧
    ∃ s', prog.system.exec s (List.replicate 2 (.run 1)) = some s' ∧
      s'.pcs[1]? = some (.idle (some (.bool true))) ∧ s'.sh.owners 0 = some 0 :=
  ⟨_, prog.system.exec_reachable' ([.start 0 (.give 0), .run 0, .run 0, .start 0 (.lease 0 0), .run 0,
    .start 0 (.giveNull 0), .start 1 (.valid 0)] : List (Label Op)) rfl, rfl, rfl, rfl, rfl,
    ⟨_, rfl, rfl⟩, _, rfl, rfl, rfl⟩

/-- C70_owner_partial: one owner is assigned to another. -/
example : ∃ s, prog.system.Reachable (init 1) s ∧ s.pcs[0]? = some (entry (.moveOwner 0 1)) ∧
    s.sh.owners 0 = some 0 ∧ s.sh.owners 1 = some 1 ∧ s.sh.readers 0 = 0 :=
  ⟨_, prog.system.exec_reachable' ([.start 0 (.give 0), .run 0, .run 0, .start 0 (.give 1), .run 0, .run 0,
    .start 0 (.moveOwner 0 1)] : List (Label Op)) rfl, rfl, rfl, rfl, rfl⟩

/-- Thread 1 moves its guard and destroys the new one. -/
def moved : List (Label Op) := [.start 1 (.moveGuard 0), .run 1, .start 1 (.destroyGuard 1), .run 1]

theorem unused_of {d : Nat} {s : Conf prog} (h1 : ∀ c ∈ s.sh.guards, c ≠ some (some d))
    (h2 : ∀ x ∈ s.pcs, x.shared ≠ some d) : Unused d s := by
  refine ⟨fun g h => h1 _ (List.mem_of_getElem? h) rfl, fun j => ⟨fun m h => ?_, fun h => ?_, fun h => ?_⟩⟩
  all_goals exact h2 _ (List.mem_of_getElem? h) rfl

/-- C70_guard_partial: `reset()` of a datum whose guard was moved and destroyed. -/
example : ∃ s, prog.system.ReachableBy noAssign (init 2) s ∧ s.pcs[0]? = some (.rAcq 0 0 .stop) ∧ Unused 0 s := by
  have : ∃ s, prog.system.exec (init 2) (blocked ++ moved) = some s ∧ s.sh.guards = [some none, none] ∧
    s.pcs = [.rAcq 0 0 .stop, .idle (some .done)] := ⟨_, rfl, rfl, rfl⟩
  obtain ⟨s, he, hg, hp⟩ := this
  refine ⟨s, prog.system.exec_reachable (blocked ++ moved) ?_ .init he, by rw [hp]; rfl,
    unused_of (by rw [hg]; decide) (by rw [hp]; decide)⟩
  simp [blocked, moved, Label.Allowed, noAssign]

/-- C70_returns_partial and C68_returns: a fair execution of this. -/
example : ∃ e : prog.system.Execution, e.Fair ∧ e.at_ 0 = init 2 ∧
    (∀ n l, e.label n = some l → l.Allowed noAssign) ∧ e.LeadsTo (fun _ => True) (Unused 0) ∧
    (e.at_ 6).pcs[1]? = some (.gTest 0 .exc) ∧ (e.at_ 11).pcs[0]? = some (.rAcq 0 0 .stop) := by
  have : ∃ s, prog.system.exec (init 2) (blocked ++ resumed) = some s ∧ s.sh.guards = [none] ∧
    s.pcs = [.idle (some .done), .idle (some .done)] := ⟨_, rfl, rfl, rfl⟩
  obtain ⟨s, h1, hg, hp⟩ := this
  obtain ⟨e, hf, e0, hst, hlab⟩ := prog.system.finite_fair' _ s (blocked ++ resumed) h1 (by
    intro i
    show prog.step s (.run i) = none
    simp only [Prog.step, hp]
    match i with
    | 0 => rfl
    | 1 => rfl
    | i + 2 => rfl)
  refine ⟨e, hf, e0, ?_, ?_, ?_, ?_⟩
  · intro n l h
    have key : ∀ l ∈ blocked ++ resumed, Label.Allowed noAssign l := by
      simp [blocked, resumed, Label.Allowed, noAssign]
    exact key l (List.mem_of_getElem? ((hlab n).symm.trans h))
  · intro m _
    obtain ⟨s', hs', he'⟩ := hst (m + 18)
    have ht : (blocked ++ resumed).take (m + 18) = blocked ++ resumed :=
      List.take_of_length_le (by show 18 ≤ _; omega)
    have := h1.symm.trans ((congrArg _ ht).symm.trans hs')
    refine ⟨m + 18, by omega, ?_⟩
    rw [he', ← Option.some.inj this]
    exact unused_of (by rw [hg]; decide) (by rw [hp]; decide)
  · obtain ⟨s, hs, he⟩ := hst 6
    rw [he]
    cases hs
    rfl
  · obtain ⟨s, hs, he⟩ := hst 11
    rw [he]
    cases hs
    rfl

/-- C90_locked_partial: `reset()` is just writing the reference. -/
example : ∃ s, prog.system.Reachable (init 2) s ∧ s.pcs[0]? = some (.rNull 0 0 .stop) :=
  ⟨_, prog.system.exec_reachable' (blocked ++ moved ++ ([.run 0, .run 0] : List (Label Op))) rfl, rfl⟩

end Verif.OwnerPtr
