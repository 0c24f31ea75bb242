import Verif.Lemmas.SlotThreadPoolInv
/-!
The threads of a `SlotThreadPool` that is enabled and disabled by one thread.
-/
namespace Verif.SlotThreadPool
open Verif.Threads

variable {T : Type}

/-- Within `enable` or `disable`. -/
def PC.control : PC T → Bool
  | .enableTest => true
  | .spawn _ => true
  | .disableTest => true
  | .disableCall => true
  | .joining _ => true
  | _ => false

/-- A thread of the pool that runs. -/
def PC.live : PC T → Bool
  | .next => true
  | .consuming => true
  | .look _ => true
  | .exec _ _ => true
  | .inside _ _ => true
  | _ => false

/-- The threads of the pool at each point of `enable` and `disable` of the controlling thread. -/
def Phase (s : State T) : PC T → Prop
  | .spawn k => s.enabled = true ∧ s.threads.length + k = s.n
  | .disableCall => s.enabled = false ∧ s.threads.length = s.n
  | .joining l => s.enabled = false ∧ s.threads.length = s.n ∧
      ∀ (j : Nat) (y : PC T), s.pcs[j]? = some y → y.live = true → j ∈ l
  | _ => (s.enabled = true → s.threads.length = s.n) ∧ (s.enabled = false → s.threads = [])

structure Ctl (s : State T) : Prop where
  only : ∀ (i : Nat) (x : PC T), s.pcs[i]? = some x → x.control = true → i = 0
  zero : ∀ x, s.pcs[0]? = some x → x.live = false ∧ x ≠ .dormant
  member : ∀ (j : Nat) (x : PC T), s.pcs[j]? = some x → x.live = true → j ∈ s.threads
  most : s.pcs.countP PC.live ≤ s.threads.length
  phase : ∀ x, s.pcs[0]? = some x → Phase s x

theorem ctl_set {s s' : State T} {i : Nat} {x y : PC T} (h : Ctl s) (hx : s.pcs[i]? = some x)
    (hp : s'.pcs = s.pcs.set i y) (he : s'.enabled = s.enabled) (ht : s'.threads = s.threads)
    (hn : s'.n = s.n) (hl : y.live = true → x.live = true) (hd : y = .dormant → x = .dormant)
    (hc : y.control = true → i = 0) (h0 : i = 0 → Phase s x → Phase s' y) : Ctl s' := by
  have hlive : ∀ (j : Nat) (z : PC T), s'.pcs[j]? = some z → z.live = true →
      ∃ z', s.pcs[j]? = some z' ∧ z'.live = true := by
    intro j z hz hlz
    rw [hp] at hz
    rcases set_get hz with ⟨e, ez, -⟩ | ⟨-, hz⟩
    · subst e; subst ez; exact ⟨x, hx, hl hlz⟩
    · exact ⟨z, hz, hlz⟩
  refine ⟨?_, ?_, ?_, ?_, ?_⟩
  · intro j z hz hcz
    rw [hp] at hz
    rcases set_get hz with ⟨e, ez, -⟩ | ⟨-, hz⟩
    · subst e; subst ez; exact hc hcz
    · exact h.only j z hz hcz
  · intro z hz
    rw [hp] at hz
    rcases set_get hz with ⟨e, ez, -⟩ | ⟨-, hz⟩
    · subst e; subst ez
      obtain ⟨a, b⟩ := h.zero x hx
      refine ⟨?_, fun e => b (hd e)⟩
      cases hz : z.live with
      | false => rfl
      | true => rw [hl hz] at a; exact a
    · exact h.zero z hz
  · intro j z hz hlz
    obtain ⟨z', hz', hl'⟩ := hlive j z hz hlz
    rw [ht]; exact h.member j z' hz' hl'
  · have := countP_set PC.live y hx
    have hm := h.most
    rw [hp, ht]
    cases hy : y.live with
    | false => rw [hy] at this; simp only [Bool.false_eq_true, if_false] at this; omega
    | true => rw [hy, hl hy] at this; simp only [if_true] at this; omega
  · intro z hz
    rw [hp] at hz
    rcases set_get hz with ⟨e, ez, -⟩ | ⟨hne, hz⟩
    · subst ez
      exact h0 e.symm (h.phase x (e ▸ hx))
    · have hph := h.phase z hz
      cases z with
      | joining l =>
        obtain ⟨a, b, c⟩ := hph
        refine ⟨he.trans a, by rw [ht, hn]; exact b, ?_⟩
        intro j y' hy' hl'
        obtain ⟨z', hz', hl''⟩ := hlive j y' hy' hl'
        exact c j z' hz' hl''
      | spawn k => obtain ⟨a, b⟩ := hph; exact ⟨he.trans a, by rw [ht, hn]; exact b⟩
      | disableCall => obtain ⟨a, b⟩ := hph; exact ⟨he.trans a, by rw [ht, hn]; exact b⟩
      | _ =>
        obtain ⟨a, b⟩ := hph
        refine ⟨?_, ?_⟩
        · intro e; rw [ht, hn]; exact a (he ▸ e)
        · intro e; rw [ht]; exact b (he ▸ e)

theorem ctl_same {s s' : State T} (h : Ctl s) (hp : s'.pcs = s.pcs) (he : s'.enabled = s.enabled)
    (ht : s'.threads = s.threads) (hn : s'.n = s.n) : Ctl s' := by
  refine ⟨by rw [hp]; exact h.only, by rw [hp]; exact h.zero, by rw [hp, ht]; exact h.member,
    by rw [hp, ht]; exact h.most, ?_⟩
  intro x hx
  rw [hp] at hx
  have := h.phase x hx
  cases x with
  | joining l => simp only [Phase, he, ht, hn, hp] at this ⊢; exact this
  | _ => simp only [Phase, he, ht, hn] at this ⊢; exact this

theorem Phase.of_default {s s' : State T} {y : PC T}
    (h : (s'.enabled = true → s'.threads.length = s'.n) ∧ (s'.enabled = false → s'.threads = []))
    (h1 : y.control = false) : Phase s' y := by
  cases y <;> first | exact h | cases h1

/-- Only thread 0 calls `enable` and `disable`. -/
def ControlOnly : Label (Op T) → Prop
  | .start i .enable => i = 0
  | .start i .disable => i = 0
  | _ => True

theorem ctl_step {s s' : State T} {l : Label (Op T)} (h : Ctl s) (hl : ControlOnly l)
    (hs : Stepped s l s') : Ctl s' := by
  cases hs with
  | spurious i q hq => exact ctl_same h rfl rfl rfl rfl
  | timeout i q hq => exact ctl_same h rfl rfl rfl rfl
  | start i r op hx =>
    refine ctl_set (y := entry op) h hx rfl rfl rfl rfl ?_ ?_ ?_ ?_
    · cases op <;> nofun
    · cases op <;> nofun
    · cases op <;> first | exact fun _ => hl | nofun
    · intro _ hp
      cases op <;> exact hp
  | run i x s' hx hr =>
    cases hr with
    | stay x q hc hq hn => exact ctl_same h rfl rfl rfl rfl
    | enableSkip he => exact ctl_set h hx rfl rfl rfl rfl nofun nofun nofun fun _ hp => hp
    | enableStore he =>
      have h0 := h.only i _ hx rfl
      subst h0
      have hp := (h.phase _ hx).2 he
      refine ⟨?_, ?_, ?_, ?_, ?_⟩
      · intro j z hz hc
        rcases set_get hz with ⟨e, -, -⟩ | ⟨-, hz⟩
        · exact e
        · exact h.only j z hz hc
      · intro z hz
        have hz : (s.pcs.set 0 (.spawn s.n))[0]? = some z := hz
        rw [get_set_self hx] at hz
        cases hz
        exact ⟨rfl, nofun⟩
      · intro j z hz hlz
        rcases set_get hz with ⟨-, e, -⟩ | ⟨-, hz⟩
        · subst e; cases hlz
        · exact h.member j z hz hlz
      · have := countP_set PC.live (.spawn s.n) hx
        have hm := h.most
        simp only [PC.live, Bool.false_eq_true, if_false] at this
        show (s.pcs.set 0 (.spawn s.n)).countP PC.live ≤ s.threads.length
        omega
      · intro z hz
        have hz : (s.pcs.set 0 (.spawn s.n))[0]? = some z := hz
        rw [get_set_self hx] at hz
        cases hz
        refine ⟨rfl, ?_⟩
        show s.threads.length + s.n = s.n
        rw [hp]
        exact Nat.zero_add _
    | spawnEnd =>
      refine ctl_set h hx rfl rfl rfl rfl nofun nofun nofun fun _ hp => ?_
      obtain ⟨a, b⟩ := hp
      refine ⟨fun _ => b, fun e => ?_⟩
      have : s.enabled = false := e
      rw [a] at this
      cases this
    | spawnOne k j hj =>
      have h0 := h.only i _ hx rfl
      subst h0
      obtain ⟨a, b⟩ := h.phase _ hx
      have hne : (0 : Nat) ≠ j := by
        rintro rfl
        rw [hx] at hj
        cases hj
      have hx' : (s.pcs.set j .next)[0]? = some (.spawn (k + 1)) := by rw [get_set_ne hne]; exact hx
      refine ⟨?_, ?_, ?_, ?_, ?_⟩
      · intro m z hz hc
        rcases set_get hz with ⟨e, -, -⟩ | ⟨-, hz⟩
        · exact e
        · rcases set_get hz with ⟨-, e, -⟩ | ⟨-, hz⟩
          · subst e; cases hc
          · exact h.only m z hz hc
      · intro z hz
        have hz : ((s.pcs.set j .next).set 0 (.spawn k))[0]? = some z := hz
        rw [get_set_self hx'] at hz
        cases hz
        exact ⟨rfl, nofun⟩
      · intro m z hz hlz
        rcases set_get hz with ⟨-, e, -⟩ | ⟨-, hz⟩
        · subst e; cases hlz
        · rcases set_get hz with ⟨e, -, -⟩ | ⟨-, hz⟩
          · exact List.mem_append.2 (Or.inr (by rw [e]; exact List.mem_singleton.2 rfl))
          · exact List.mem_append.2 (Or.inl (h.member m z hz hlz))
      · have h1 := countP_set PC.live .next hj
        have h2 := countP_set PC.live (.spawn k) hx'
        have hm := h.most
        simp only [PC.live, Bool.false_eq_true, if_false, if_true] at h1 h2
        show ((s.pcs.set j .next).set 0 (.spawn k)).countP PC.live ≤ (s.threads ++ [j]).length
        rw [List.length_append, List.length_singleton]
        omega
      · intro z hz
        have hz : ((s.pcs.set j .next).set 0 (.spawn k))[0]? = some z := hz
        rw [get_set_self hx'] at hz
        cases hz
        refine ⟨a, ?_⟩
        show (s.threads ++ [j]).length + k = s.n
        rw [List.length_append, List.length_singleton]
        omega
    | disableStore r he hq =>
      have h0 := h.only i _ hx rfl
      subst h0
      have hp := (h.phase _ hx).1 he
      have hc : Ctl { s with q := Counter.goto s.q 0 (.acquire .disable) } := ctl_same h rfl rfl rfl rfl
      refine ⟨?_, ?_, ?_, ?_, ?_⟩
      · intro j z hz hc
        rcases set_get hz with ⟨e, -, -⟩ | ⟨-, hz⟩
        · exact e
        · exact h.only j z hz hc
      · intro z hz
        have hz : (s.pcs.set 0 .disableCall)[0]? = some z := hz
        rw [get_set_self hx] at hz
        cases hz
        exact ⟨rfl, nofun⟩
      · intro j z hz hlz
        rcases set_get hz with ⟨-, e, -⟩ | ⟨-, hz⟩
        · subst e; cases hlz
        · exact h.member j z hz hlz
      · have := countP_set PC.live .disableCall hx
        have hm := h.most
        simp only [PC.live, Bool.false_eq_true, if_false] at this
        show (s.pcs.set 0 .disableCall).countP PC.live ≤ s.threads.length
        omega
      · intro z hz
        have hz : (s.pcs.set 0 .disableCall)[0]? = some z := hz
        rw [get_set_self hx] at hz
        cases hz
        exact ⟨rfl, hp⟩
    | disableSkip he => exact ctl_set h hx rfl rfl rfl rfl nofun nofun nofun fun _ hp => hp
    | disableRet q r hq hr =>
      refine ctl_set h hx rfl rfl rfl rfl nofun nofun (fun _ => h.only i _ hx rfl) fun h0 hp => ?_
      obtain ⟨a, b⟩ := hp
      refine ⟨a, b, ?_⟩
      intro j y hy hl
      rcases set_get hy with ⟨-, e, -⟩ | ⟨-, hy⟩
      · subst e; cases hl
      · exact h.member j y hy hl
    | joinEnd =>
      have h0 := h.only i _ hx rfl
      subst h0
      obtain ⟨a, b, c⟩ := h.phase _ hx
      have hno : ∀ (j : Nat) (z : PC T), (s.pcs.set 0 (.idle (some .done)))[j]? = some z →
          z.live = true → False := by
        intro j z hz hlz
        rcases set_get hz with ⟨-, e, -⟩ | ⟨-, hz⟩
        · subst e; cases hlz
        · exact nomatch c j z hz hlz
      refine ⟨?_, ?_, fun j z hz hlz => (hno j z hz hlz).elim, ?_, ?_⟩
      · intro j z hz hc
        rcases set_get hz with ⟨-, e, -⟩ | ⟨-, hz⟩
        · subst e; cases hc
        · exact h.only j z hz hc
      · intro z hz
        have hz : (s.pcs.set 0 (.idle (some .done)))[0]? = some z := hz
        rw [get_set_self hx] at hz
        cases hz
        exact ⟨rfl, nofun⟩
      · show (s.pcs.set 0 (.idle (some .done))).countP PC.live ≤ 0
        rcases Nat.eq_zero_or_pos ((s.pcs.set 0 (.idle (some .done))).countP PC.live) with e | e
        · rw [e]; exact Nat.le_refl _
        · obtain ⟨j, z, hz, hlz⟩ := exists_of_countP_pos _ e
          exact (hno j z hz hlz).elim
      · intro z hz
        have hz : (s.pcs.set 0 (.idle (some .done)))[0]? = some z := hz
        rw [get_set_self hx] at hz
        cases hz
        refine ⟨fun e => ?_, fun _ => rfl⟩
        have : s.enabled = true := e
        rw [a] at this
        cases this
    | joinOne j l hj =>
      refine ctl_set h hx rfl rfl rfl rfl nofun nofun (fun _ => h.only i _ hx rfl) fun h0 hp => ?_
      obtain ⟨a, b, c⟩ := hp
      refine ⟨a, b, ?_⟩
      intro m y hy hl
      rcases set_get hy with ⟨-, e, -⟩ | ⟨-, hy⟩
      · subst e; cases hl
      · rcases List.mem_cons.1 (c m y hy hl) with rfl | hm
        · rw [hj] at hy; cases hy; cases hl
        · exact hm
    | consumeRet q r hq hr =>
      refine ctl_set (y := consumed r) h hx rfl rfl rfl rfl (fun _ => rfl) ?_ ?_ fun h0 hp => ?_
      · unfold consumed; split <;> nofun
      · unfold consumed; split <;> nofun
      · subst h0
        cases (h.zero _ hx).1
    | next r hq => exact ctl_set h hx rfl rfl rfl rfl (fun _ => rfl) nofun nofun fun _ hp => hp
    | lookSome id t hm hg => exact ctl_set h hx rfl rfl rfl rfl (fun _ => rfl) nofun nofun fun _ hp => hp
    | exec id t => exact ctl_set h hx rfl rfl rfl rfl (fun _ => rfl) nofun nofun fun _ hp => hp
    | inside id t =>
      refine ctl_set (y := (s.ends s.finished.length).goes) h hx rfl rfl rfl rfl (fun _ => rfl) ?_ ?_
        fun h0 hp => ?_
      · cases s.ends s.finished.length <;> nofun
      · cases s.ends s.finished.length <;> nofun
      · subst h0
        cases (h.zero _ hx).1
    | _ =>
      refine ctl_set h hx rfl rfl rfl rfl ?_ ?_ ?_ fun _ hp => hp <;> nofun

theorem ctl_init (n c d : Nat) (picks : Nat → Nat) (ends : Nat → Ending) : Ctl (init n (c + 1) d picks ends : State T) := by
  have hpc : ∀ (j : Nat) (x : PC T), (init n (c + 1) d picks ends : State T).pcs[j]? = some x →
      x = .idle none ∨ x = .dormant := by
    intro j x hx
    rcases List.mem_append.1 (List.mem_of_getElem? hx) with h | h
    · exact Or.inl (List.eq_of_mem_replicate h)
    · exact Or.inr (List.eq_of_mem_replicate h)
  have h0 : (init n (c + 1) d picks ends : State T).pcs[0]? = some (.idle none) := rfl
  refine ⟨?_, ?_, ?_, ?_, ?_⟩
  · intro j x hx hc
    rcases hpc j x hx with rfl | rfl <;> cases hc
  · intro x hx
    rw [h0] at hx
    cases hx
    exact ⟨rfl, nofun⟩
  · intro j x hx hc
    rcases hpc j x hx with rfl | rfl <;> cases hc
  · rcases Nat.eq_zero_or_pos ((init n (c + 1) d picks ends : State T).pcs.countP PC.live) with e | e
    · rw [e]; exact Nat.zero_le _
    · obtain ⟨j, z, hz, hlz⟩ := exists_of_countP_pos _ e
      rcases hpc j z hz with rfl | rfl <;> cases hlz
  · intro x hx
    rw [h0] at hx
    cases hx
    exact ⟨nofun, fun _ => rfl⟩

theorem controlled_step {s s' : State T} {l : Label (Op T)} (h : (controlled T).step s l = some s') :
    ControlOnly l ∧ step s l = some s' := by
  cases l with
  | start i op =>
    cases op with
    | enable =>
      simp only [controlled] at h
      split at h
      · rename_i e; exact ⟨e, h⟩
      · cases h
    | disable =>
      simp only [controlled] at h
      split at h
      · rename_i e; exact ⟨e, h⟩
      · cases h
    | _ => exact ⟨trivial, h⟩
  | _ => exact ⟨trivial, h⟩

theorem length_kept {s s' : State T} {l : Label (Op T)} (hs : Stepped s l s') :
    s'.pcs.length = s.pcs.length := by
  cases hs with
  | run i x s' hx hran =>
    cases hran with
    | stay x q hc hq hn => rfl
    | spawnOne k j hj => exact (List.length_set ..).trans (List.length_set ..)
    | _ => exact List.length_set ..
  | start i r op hx => exact List.length_set ..
  | _ => rfl

theorem ctl_reachable {n c d : Nat} {picks : Nat → Nat} {ends : Nat → Ending} {s : State T}
    (hr : (controlled T).Reachable (init n (c + 1) d picks ends) s) :
    Ctl s ∧ (system T).Reachable (init n (c + 1) d picks ends) s ∧ s.n = n ∧
      0 < s.pcs.length := by
  refine System.Reachable.invariant (S := controlled T)
    (fun s => Ctl s ∧ (system T).Reachable (init n (c + 1) d picks ends) s ∧ s.n = n ∧
      0 < s.pcs.length)
    ⟨ctl_init n c d picks ends, .init, rfl, by simp [init]; omega⟩ ?_ hr
  rintro s l s' ⟨hC, hr, hn, h0⟩ hs
  obtain ⟨hl, hs⟩ := controlled_step hs
  have hst := step_stepped hs
  refine ⟨ctl_step hC hl hst, .step hr (Label.allowed_true l) hs, ?_, by rw [length_kept hst]; exact h0⟩
  rw [← hn]
  cases hst with
  | run i x s' hx hran => cases hran <;> rfl
  | _ => rfl

end Verif.SlotThreadPool
