import Verif.Model.SlotThreadPoolShared
import Verif.Lemmas.SlotThreadPoolCtl
/-!
The invariant of a `SlotThreadPool` that several threads enable and disable, but not both at once.
-/
namespace Verif.SlotThreadPool
open Verif.Threads

variable {T : Type}

/-- Past the test of `enabled_`. -/
def PC.owner : PC T → Bool
  | .spawn _ => true
  | .disableCall => true
  | .joining _ => true
  | _ => false

/-- The threads of the pool at each point of `enable` and `disable`. -/
def Owned (s : State T) : PC T → Prop
  | .spawn k => s.enabled = true ∧ s.threads.length + k = s.n
  | .disableCall => s.enabled = false ∧ s.threads.length = s.n
  | .joining l => s.enabled = false ∧ s.threads.length = s.n ∧
      ∀ j ∈ s.threads, j ∈ l ∨ s.pcs[j]? = some .ended
  | _ => True

structure Shared (s : State T) : Prop where
  one : ∀ (i j : Nat) (x y : PC T), s.pcs[i]? = some x → s.pcs[j]? = some y → x.owner = true → y.owner = true → i = j
  apart : ∀ (i j : Nat) (x y : PC T), s.pcs[i]? = some x → s.pcs[j]? = some y → x.enabling = true →
    y.disabling = true → False
  owned : ∀ (i : Nat) (x : PC T), s.pcs[i]? = some x → Owned s x
  member : ∀ (j : Nat) (x : PC T), s.pcs[j]? = some x → x.live = true → j ∈ s.threads
  most : s.pcs.countP PC.live ≤ s.threads.length
  rest : (∀ (i : Nat) (x : PC T), s.pcs[i]? = some x → x.owner = false) →
    (s.enabled = true → s.threads.length = s.n) ∧ (s.enabled = false → s.threads = [])

theorem Owned.of_not {s : State T} {x : PC T} (h : x.owner = false) : Owned s x := by
  cases x <;> first | trivial | cases h

/-- A step in which thread `i` goes from `x` to `y`, neither of them an owner, or both. -/
theorem shared_set {s s' : State T} {i : Nat} {x y : PC T} (h : Shared s) (hx : s.pcs[i]? = some x)
    (hp : s'.pcs = s.pcs.set i y) (he : s'.enabled = s.enabled) (ht : s'.threads = s.threads)
    (hn : s'.n = s.n) (hl : y.live = true → x.live = true) (hend : x ≠ .ended)
    (ho : y.owner = x.owner)
    (hE : y.enabling = true → x.enabling = true ∨ ∀ (j : Nat) (z : PC T), s.pcs[j]? = some z → z.disabling = false)
    (hD : y.disabling = true → x.disabling = true ∨ ∀ (j : Nat) (z : PC T), s.pcs[j]? = some z → z.enabling = false)
    (hED : y.enabling = true → y.disabling = true → False)
    (hO : Owned s x → Owned s' y) : Shared s' := by
  have hback : ∀ (j : Nat) (z : PC T), s'.pcs[j]? = some z → (j = i ∧ z = y) ∨ (j ≠ i ∧ s.pcs[j]? = some z) := by
    intro j z hz
    rw [hp] at hz
    rcases set_get hz with ⟨e, ez, -⟩ | ⟨hne, hz⟩
    · exact Or.inl ⟨e, ez⟩
    · exact Or.inr ⟨hne, hz⟩
  have hlive : ∀ (j : Nat) (z : PC T), s'.pcs[j]? = some z → z.live = true →
      ∃ z', s.pcs[j]? = some z' ∧ z'.live = true := by
    intro j z hz hlz
    rcases hback j z hz with ⟨e, ez⟩ | ⟨-, hz⟩
    · subst e; subst ez; exact ⟨x, hx, hl hlz⟩
    · exact ⟨z, hz, hlz⟩
  have hown : ∀ (j : Nat) (z : PC T), s'.pcs[j]? = some z → ∃ z', s.pcs[j]? = some z' ∧ z'.owner = z.owner := by
    intro j z hz
    rcases hback j z hz with ⟨e, ez⟩ | ⟨-, hz⟩
    · subst e; subst ez; exact ⟨x, hx, ho.symm⟩
    · exact ⟨z, hz, rfl⟩
  refine ⟨?_, ?_, ?_, ?_, ?_, ?_⟩
  · intro a b u v hu hv ou ov
    obtain ⟨u', hu', ou'⟩ := hown a u hu
    obtain ⟨v', hv', ov'⟩ := hown b v hv
    exact h.one a b u' v' hu' hv' (ou'.trans ou) (ov'.trans ov)
  · intro a b u v hu hv eu dv
    rcases hback a u hu with ⟨ea, eu'⟩ | ⟨hne, hu⟩
    · rcases hback b v hv with ⟨eb, ev'⟩ | ⟨hne', hv⟩
      · subst eu'; subst ev'; exact hED eu dv
      · subst eu'
        rcases hE eu with hx' | hx'
        · exact h.apart i b x v hx hv hx' dv
        · rw [hx' b v hv] at dv; cases dv
    · rcases hback b v hv with ⟨eb, ev'⟩ | ⟨hne', hv⟩
      · subst ev'
        rcases hD dv with hx' | hx'
        · exact h.apart a i u x hu hx eu hx'
        · rw [hx' a u hu] at eu; cases eu
      · exact h.apart a b u v hu hv eu dv
  · intro j z hz
    rcases hback j z hz with ⟨e, ez⟩ | ⟨hne, hz⟩
    · subst ez; exact hO (h.owned i x hx)
    · have hq := h.owned j z hz
      cases z with
      | joining l =>
        obtain ⟨a, b, c⟩ := hq
        refine ⟨he.trans a, by rw [ht, hn]; exact b, ?_⟩
        intro m hm
        rw [ht] at hm
        rcases c m hm with h1 | h1
        · exact Or.inl h1
        · refine Or.inr ?_
          rw [hp, get_set_ne (by rintro rfl; rw [hx] at h1; cases h1; exact hend rfl)]
          exact h1
      | spawn k => obtain ⟨a, b⟩ := hq; exact ⟨he.trans a, by rw [ht, hn]; exact b⟩
      | disableCall => obtain ⟨a, b⟩ := hq; exact ⟨he.trans a, by rw [ht, hn]; exact b⟩
      | _ => trivial
  · intro j z hz hlz
    obtain ⟨z', hz', hl'⟩ := hlive j z hz hlz
    rw [ht]; exact h.member j z' hz' hl'
  · have := countP_set PC.live y hx
    have hm := h.most
    rw [hp, ht]
    cases hy : y.live with
    | false => rw [hy] at this; simp only [Bool.false_eq_true, if_false] at this; omega
    | true => rw [hy, hl hy] at this; simp only [if_true] at this; omega
  · intro hno
    rw [he, ht, hn]
    refine h.rest fun j z hz => ?_
    by_cases e : j = i
    · subst e
      rw [hx] at hz
      cases hz
      rw [← ho]
      exact hno j y (by rw [hp, get_set_self hx])
    · exact hno j z (by rw [hp, get_set_ne e]; exact hz)

theorem shared_same {s s' : State T} (h : Shared s) (hp : s'.pcs = s.pcs) (he : s'.enabled = s.enabled)
    (ht : s'.threads = s.threads) (hn : s'.n = s.n) : Shared s' := by
  refine ⟨by rw [hp]; exact h.one, by rw [hp]; exact h.apart, ?_, by rw [hp, ht]; exact h.member,
    by rw [hp, ht]; exact h.most, by rw [hp, ht, he, hn]; exact h.rest⟩
  intro j x hx
  rw [hp] at hx
  have := h.owned j x hx
  cases x with
  | joining l => simp only [Owned, he, ht, hn, hp] at this ⊢; exact this
  | spawn k => simp only [Owned, he, ht, hn] at this ⊢; exact this
  | disableCall => simp only [Owned, he, ht, hn] at this ⊢; exact this
  | _ => trivial

/-- `enable` is called outside `disable` only, and the other way round. -/
def Apart (s : State T) : Label (Op T) → Prop
  | .start _ .enable => ∀ (j : Nat) (z : PC T), s.pcs[j]? = some z → z.disabling = false
  | .start _ .disable => ∀ (j : Nat) (z : PC T), s.pcs[j]? = some z → z.enabling = false
  | _ => True

theorem owner_enabling {x : PC T} (h : x.owner = true) : x.enabling = true ∨ x.disabling = true := by
  cases x <;> first | (cases h; done) | exact Or.inl rfl | exact Or.inr rfl

theorem shared_step {s s' : State T} {l : Label (Op T)} (h : Shared s) (hl : Apart s l)
    (hs : Stepped s l s') : Shared s' := by
  cases hs with
  | spurious i q hq => exact shared_same h rfl rfl rfl rfl
  | timeout i q hq => exact shared_same h rfl rfl rfl rfl
  | start i r op hx =>
    refine shared_set (y := entry op) h hx rfl rfl rfl rfl ?_ nofun ?_ ?_ ?_ ?_ ?_
    · cases op <;> nofun
    · cases op <;> rfl
    · cases op <;> first | exact fun _ => Or.inr hl | nofun
    · cases op <;> first | exact fun _ => Or.inr hl | nofun
    · cases op <;> nofun
    · cases op <;> exact fun _ => trivial
  | run i x s' hx hr =>
    cases hr with
    | stay x q hc hq hn => exact shared_same h rfl rfl rfl rfl
    | enableSkip he => exact shared_set h hx rfl rfl rfl rfl nofun nofun rfl nofun nofun nofun fun _ => trivial
    | enableStore he =>
      -- nobody is past the test: not in `enable`, since the pool is disabled, nor in `disable`
      have hno : ∀ (j : Nat) (z : PC T), s.pcs[j]? = some z → z.owner = false := by
        intro j z hz
        cases ho : z.owner with
        | false => rfl
        | true =>
          exfalso
          cases z with
          | spawn k => have := (h.owned j _ hz).1; rw [he] at this; cases this
          | disableCall => exact h.apart i j _ _ hx hz rfl rfl
          | joining l => exact h.apart i j _ _ hx hz rfl rfl
          | _ => cases ho
      have hp := (h.rest hno).2 he
      have hback : ∀ (j : Nat) (z : PC T), (s.pcs.set i (.spawn s.n))[j]? = some z →
          (j = i ∧ z = .spawn s.n) ∨ (j ≠ i ∧ s.pcs[j]? = some z) := by
        intro j z hz
        rcases set_get hz with ⟨e, ez, -⟩ | ⟨hne, hz⟩
        · exact Or.inl ⟨e, ez⟩
        · exact Or.inr ⟨hne, hz⟩
      refine ⟨?_, ?_, ?_, ?_, ?_, ?_⟩
      · intro a b u v hu hv ou ov
        rcases hback a u hu with ⟨ea, -⟩ | ⟨-, hu⟩
        · rcases hback b v hv with ⟨eb, -⟩ | ⟨-, hv⟩
          · rw [ea, eb]
          · rw [hno b v hv] at ov; cases ov
        · rw [hno a u hu] at ou; cases ou
      · intro a b u v hu hv eu dv
        rcases hback b v hv with ⟨-, eb⟩ | ⟨-, hv⟩
        · subst eb; cases dv
        · exact h.apart i b _ v hx hv rfl dv
      · intro j z hz
        rcases hback j z hz with ⟨-, e⟩ | ⟨-, hz⟩
        · subst e
          refine ⟨rfl, ?_⟩
          show s.threads.length + s.n = s.n
          rw [hp]; exact Nat.zero_add _
        · exact Owned.of_not (hno j z hz)
      · intro j z hz hlz
        rcases hback j z hz with ⟨-, e⟩ | ⟨-, hz⟩
        · subst e; cases hlz
        · exact h.member j z hz hlz
      · have := countP_set PC.live (.spawn s.n) hx
        have hm := h.most
        simp only [PC.live, Bool.false_eq_true, if_false] at this
        show (s.pcs.set i (.spawn s.n)).countP PC.live ≤ s.threads.length
        omega
      · intro hno'
        have := hno' i (.spawn s.n) (get_set_self hx)
        cases this
    | spawnEnd =>
      -- the only owner leaves
      obtain ⟨a, b⟩ := h.owned i _ hx
      have hb : ∀ (j : Nat) (z : PC T), (s.pcs.set i (.idle (some .done)))[j]? = some z →
          (j = i ∧ z = .idle (some .done)) ∨ (j ≠ i ∧ s.pcs[j]? = some z) := by
        intro j z hz
        rcases set_get hz with ⟨e, ez, -⟩ | ⟨hne, hz⟩
        · exact Or.inl ⟨e, ez⟩
        · exact Or.inr ⟨hne, hz⟩
      have hno : ∀ (j : Nat) (z : PC T), (s.pcs.set i (.idle (some .done)))[j]? = some z → z.owner = false := by
        intro j z hz
        rcases hb j z hz with ⟨-, e⟩ | ⟨hne, hz⟩
        · subst e; rfl
        · cases ho : z.owner with
          | false => rfl
          | true => exact absurd (h.one j i z _ hz hx ho rfl) hne
      refine ⟨?_, ?_, fun j z hz => Owned.of_not (hno j z hz), ?_, ?_, ?_⟩
      · intro a b u v hu hv ou ov
        rw [hno a u hu] at ou; cases ou
      · intro a b u v hu hv eu dv
        rcases hb a u hu with ⟨-, e⟩ | ⟨-, hu⟩
        · subst e; cases eu
        · rcases hb b v hv with ⟨-, e⟩ | ⟨-, hv⟩
          · subst e; cases dv
          · exact h.apart a b u v hu hv eu dv
      · intro j z hz hlz
        rcases hb j z hz with ⟨-, e⟩ | ⟨-, hz⟩
        · subst e; cases hlz
        · exact h.member j z hz hlz
      · have := countP_set PC.live (.idle (some .done)) hx
        have hm := h.most
        simp only [PC.live, Bool.false_eq_true, if_false] at this
        show (s.pcs.set i (.idle (some .done))).countP PC.live ≤ s.threads.length
        omega
      · intro _
        refine ⟨fun _ => b, fun e => ?_⟩
        have e : s.enabled = false := e
        rw [a] at e; cases e
    | spawnOne k j hj =>
      obtain ⟨a, b⟩ := h.owned i _ hx
      have hne : i ≠ j := by
        rintro rfl
        rw [hx] at hj
        cases hj
      have hx' : (s.pcs.set j .next)[i]? = some (.spawn (k + 1)) := by rw [get_set_ne hne]; exact hx
      have hb : ∀ (m : Nat) (z : PC T), ((s.pcs.set j .next).set i (.spawn k))[m]? = some z →
          (m = i ∧ z = .spawn k) ∨ (m = j ∧ z = .next) ∨ (m ≠ i ∧ m ≠ j ∧ s.pcs[m]? = some z) := by
        intro m z hz
        rcases set_get hz with ⟨e, ez, -⟩ | ⟨hne, hz⟩
        · exact Or.inl ⟨e, ez⟩
        · rcases set_get hz with ⟨e, ez, -⟩ | ⟨hne', hz⟩
          · exact Or.inr (Or.inl ⟨e, ez⟩)
          · exact Or.inr (Or.inr ⟨hne, hne', hz⟩)
      have hown : ∀ (m : Nat) (z : PC T), ((s.pcs.set j .next).set i (.spawn k))[m]? = some z →
          z.owner = true → m = i := by
        intro m z hz ho
        rcases hb m z hz with ⟨e, -⟩ | ⟨-, e⟩ | ⟨-, -, hz⟩
        · exact e
        · subst e; cases ho
        · exact h.one m i z _ hz hx ho rfl
      refine ⟨?_, ?_, ?_, ?_, ?_, ?_⟩
      · intro p q u v hu hv ou ov
        rw [hown p u hu ou, hown q v hv ov]
      · intro p q u v hu hv eu dv
        rcases hb q v hv with ⟨-, e⟩ | ⟨-, e⟩ | ⟨-, -, hv⟩
        · subst e; cases dv
        · subst e; cases dv
        · exact h.apart i q _ v hx hv rfl dv
      · intro m z hz
        cases ho : z.owner with
        | false => exact Owned.of_not ho
        | true =>
          have e := hown m z hz ho
          subst e
          have hz : ((s.pcs.set j .next).set m (.spawn k))[m]? = some z := hz
          rw [get_set_self hx'] at hz
          cases hz
          refine ⟨a, ?_⟩
          show (s.threads ++ [j]).length + k = s.n
          rw [List.length_append, List.length_singleton]
          omega
      · intro m z hz hlz
        rcases hb m z hz with ⟨-, e⟩ | ⟨e, -⟩ | ⟨-, -, hz⟩
        · subst e; cases hlz
        · exact List.mem_append.2 (Or.inr (by rw [e]; exact List.mem_singleton.2 rfl))
        · exact List.mem_append.2 (Or.inl (h.member m z hz hlz))
      · have h1 := countP_set PC.live .next hj
        have h2 := countP_set PC.live (.spawn k) hx'
        have hm := h.most
        simp only [PC.live, Bool.false_eq_true, if_false, if_true] at h1 h2
        show ((s.pcs.set j .next).set i (.spawn k)).countP PC.live ≤ (s.threads ++ [j]).length
        rw [List.length_append, List.length_singleton]
        omega
      · intro hno
        have := hno i (.spawn k) (get_set_self hx')
        cases this
    | disableStore r he hq =>
      have hno : ∀ (j : Nat) (z : PC T), s.pcs[j]? = some z → z.owner = false := by
        intro j z hz
        cases ho : z.owner with
        | false => rfl
        | true =>
          exfalso
          cases z with
          | spawn k => exact h.apart j i _ _ hz hx rfl rfl
          | disableCall => have := (h.owned j _ hz).1; rw [he] at this; cases this
          | joining l => have := (h.owned j _ hz).1; rw [he] at this; cases this
          | _ => cases ho
      have hp := (h.rest hno).1 he
      have hback : ∀ (j : Nat) (z : PC T), (s.pcs.set i .disableCall)[j]? = some z →
          (j = i ∧ z = .disableCall) ∨ (j ≠ i ∧ s.pcs[j]? = some z) := by
        intro j z hz
        rcases set_get hz with ⟨e, ez, -⟩ | ⟨hne, hz⟩
        · exact Or.inl ⟨e, ez⟩
        · exact Or.inr ⟨hne, hz⟩
      refine ⟨?_, ?_, ?_, ?_, ?_, ?_⟩
      · intro a b u v hu hv ou ov
        rcases hback a u hu with ⟨ea, -⟩ | ⟨-, hu⟩
        · rcases hback b v hv with ⟨eb, -⟩ | ⟨-, hv⟩
          · rw [ea, eb]
          · rw [hno b v hv] at ov; cases ov
        · rw [hno a u hu] at ou; cases ou
      · intro a b u v hu hv eu dv
        rcases hback a u hu with ⟨-, eb⟩ | ⟨-, hu⟩
        · subst eb; cases eu
        · exact h.apart a i u _ hu hx eu rfl
      · intro j z hz
        rcases hback j z hz with ⟨-, e⟩ | ⟨-, hz⟩
        · subst e
          exact ⟨rfl, hp⟩
        · exact Owned.of_not (hno j z hz)
      · intro j z hz hlz
        rcases hback j z hz with ⟨-, e⟩ | ⟨-, hz⟩
        · subst e; cases hlz
        · exact h.member j z hz hlz
      · have := countP_set PC.live .disableCall hx
        have hm := h.most
        simp only [PC.live, Bool.false_eq_true, if_false] at this
        show (s.pcs.set i .disableCall).countP PC.live ≤ s.threads.length
        omega
      · intro hno'
        have := hno' i .disableCall (get_set_self hx)
        cases this
    | disableSkip he => exact shared_set h hx rfl rfl rfl rfl nofun nofun rfl nofun nofun nofun fun _ => trivial
    | disableRet q r hq hr =>
      refine shared_set h hx rfl rfl rfl rfl nofun nofun rfl nofun (fun _ => Or.inl rfl) nofun fun hp => ?_
      exact ⟨hp.1, hp.2, fun j hj => Or.inl hj⟩
    | joinEnd =>
      obtain ⟨a, b, c⟩ := h.owned i _ hx
      have hb : ∀ (j : Nat) (z : PC T), (s.pcs.set i (.idle (some .done)))[j]? = some z →
          (j = i ∧ z = .idle (some .done)) ∨ (j ≠ i ∧ s.pcs[j]? = some z) := by
        intro j z hz
        rcases set_get hz with ⟨e, ez, -⟩ | ⟨hne, hz⟩
        · exact Or.inl ⟨e, ez⟩
        · exact Or.inr ⟨hne, hz⟩
      have hno : ∀ (j : Nat) (z : PC T), (s.pcs.set i (.idle (some .done)))[j]? = some z → z.owner = false := by
        intro j z hz
        rcases hb j z hz with ⟨-, e⟩ | ⟨hne, hz⟩
        · subst e; rfl
        · cases ho : z.owner with
          | false => rfl
          | true => exact absurd (h.one j i z _ hz hx ho rfl) hne
      have hdead : ∀ (j : Nat) (z : PC T), (s.pcs.set i (.idle (some .done)))[j]? = some z → z.live = true → False := by
        intro j z hz hlz
        rcases hb j z hz with ⟨-, e⟩ | ⟨hne, hz⟩
        · subst e; cases hlz
        · rcases c j (h.member j z hz hlz) with h1 | h1
          · cases h1
          · rw [hz] at h1; cases h1; cases hlz
      refine ⟨?_, ?_, fun j z hz => Owned.of_not (hno j z hz), fun j z hz hlz => (hdead j z hz hlz).elim, ?_, ?_⟩
      · intro a b u v hu hv ou ov
        rw [hno a u hu] at ou; cases ou
      · intro a b u v hu hv eu dv
        rcases hb a u hu with ⟨-, e⟩ | ⟨-, hu⟩
        · subst e; cases eu
        · exact h.apart a i u _ hu hx eu rfl
      · show (s.pcs.set i (.idle (some .done))).countP PC.live ≤ 0
        rcases Nat.eq_zero_or_pos ((s.pcs.set i (.idle (some .done))).countP PC.live) with e | e
        · rw [e]; exact Nat.le_refl _
        · obtain ⟨j, z, hz, hlz⟩ := exists_of_countP_pos _ e
          exact (hdead j z hz hlz).elim
      · intro _
        refine ⟨fun e => ?_, fun _ => rfl⟩
        have e : s.enabled = true := e
        rw [a] at e; cases e
    | joinOne j l hj =>
      refine shared_set h hx rfl rfl rfl rfl nofun nofun rfl nofun (fun _ => Or.inl rfl) nofun fun hp => ?_
      obtain ⟨a, b, c⟩ := hp
      refine ⟨a, b, ?_⟩
      intro m hm
      have hji : j ≠ i := by rintro rfl; rw [hx] at hj; cases hj
      rcases c m hm with h1 | h1
      · rcases List.mem_cons.1 h1 with rfl | h1
        · refine Or.inr ?_
          show (s.pcs.set i _)[m]? = _
          rw [get_set_ne hji]; exact hj
        · exact Or.inl h1
      · refine Or.inr ?_
        show (s.pcs.set i _)[m]? = _
        rw [get_set_ne (by rintro rfl; rw [hx] at h1; cases h1)]; exact h1
    | consumeRet q r hq hr =>
      refine shared_set (y := consumed r) h hx rfl rfl rfl rfl (fun _ => rfl) nofun ?_ ?_ ?_ ?_ ?_
      · unfold consumed; split <;> rfl
      · unfold consumed; split <;> nofun
      · unfold consumed; split <;> nofun
      · unfold consumed; split <;> nofun
      · intro _; unfold consumed; split <;> trivial
    | next r hq => exact shared_set h hx rfl rfl rfl rfl (fun _ => rfl) nofun rfl nofun nofun nofun fun _ => trivial
    | lookSome id t hm hg =>
      exact shared_set h hx rfl rfl rfl rfl (fun _ => rfl) nofun rfl nofun nofun nofun fun _ => trivial
    | exec id t => exact shared_set h hx rfl rfl rfl rfl (fun _ => rfl) nofun rfl nofun nofun nofun fun _ => trivial
    | inside id t =>
      refine shared_set (y := (s.ends s.finished.length).goes) h hx rfl rfl rfl rfl (fun _ => rfl) nofun ?_ ?_ ?_ ?_ ?_
      · cases s.ends s.finished.length <;> rfl
      · cases s.ends s.finished.length <;> nofun
      · cases s.ends s.finished.length <;> nofun
      · cases s.ends s.finished.length <;> nofun
      · intro _; cases s.ends s.finished.length <;> trivial
    | _ => exact shared_set h hx rfl rfl rfl rfl nofun nofun rfl nofun nofun nofun fun _ => trivial

theorem shared_init (n c d : Nat) (picks : Nat → Nat) (ends : Nat → Ending) :
    Shared (init n c d picks ends : State T) := by
  have hpc : ∀ (j : Nat) (x : PC T), (init n c d picks ends : State T).pcs[j]? = some x →
      x = .idle none ∨ x = .dormant := by
    intro j x hx
    rcases List.mem_append.1 (List.mem_of_getElem? hx) with h | h
    · exact Or.inl (List.eq_of_mem_replicate h)
    · exact Or.inr (List.eq_of_mem_replicate h)
  refine ⟨?_, ?_, ?_, ?_, ?_, ?_⟩
  · intro i j x y hx _ ho _
    rcases hpc i x hx with rfl | rfl <;> cases ho
  · intro i j x y hx _ ho _
    rcases hpc i x hx with rfl | rfl <;> cases ho
  · intro i x hx
    rcases hpc i x hx with rfl | rfl <;> trivial
  · intro j x hx hc
    rcases hpc j x hx with rfl | rfl <;> cases hc
  · rcases Nat.eq_zero_or_pos ((init n c d picks ends : State T).pcs.countP PC.live) with e | e
    · rw [e]; exact Nat.zero_le _
    · obtain ⟨j, z, hz, hlz⟩ := exists_of_countP_pos _ e
      rcases hpc j z hz with rfl | rfl <;> cases hlz
  · exact fun _ => ⟨nofun, fun _ => rfl⟩

theorem any_false {l : List (PC T)} {p : PC T → Bool} (h : l.any p = false) (j : Nat) (z : PC T)
    (hz : l[j]? = some z) : p z = false := by
  cases hp : p z with
  | false => rfl
  | true =>
    have : l.any p = true := List.any_eq_true.2 ⟨z, List.mem_of_getElem? hz, hp⟩
    rw [h] at this; cases this

theorem phased_step {s s' : State T} {l : Label (Op T)} (h : (phased T).step s l = some s') :
    Apart s l ∧ step s l = some s' := by
  cases l with
  | start i op =>
    cases op with
    | enable =>
      simp only [phased] at h
      split at h
      · cases h
      · rename_i e; exact ⟨any_false (Bool.not_eq_true _ ▸ e), h⟩
    | disable =>
      simp only [phased] at h
      split at h
      · cases h
      · rename_i e; exact ⟨any_false (Bool.not_eq_true _ ▸ e), h⟩
    | _ => exact ⟨trivial, h⟩
  | _ => exact ⟨trivial, h⟩

theorem shared_reachable {n c d : Nat} {picks : Nat → Nat} {ends : Nat → Ending} {s : State T}
    (hr : (phased T).Reachable (init n c d picks ends) s) :
    Shared s ∧ (system T).Reachable (init n c d picks ends) s ∧ s.n = n := by
  refine System.Reachable.invariant (S := phased T)
    (fun s => Shared s ∧ (system T).Reachable (init n c d picks ends) s ∧ s.n = n)
    ⟨shared_init n c d picks ends, .init, rfl⟩ ?_ hr
  rintro s l s' ⟨hC, hr, hn⟩ hs
  obtain ⟨hl, hs⟩ := phased_step hs
  have hst := step_stepped hs
  refine ⟨shared_step hC hl hst, .step hr (Label.allowed_true l) hs, ?_⟩
  rw [← hn]
  cases hst with
  | run i x s' hx hran => cases hran <;> rfl
  | _ => rfl

end Verif.SlotThreadPool
