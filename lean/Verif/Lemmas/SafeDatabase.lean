import Verif.Model.SafeDatabase
import Verif.Lemmas.Prog
import Verif.Lemmas.StdMap
/-!
Invariants of the `SafeDatabase` program.
-/
namespace Verif.SafeDatabase
open Verif.Threads

variable {V : Type} {pref : Bool}

/-- The branches of `run`. -/
inductive Ran (pref : Bool) (i : Nat) (s : Sh V) : PC V → Sh V → PC V → Prop
  | wAcq (op) (hw : s.writer = none) (hr : s.readers = 0) :
      Ran pref i s (.wAcq op) { s with writer := some i } (.wBeg op)
  | wWait (op) (hw : s.writer = none) (hr : s.readers ≠ 0) (hp : pref = true) :
      Ran pref i s (.wAcq op) { s with writer := some i } (.wDrain op)
  | wDrain (op) (hr : s.readers = 0) : Ran pref i s (.wDrain op) s (.wBeg op)
  | wBeg (op) : Ran pref i s (.wBeg op)
      { s with writing := s.writing + 1, ub := s.ub || s.writing != 0 || s.reading != 0 } (.wFind op)
  | wFind (op) : Ran pref i s (.wFind op) s (.wEnd op (has (key op) s.db))
  | wEnd (op p) : Ran pref i s (.wEnd op p)
      { s with db := (write op p s.db).1, writing := s.writing - 1, ub := s.ub || (write op p s.db).2.2,
               log := s.log ++ [(i, op, (write op p s.db).2.1)] } (.wRel (write op p s.db).2.1)
  | wRel (r) : Ran pref i s (.wRel r) { s with writer := none } (.idle (some r))
  | rAcq (op) (hw : s.writer = none) : Ran pref i s (.rAcq op) { s with readers := s.readers + 1 } (.rBeg op)
  | rBeg (op) : Ran pref i s (.rBeg op) (beginRead s) (.rEnd op)
  | rEnd (op) : Ran pref i s (.rEnd op) { endRead s with log := s.log ++ [(i, op, read op s.db)] }
      (.rRel (read op s.db))
  | rRel (r) : Ran pref i s (.rRel r) (unlockShared s) (.idle (some r))
  | fAcq (k) (hw : s.writer = none) : Ran pref i s (.fAcq k) { s with readers := s.readers + 1 } (.fBeg k)
  | fBeg (k) : Ran pref i s (.fBeg k) (beginRead s) (.fEnd k)
  | fFound (k) (hk : has k s.db = true) : Ran pref i s (.fEnd k)
      { endRead s with log := s.log ++ [(i, .find k, .pos (some k))] } (.fLock (some k))
  | fAbsent (k) (hk : has k s.db = false) : Ran pref i s (.fEnd k)
      { endRead s with log := s.log ++ [(i, .find k, .pos none)] } (.fLock none)
  | fLock (p) (hw : s.writer = none) : Ran pref i s (.fLock p) (newIt s i p) (.fRel s.nextIt)
  | fRel (h) : Ran pref i s (.fRel h) (unlockShared s) (.idle (some (.iter h)))
  | bBeg : Ran pref i s .bBeg (beginRead s) .bEnd
  | bEnd : Ran pref i s .bEnd (endRead s) (.bLock (s.db.head?.map Prod.fst))
  | bLock (p) (hw : s.writer = none) : Ran pref i s (.bLock p) (newIt s i p) (.idle (some (.iter s.nextIt)))
  | copyNone (h) (hl : lookup h i s.its = none) : Ran pref i s (.copyIt h) s (.idle none)
  | copy (h p) (hl : lookup h i s.its = some p) : Ran pref i s (.copyIt h)
      { s with its := s.its ++ [(s.nextIt, i, p)], nextIt := s.nextIt + 1 } (.idle (some (.iter s.nextIt)))
  | destroyNone (h) (hl : lookup h i s.its = none) : Ran pref i s (.destroyIt h) s (.idle none)
  | destroy (h p) (hl : lookup h i s.its = some p) : Ran pref i s (.destroyIt h)
      (unlockShared { s with its := s.its.filter fun t => t.1 != h }) (.idle (some .done))
  | dNone (h) (hl : ∀ k, lookup h i s.its ≠ some (some k)) : Ran pref i s (.dBeg h) s (.idle none)
  | dBeg (h k) (hl : lookup h i s.its = some (some k)) : Ran pref i s (.dBeg h) (beginRead s) (.dEnd h k)
  | dEnd (h k v) (hk : StdMap.get k s.db = some v) : Ran pref i s (.dEnd h k) (endRead s)
      (.idle (some (.item k v)))
  | dBad (h k) (hk : StdMap.get k s.db = none) : Ran pref i s (.dEnd h k) { endRead s with ub := true } (.idle none)
  | aNone (h) (hl : ∀ k, lookup h i s.its ≠ some (some k)) : Ran pref i s (.aBeg h) s (.idle none)
  | aBeg (h k) (hl : lookup h i s.its = some (some k)) : Ran pref i s (.aBeg h) (beginRead s) (.aEnd h k)
  | aEnd (h k) (hk : has k s.db = true) : Ran pref i s (.aEnd h k)
      { endRead s with its := s.its.map fun t => if t.1 = h then (t.1, t.2.1, after k s.db) else t }
      (.idle (some .done))
  | aBad (h k) (hk : has k s.db = false) : Ran pref i s (.aEnd h k) { endRead s with ub := true } (.idle none)

theorem isSome_none {α : Type} {o : Option α} (h : ¬ o.isSome = true) : o = none := by
  cases o with
  | none => rfl
  | some a => exact absurd rfl h

theorem run_ran {i : Nat} {s s' : Sh V} {x y : PC V} {b : Bool} (h : run pref i s x = some (s', y, b)) :
    Ran pref i s x s' y ∧ b = false := by
  cases x with
  | idle r => cases h
  | wAcq op =>
    simp only [run] at h
    split at h
    · cases h
    · rename_i hw
      split at h
      · rename_i hr
        cases h
        exact ⟨.wAcq op (isSome_none hw) hr, rfl⟩
      · rename_i hr
        split at h
        · rename_i hp
          cases h
          exact ⟨.wWait op (isSome_none hw) hr hp, rfl⟩
        · cases h
  | wDrain op =>
    simp only [run] at h
    split at h
    · rename_i hr
      cases h
      exact ⟨.wDrain op hr, rfl⟩
    · cases h
  | wBeg op => cases h; exact ⟨.wBeg op, rfl⟩
  | wFind op => cases h; exact ⟨.wFind op, rfl⟩
  | wEnd op p => cases h; exact ⟨.wEnd op p, rfl⟩
  | wRel r => cases h; exact ⟨.wRel r, rfl⟩
  | rAcq op =>
    simp only [run] at h
    split at h
    · cases h
    · rename_i hw
      cases h
      exact ⟨.rAcq op (isSome_none hw), rfl⟩
  | rBeg op => cases h; exact ⟨.rBeg op, rfl⟩
  | rEnd op => cases h; exact ⟨.rEnd op, rfl⟩
  | rRel r => cases h; exact ⟨.rRel r, rfl⟩
  | fAcq k =>
    simp only [run] at h
    split at h
    · cases h
    · rename_i hw
      cases h
      exact ⟨.fAcq k (isSome_none hw), rfl⟩
  | fBeg k => cases h; exact ⟨.fBeg k, rfl⟩
  | fEnd k =>
    cases hk : has k s.db with
    | true =>
      simp only [run, hk, if_true] at h
      cases h
      exact ⟨.fFound k hk, rfl⟩
    | false =>
      simp only [run, hk, Bool.false_eq_true, if_false] at h
      cases h
      exact ⟨.fAbsent k hk, rfl⟩
  | fLock p =>
    simp only [run] at h
    split at h
    · cases h
    · rename_i hw
      cases h
      exact ⟨.fLock p (isSome_none hw), rfl⟩
  | fRel k => cases h; exact ⟨.fRel k, rfl⟩
  | bBeg => cases h; exact ⟨.bBeg, rfl⟩
  | bEnd => cases h; exact ⟨.bEnd, rfl⟩
  | bLock p =>
    simp only [run] at h
    split at h
    · cases h
    · rename_i hw
      cases h
      exact ⟨.bLock p (isSome_none hw), rfl⟩
  | copyIt k =>
    simp only [run] at h
    split at h
    · rename_i hl
      cases h
      exact ⟨.copyNone k hl, rfl⟩
    · rename_i p hl
      cases h
      exact ⟨.copy k p hl, rfl⟩
  | destroyIt k =>
    simp only [run] at h
    split at h
    · rename_i hl
      cases h
      exact ⟨.destroyNone k hl, rfl⟩
    · rename_i p hl
      cases h
      exact ⟨.destroy k p hl, rfl⟩
  | dBeg k =>
    simp only [run] at h
    split at h
    · rename_i p hl
      cases h
      exact ⟨.dBeg k p hl, rfl⟩
    · rename_i hl
      cases h
      exact ⟨.dNone k (fun p e => hl p e), rfl⟩
  | dEnd k p =>
    simp only [run] at h
    split at h
    · rename_i v hk
      cases h
      exact ⟨.dEnd k p v hk, rfl⟩
    · rename_i hk
      cases h
      exact ⟨.dBad k p hk, rfl⟩
  | aBeg k =>
    simp only [run] at h
    split at h
    · rename_i p hl
      cases h
      exact ⟨.aBeg k p hl, rfl⟩
    · rename_i hl
      cases h
      exact ⟨.aNone k (fun p e => hl p e), rfl⟩
  | aEnd k p =>
    simp only [run] at h
    split at h
    · rename_i hk
      cases h
      exact ⟨.aEnd k p hk, rfl⟩
    · rename_i hk
      cases h
      exact ⟨.aBad k p (by simpa using hk), rfl⟩

/-- The kinds of steps. -/
inductive Stepped (pref : Bool) (s : Conf (prog V pref)) : Label (Op V) → Conf (prog V pref) → Prop
  | start (i : Nat) (r : Option (Ret V)) (op : Op V) (hx : s.pcs[i]? = some (.idle r)) :
      Stepped pref s (.start i op) ⟨s.sh, s.pcs.set i (entry op)⟩
  | run (i : Nat) (x y : PC V) (sh : Sh V) (hx : s.pcs[i]? = some x) (hr : Ran pref i s.sh x sh y) :
      Stepped pref s (.run i) ⟨sh, s.pcs.set i y⟩

theorem step_stepped {s s' : Conf (prog V pref)} {l : Label (Op V)}
    (h : (prog V pref).system.step s l = some s') : Stepped pref s l s' := by
  change (prog V pref).step s l = some s' at h
  cases l with
  | start i op =>
    simp only [Prog.step, Option.map_eq_some_iff, Option.bind_eq_some_iff] at h
    obtain ⟨y, ⟨x, hx, hy⟩, rfl⟩ := h
    cases x with
    | idle r => cases hy; exact .start i r op hx
    | _ => cases hy
  | run i =>
    simp only [Prog.step, Option.map_eq_some_iff, Option.bind_eq_some_iff] at h
    obtain ⟨⟨sh, y, b⟩, ⟨x, hx, hy⟩, rfl⟩ := h
    obtain ⟨hr, rfl⟩ := run_ran hy
    exact .run i x y sh hx hr
  | spurious i =>
    simp only [Prog.step, Option.map_eq_some_iff, Option.bind_eq_some_iff] at h
    obtain ⟨y, ⟨x, hx, hy⟩, -⟩ := h
    cases hy
  | timeout i =>
    simp only [Prog.step, Option.map_eq_some_iff, Option.bind_eq_some_iff] at h
    obtain ⟨y, ⟨x, hx, hy⟩, -⟩ := h
    cases hy

/-- Holds one shared lock (besides those of its iterators). -/
def PC.shared : PC V → Bool
  | .rBeg _ | .rEnd _ | .rRel _ | .fBeg _ | .fEnd _ | .fLock _ | .fRel _ => true
  | _ => false

/-- Has `mutex_` exclusively or keeps new readers out. -/
def PC.excl : PC V → Bool
  | .wDrain _ | .wBeg _ | .wFind _ | .wEnd _ _ | .wRel _ => true
  | _ => false

/-- Has `mutex_` exclusively. -/
def PC.crit : PC V → Bool
  | .wBeg _ | .wFind _ | .wEnd _ _ | .wRel _ => true
  | _ => false

/-- A write is in progress. -/
def PC.isWriting : PC V → Bool
  | .wFind _ | .wEnd _ _ => true
  | _ => false

/-- A read is in progress. -/
def PC.isReading : PC V → Bool
  | .rEnd _ | .fEnd _ | .bEnd | .dEnd _ _ | .aEnd _ _ => true
  | _ => false

theorem lookup_mem {h i : Nat} {its : List (Nat × Nat × Option Nat)} {p : Option Nat}
    (hl : lookup h i its = some p) : (h, i, p) ∈ its := by
  obtain ⟨⟨a, b, c⟩, ht, e⟩ := Option.map_eq_some_iff.1 hl
  have h1 := List.mem_of_find?_eq_some ht
  have h2 := List.find?_some ht
  simp only [Bool.and_eq_true, beq_iff_eq] at h2
  obtain ⟨rfl, rfl⟩ := h2
  cases e
  exact h1

theorem filter_all {h : Nat} {its : List (Nat × Nat × Option Nat)} (hn : ∀ t ∈ its, t.1 ≠ h) :
    its.filter (fun t => t.1 != h) = its := by
  refine List.filter_eq_self.2 ?_
  intro t ht
  simpa using hn t ht

theorem filter_length {h i : Nat} {p : Option Nat} {its : List (Nat × Nat × Option Nat)}
    (hn : (its.map Prod.fst).Nodup) (hm : (h, i, p) ∈ its) :
    (its.filter fun t => t.1 != h).length + 1 = its.length := by
  induction its with
  | nil => cases hm
  | cons t l ih =>
    obtain ⟨h1, h2⟩ := List.nodup_cons.1 hn
    rcases List.mem_cons.1 hm with rfl | hm
    · have : l.filter (fun t => t.1 != h) = l := by
        refine filter_all ?_
        rintro t ht rfl
        exact h1 (List.mem_map.2 ⟨t, ht, rfl⟩)
      simp [this]
    · have hne : t.1 ≠ h := by
        rintro rfl
        exact h1 (List.mem_map.2 ⟨_, hm, rfl⟩)
      have := ih h2 hm
      simp only [List.filter_cons, List.length_cons]
      rw [if_pos (by simpa using hne), List.length_cons]
      omega

/-- The invariant; iterators are not copied. -/
structure Inv (s : Conf (prog V pref)) : Prop where
  noCopy : ∀ (j h : Nat), s.pcs[j]? ≠ some (.copyIt h)
  readers : s.sh.readers = s.pcs.countP PC.shared + s.sh.its.length
  writer : ∀ (j : Nat) (x : PC V), s.pcs[j]? = some x → (x.excl = true ↔ s.sh.writer = some j)
  crit : ∀ (j : Nat) (x : PC V), s.pcs[j]? = some x → x.crit = true → s.sh.readers = 0
  writing : s.sh.writing = s.pcs.countP PC.isWriting
  reading : s.sh.reading = s.pcs.countP PC.isReading
  fresh : ∀ t ∈ s.sh.its, t.1 < s.sh.nextIt
  nodup : (s.sh.its.map Prod.fst).Nodup
  deref : ∀ (j h k : Nat), s.pcs[j]? = some (.dEnd h k) ∨ s.pcs[j]? = some (.aEnd h k) →
    (h, j, some k) ∈ s.sh.its
  found : ∀ (j : Nat) (op : Op V) (p : Bool), s.pcs[j]? = some (.wEnd op p) → p = has (key op) s.sh.db
  here : ∀ (j k : Nat), s.pcs[j]? = some (.fLock (some k)) → has k s.sh.db = true

theorem crit_excl {x : PC V} (h : x.crit = true) : x.excl = true := by
  cases x <;> first | rfl | (cases h; done)

section
variable {s : Conf (prog V pref)} {i : Nat} {x y : PC V} {sh : Sh V}

theorem readers_ran (hn : (s.sh.its.map Prod.fst).Nodup) (hc : ∀ h, x ≠ .copyIt h) {c c' : Nat}
    (h : s.sh.readers = c + s.sh.its.length)
    (hcc : c' + (if PC.shared x then 1 else 0) = c + (if PC.shared y then 1 else 0))
    (hr : Ran pref i s.sh x sh y) : sh.readers = c' + sh.its.length := by
  cases hr with
  | copy k p hl => exact absurd rfl (hc k)
  | destroy k p hl =>
    have := filter_length hn (lookup_mem hl)
    simp only [PC.shared, Bool.false_eq_true, if_false] at hcc
    show s.sh.readers - 1 = c' + (s.sh.its.filter fun t => t.1 != k).length
    omega
  | aEnd k p hk =>
    simp only [PC.shared, Bool.false_eq_true, if_false] at hcc
    show s.sh.readers = c' + (List.map _ s.sh.its).length
    rw [List.length_map]
    omega
  | fLock p hw =>
    simp only [PC.shared, if_true] at hcc
    show s.sh.readers + 1 = c' + (s.sh.its ++ [_]).length
    rw [List.length_append]
    simp only [List.length_cons, List.length_nil]
    omega
  | bLock p hw =>
    simp only [PC.shared, Bool.false_eq_true, if_false] at hcc
    show s.sh.readers + 1 = c' + (s.sh.its ++ [_]).length
    rw [List.length_append]
    simp only [List.length_cons, List.length_nil]
    omega
  | _ =>
    simp only [PC.shared, Bool.false_eq_true, if_false, if_true, unlockShared, beginRead, endRead] at hcc ⊢
    omega

theorem writer_ran (h : x.excl = true ↔ s.sh.writer = some i) (hr : Ran pref i s.sh x sh y) :
    (y.excl = true ↔ sh.writer = some i) ∧ ∀ j, j ≠ i → (sh.writer = some j ↔ s.sh.writer = some j) := by
  cases hr with
  | wAcq op hw hr =>
    exact ⟨⟨fun _ => rfl, fun _ => rfl⟩, fun j hj =>
      ⟨fun e => absurd (Option.some.inj e).symm hj, fun e => by rw [hw] at e; cases e⟩⟩
  | wWait op hw hr hp =>
    exact ⟨⟨fun _ => rfl, fun _ => rfl⟩, fun j hj =>
      ⟨fun e => absurd (Option.some.inj e).symm hj, fun e => by rw [hw] at e; cases e⟩⟩
  | wRel r =>
    exact ⟨⟨nofun, nofun⟩, fun j hj =>
      ⟨nofun, fun e => absurd (Option.some.inj (e.symm.trans (h.1 rfl))) hj⟩⟩
  | _ => exact ⟨h, fun _ _ => Iff.rfl⟩

theorem crit_ran (h : x.crit = true → s.sh.readers = 0) (hr : Ran pref i s.sh x sh y) :
    (y.crit = true → sh.readers = 0) ∧ (s.sh.writer = none ∨ (s.sh.readers = 0 → sh.readers = 0)) := by
  cases hr with
  | wAcq op hw hr => exact ⟨fun _ => hr, Or.inl hw⟩
  | wWait op hw hr hp => exact ⟨nofun, Or.inl hw⟩
  | wDrain op hr => exact ⟨fun _ => hr, Or.inr fun e => e⟩
  | rAcq op hw => exact ⟨nofun, Or.inl hw⟩
  | fAcq k hw => exact ⟨nofun, Or.inl hw⟩
  | fLock p hw => exact ⟨nofun, Or.inl hw⟩
  | bLock p hw => exact ⟨nofun, Or.inl hw⟩
  | wBeg op => exact ⟨fun _ => h rfl, Or.inr fun e => e⟩
  | wFind op => exact ⟨fun _ => h rfl, Or.inr fun e => e⟩
  | wEnd op p => exact ⟨fun _ => h rfl, Or.inr fun e => e⟩
  | rRel r => exact ⟨nofun, Or.inr fun e => by show s.sh.readers - 1 = 0; omega⟩
  | fRel r => exact ⟨nofun, Or.inr fun e => by show s.sh.readers - 1 = 0; omega⟩
  | destroy k p hl => exact ⟨nofun, Or.inr fun e => by show s.sh.readers - 1 = 0; omega⟩
  | _ => exact ⟨nofun, Or.inr fun e => e⟩

theorem writing_ran {c c' : Nat} (h : s.sh.writing = c)
    (hcc : c' + (if PC.isWriting x then 1 else 0) = c + (if PC.isWriting y then 1 else 0))
    (hr : Ran pref i s.sh x sh y) : sh.writing = c' := by
  cases hr <;>
    simp only [PC.isWriting, Bool.false_eq_true, if_false, if_true, unlockShared, beginRead, endRead, newIt]
      at hcc ⊢ <;> omega

theorem reading_ran {c c' : Nat} (h : s.sh.reading = c)
    (hcc : c' + (if PC.isReading x then 1 else 0) = c + (if PC.isReading y then 1 else 0))
    (hr : Ran pref i s.sh x sh y) : sh.reading = c' := by
  cases hr <;>
    simp only [PC.isReading, Bool.false_eq_true, if_false, if_true, unlockShared, beginRead, endRead, newIt]
      at hcc ⊢ <;> omega

theorem fresh_ran (h : ∀ t ∈ s.sh.its, t.1 < s.sh.nextIt) (hr : Ran pref i s.sh x sh y) :
    ∀ t ∈ sh.its, t.1 < sh.nextIt := by
  have add : ∀ p, ∀ t ∈ s.sh.its ++ [(s.sh.nextIt, i, p)], t.1 < s.sh.nextIt + 1 := by
    intro p t ht
    rcases List.mem_append.1 ht with ht | ht
    · exact Nat.lt_succ_of_lt (h t ht)
    · rw [List.mem_singleton.1 ht]
      exact Nat.lt_succ_self _
  cases hr with
  | fLock p hw => exact add p
  | bLock p hw => exact add p
  | copy k p hl => exact add p
  | destroy k p hl => exact fun t ht => h t (List.mem_filter.1 ht).1
  | aEnd k p hk =>
    intro t ht
    obtain ⟨u, hu, rfl⟩ := List.mem_map.1 ht
    have := h u hu
    split <;> exact this
  | _ => exact h

theorem nodup_add {l : List (Nat × Nat × Option Nat)} {n : Nat} {q : Nat × Option Nat}
    (hf : ∀ t ∈ l, t.1 < n) (h : (l.map Prod.fst).Nodup) : ((l ++ [(n, q)]).map Prod.fst).Nodup := by
  rw [List.map_append]
  refine List.nodup_append.2 ⟨h, List.nodup_cons.2 ⟨nofun, List.nodup_nil⟩, ?_⟩
  intro a ha b hb e
  obtain ⟨t, ht, rfl⟩ := List.mem_map.1 ha
  have hb : b = n := List.mem_singleton.1 hb
  have := hf t ht
  omega

theorem nodup_ran (hf : ∀ t ∈ s.sh.its, t.1 < s.sh.nextIt) (h : (s.sh.its.map Prod.fst).Nodup)
    (hr : Ran pref i s.sh x sh y) : (sh.its.map Prod.fst).Nodup := by
  cases hr with
  | fLock p hw => exact nodup_add hf h
  | bLock p hw => exact nodup_add hf h
  | copy k p hl => exact nodup_add hf h
  | destroy k p hl => exact h.sublist (List.filter_sublist.map Prod.fst)
  | aEnd k p hk =>
    have e : (s.sh.its.map fun t => if t.1 = k then (t.1, t.2.1, after p s.sh.db) else t).map Prod.fst =
        s.sh.its.map Prod.fst := by
      rw [List.map_map]
      refine List.map_congr_left ?_
      intro t ht
      simp only [Function.comp]
      split <;> rfl
    exact e ▸ h
  | _ => exact h

theorem handle_unique {l : List (Nat × Nat × Option Nat)} (h : (l.map Prod.fst).Nodup)
    {a b : Nat × Nat × Option Nat} (ha : a ∈ l) (hb : b ∈ l) (e : a.1 = b.1) : a = b := by
  induction l with
  | nil => cases ha
  | cons t l ih =>
    obtain ⟨h1, h2⟩ := List.nodup_cons.1 h
    rcases List.mem_cons.1 ha with rfl | ha <;> rcases List.mem_cons.1 hb with rfl | hb
    · rfl
    · exact absurd (List.mem_map.2 ⟨b, hb, e.symm⟩) h1
    · exact absurd (List.mem_map.2 ⟨a, by assumption, e⟩) h1
    · exact ih h2 ha hb

theorem lookup_of_mem {l : List (Nat × Nat × Option Nat)} (h : (l.map Prod.fst).Nodup) {g i : Nat}
    {p : Option Nat} (hm : (g, i, p) ∈ l) : lookup g i l = some p := by
  cases e : lookup g i l with
  | none =>
    have := List.find?_eq_none.1 (Option.map_eq_none_iff.1 e) _ hm
    simp at this
  | some q =>
    have := handle_unique h hm (lookup_mem e) rfl
    cases this
    rfl

/-- The steps of a thread do not touch the iterators of other threads. -/
theorem others_ran (hn : (s.sh.its.map Prod.fst).Nodup)
    (hd : ∀ h k, x = .aEnd h k → (h, i, some k) ∈ s.sh.its) {j g : Nat} {q : Option Nat}
    (hj : j ≠ i) (hm : (g, j, q) ∈ s.sh.its) (hr : Ran pref i s.sh x sh y) : (g, j, q) ∈ sh.its := by
  cases hr with
  | fLock p hw => exact List.mem_append_left _ hm
  | bLock p hw => exact List.mem_append_left _ hm
  | copy k p hl => exact List.mem_append_left _ hm
  | destroy k p hl =>
    refine List.mem_filter.2 ⟨hm, ?_⟩
    simp only [bne_iff_ne, ne_eq]
    intro e
    have := handle_unique hn hm (lookup_mem hl) e
    exact hj (congrArg (fun t => t.2.1) this)
  | aEnd k p hk =>
    refine List.mem_map.2 ⟨_, hm, ?_⟩
    rw [if_neg]
    intro e
    have := handle_unique hn hm (hd k p rfl) e
    exact hj (congrArg (fun t => t.2.1) this)
  | _ => exact hm

theorem db_ran (hr : Ran pref i s.sh x sh y) : sh.db = s.sh.db ∨ ∃ op p, x = .wEnd op p := by
  cases hr with
  | wEnd op p => exact Or.inr ⟨op, p, rfl⟩
  | _ => exact Or.inl rfl

theorem pc_ran (hr : Ran pref i s.sh x sh y) :
    (∀ h, y ≠ .copyIt h) ∧
    (∀ h k, y = .dEnd h k ∨ y = .aEnd h k → (h, i, some k) ∈ sh.its) ∧
    (∀ op p, y = .wEnd op p → p = has (key op) sh.db) ∧
    (∀ k, y = .fLock (some k) → has k sh.db = true) := by
  cases hr with
  | dBeg h k hl =>
    refine ⟨nofun, ?_, nofun, nofun⟩
    rintro h' k' (e | e) <;> cases e
    exact lookup_mem hl
  | aBeg h k hl =>
    refine ⟨nofun, ?_, nofun, nofun⟩
    rintro h' k' (e | e) <;> cases e
    exact lookup_mem hl
  | wFind op =>
    refine ⟨nofun, nofun, ?_, nofun⟩
    rintro op' p e
    cases e
    rfl
  | fFound k hk =>
    refine ⟨nofun, nofun, nofun, ?_⟩
    rintro k' e
    cases e
    exact hk
  | fAbsent k hk => exact ⟨nofun, nofun, nofun, nofun⟩
  | _ => exact ⟨nofun, nofun, nofun, nofun⟩

end

/-- No iterator is copied. -/
def noCopy : Op V → Prop
  | .copy _ => False
  | _ => True

theorem entry_pc (op : Op V) : (entry op).shared = false ∧ (entry op).excl = false ∧ (entry op).crit = false ∧
    (entry op).isWriting = false ∧ (entry op).isReading = false := by
  cases op <;> exact ⟨rfl, rfl, rfl, rfl, rfl⟩

theorem entry_ne (op : Op V) : (∀ h k, entry op ≠ .dEnd h k) ∧ (∀ h k, entry op ≠ .aEnd h k) ∧
    (∀ o p, entry op ≠ .wEnd o p) ∧ (∀ k, entry op ≠ .fLock k) := by
  cases op <;> exact ⟨nofun, nofun, nofun, nofun⟩

theorem shared_pos {s : Conf (prog V pref)} (hi : Inv s) {j : Nat} {x : PC V} (hx : s.pcs[j]? = some x)
    (h : x.shared = true) : s.sh.readers ≠ 0 := by
  have := countP_pos_of_get (p := PC.shared) hx h
  have := hi.readers
  omega

theorem its_pos {s : Conf (prog V pref)} (hi : Inv s) {t : Nat × Nat × Option Nat} (ht : t ∈ s.sh.its) :
    s.sh.readers ≠ 0 := by
  have := List.length_pos_of_mem ht
  have := hi.readers
  omega

theorem inv_step {s s' : Conf (prog V pref)} {l : Label (Op V)} (hi : Inv s) (hl : l.Allowed noCopy)
    (hs : Stepped pref s l s') : Inv s' := by
  cases hs with
  | start i r op hx =>
    have hc : ∀ q : PC V → Bool, q (.idle r) = false → q (entry op) = false →
        (s.pcs.set i (entry op)).countP q = s.pcs.countP q := by
      intro q h1 h2
      have := countP_set q (entry op) hx
      rw [h1, h2] at this
      simpa using this
    obtain ⟨h1, h2, h3, h4, h5⟩ := entry_pc op
    obtain ⟨n1, n2, n3, n4⟩ := entry_ne op
    refine ⟨?_, ?_, ?_, ?_, ?_, ?_, hi.fresh, hi.nodup, ?_, ?_, ?_⟩
    · intro j h hz
      rcases set_get hz with ⟨rfl, e, -⟩ | ⟨-, hz⟩
      · cases op with
        | copy h => exact hl
        | _ => cases e
      · exact hi.noCopy j h hz
    · exact hi.readers.trans (congrArg (· + s.sh.its.length) (hc PC.shared rfl h1).symm)
    · intro j z hz
      rcases set_get hz with ⟨rfl, rfl, -⟩ | ⟨-, hz⟩
      · rw [h2]
        exact hi.writer j _ hx
      · exact hi.writer j z hz
    · intro j z hz hcr
      rcases set_get hz with ⟨rfl, rfl, -⟩ | ⟨-, hz⟩
      · rw [h3] at hcr
        cases hcr
      · exact hi.crit j z hz hcr
    · exact hi.writing.trans (hc PC.isWriting rfl h4).symm
    · exact hi.reading.trans (hc PC.isReading rfl h5).symm
    · intro j h k hz
      rcases hz with hz | hz
      · rcases set_get hz with ⟨rfl, e, -⟩ | ⟨-, hz⟩
        · exact absurd e.symm (n1 h k)
        · exact hi.deref j h k (Or.inl hz)
      · rcases set_get hz with ⟨rfl, e, -⟩ | ⟨-, hz⟩
        · exact absurd e.symm (n2 h k)
        · exact hi.deref j h k (Or.inr hz)
    · intro j o p hz
      rcases set_get hz with ⟨rfl, e, -⟩ | ⟨-, hz⟩
      · exact absurd e.symm (n3 o p)
      · exact hi.found j o p hz
    · intro j k hz
      rcases set_get hz with ⟨rfl, e, -⟩ | ⟨-, hz⟩
      · exact absurd e.symm (n4 _)
      · exact hi.here j k hz
  | run i x y sh hx hr =>
    have hcp : ∀ h, x ≠ .copyIt h := fun h e => hi.noCopy i h (e ▸ hx)
    obtain ⟨w1, w2⟩ := writer_ran (hi.writer i x hx) hr
    obtain ⟨c1, c2⟩ := crit_ran (hi.crit i x hx) hr
    obtain ⟨p1, p2, p3, p4⟩ := pc_ran hr
    have hd : ∀ h k, x = .aEnd h k → (h, i, some k) ∈ s.sh.its :=
      fun h k e => hi.deref i h k (Or.inr (e ▸ hx))
    refine ⟨?_, readers_ran hi.nodup hcp hi.readers (countP_set _ y hx) hr, ?_, ?_,
      writing_ran hi.writing (countP_set _ y hx) hr, reading_ran hi.reading (countP_set _ y hx) hr,
      fresh_ran hi.fresh hr, nodup_ran hi.fresh hi.nodup hr, ?_, ?_, ?_⟩
    · intro j h hz
      rcases set_get hz with ⟨rfl, e, -⟩ | ⟨-, hz⟩
      · exact p1 h e.symm
      · exact hi.noCopy j h hz
    · intro j z hz
      rcases set_get hz with ⟨rfl, rfl, -⟩ | ⟨hj, hz⟩
      · exact w1
      · exact (hi.writer j z hz).trans (w2 j hj).symm
    · intro j z hz hcr
      rcases set_get hz with ⟨rfl, rfl, -⟩ | ⟨hj, hz⟩
      · exact c1 hcr
      · rcases c2 with c2 | c2
        · have := (hi.writer j z hz).1 (crit_excl hcr)
          rw [c2] at this
          cases this
        · exact c2 (hi.crit j z hz hcr)
    · intro j h k hz
      rcases hz with hz | hz
      · rcases set_get hz with ⟨rfl, e, -⟩ | ⟨hj, hz⟩
        · exact p2 h k (Or.inl e.symm)
        · exact others_ran hi.nodup hd hj (hi.deref j h k (Or.inl hz)) hr
      · rcases set_get hz with ⟨rfl, e, -⟩ | ⟨hj, hz⟩
        · exact p2 h k (Or.inr e.symm)
        · exact others_ran hi.nodup hd hj (hi.deref j h k (Or.inr hz)) hr
    · intro j o p hz
      rcases set_get hz with ⟨rfl, e, -⟩ | ⟨hj, hz⟩
      · exact p3 o p e.symm
      · rcases db_ran hr with e | ⟨op, q, rfl⟩
        · show p = has (key o) sh.db
          rw [e]
          exact hi.found j o p hz
        · have h1 := (hi.writer j _ hz).1 rfl
          have h2 := (hi.writer i _ hx).1 rfl
          exact absurd (Option.some.inj (h1.symm.trans h2)) hj
    · intro j k hz
      rcases set_get hz with ⟨rfl, e, -⟩ | ⟨hj, hz⟩
      · exact p4 k e.symm
      · rcases db_ran hr with e | ⟨op, q, rfl⟩
        · show has k sh.db = true
          rw [e]
          exact hi.here j k hz
        · exact absurd (hi.crit i _ hx rfl) (shared_pos hi hz rfl)

theorem inv_init (n : Nat) : Inv (init V pref n) := by
  have hg : ∀ (j : Nat) (x : PC V), (init V pref n).pcs[j]? = some x → x = .idle none :=
    fun j x h => Prog.init_get h
  have hc : ∀ q : PC V → Bool, q (.idle none) = false → (init V pref n).pcs.countP q = 0 := by
    intro q h
    refine List.countP_eq_zero.2 ?_
    intro x hx
    obtain ⟨j, hj⟩ := List.mem_iff_getElem?.1 hx
    rw [hg j x hj, h]
    exact Bool.false_ne_true
  refine ⟨?_, ?_, ?_, ?_, ?_, ?_, ?_, ?_, ?_, ?_, ?_⟩
  · intro j h e
    cases hg j _ e
  · exact (hc PC.shared rfl).symm
  · intro j x h
    cases hg j _ h
    exact ⟨nofun, nofun⟩
  · intro j x h hcr
    rfl
  · exact (hc PC.isWriting rfl).symm
  · exact (hc PC.isReading rfl).symm
  · intro t ht
    cases ht
  · exact List.nodup_nil
  · rintro j h k (e | e) <;> cases hg j _ e
  · intro j op p e
    cases hg j _ e
  · intro j k e
    cases hg j _ e

theorem inv {n : Nat} {s : Conf (prog V pref)} (h : (prog V pref).system.ReachableBy noCopy (init V pref n) s) :
    Inv s :=
  System.ReachableBy.invariant (S := (prog V pref).system) Inv (inv_init n)
    (fun _ _ _ hi hl hs => inv_step hi hl (step_stepped hs)) h

/-- While there are iterators, nothing changes in the database. -/
theorem frozen_step {s s' : Conf (prog V pref)} {l : Label (Op V)} (hi : Inv s) (hs : Stepped pref s l s')
    (hn : s.sh.its ≠ []) : s'.sh.db = s.sh.db := by
  cases hs with
  | start i r op hx => rfl
  | run i x y sh hx hr =>
    rcases db_ran hr with e | ⟨op, q, rfl⟩
    · exact e
    · obtain ⟨t, ht⟩ := List.exists_mem_of_ne_nil _ hn
      exact absurd (hi.crit i _ hx rfl) (its_pos hi ht)

/-! ### Without `begin` -/

/-- No iterator is copied and `begin` is not called. -/
def guarded : Op V → Prop
  | .copy _ => False
  | .begin => False
  | _ => True

theorem guarded_noCopy {op : Op V} (h : guarded op) : noCopy op := by
  cases op <;> first | exact trivial | exact h

/-- The rest of the invariant. -/
structure Safe (s : Conf (prog V pref)) : Prop where
  noBegin : ∀ j : Nat, s.pcs[j]? ≠ some .bBeg ∧ s.pcs[j]? ≠ some .bEnd ∧ ∀ k, s.pcs[j]? ≠ some (.bLock (some k))
  valid : ∀ h j k : Nat, (h, j, some k) ∈ s.sh.its → has k s.sh.db = true
  sorted : StdMap.Sorted s.sh.db
  ub : s.sh.ub = false

theorem after_has {k j : Nat} {db : List (Nat × V)} (hs : StdMap.Sorted db) (h : after k db = some j) :
    has j db = true := by
  obtain ⟨⟨a, v⟩, hf, rfl⟩ := Option.map_eq_some_iff.1 h
  have := StdMap.get_of_mem hs (List.mem_of_find?_eq_some hf)
  simp [has, this]

theorem sorted_write {op : Op V} {p : Bool} {db : List (Nat × V)} (h : StdMap.Sorted db) :
    StdMap.Sorted (write op p db).1 := by
  cases op with
  | add k v => cases hk : has k db <;> simp only [write, hk, Bool.false_eq_true, if_false, if_true] <;> first | exact h | exact StdMap.sorted_put h
  | modify k v => cases p <;> first | exact h | exact StdMap.sorted_put h
  | addOrModify k v =>
    cases p
    · cases hk : has k db <;> simp only [write, hk, Bool.false_eq_true, if_false, if_true] <;> first | exact h | exact StdMap.sorted_put h
    · exact StdMap.sorted_put h
  | erase k => exact StdMap.sorted_del h
  | _ => exact h

theorem write_ub {op : Op V} {db : List (Nat × V)} : (write op (has (key op) db) db).2.2 = false := by
  cases op with
  | add k v => cases h : has k db <;> simp [write, key, h]
  | modify k v => cases h : has k db <;> simp [write, key, h]
  | addOrModify k v => cases h : has k db <;> simp [write, key, h]
  | _ => rfl

/-- Nobody reads or writes while a thread has the mutex exclusively. -/
theorem no_access {s : Conf (prog V pref)} (hi : Inv s) (hb : Safe s) {i : Nat} {op : Op V}
    (hx : s.pcs[i]? = some (.wBeg op)) : s.sh.writing = 0 ∧ s.sh.reading = 0 := by
  have h0 := hi.crit i _ hx rfl
  have hw := (hi.writer i _ hx).1 rfl
  constructor
  · rw [hi.writing]
    refine List.countP_eq_zero.2 ?_
    intro z hz hq
    obtain ⟨j, hj⟩ := List.mem_iff_getElem?.1 hz
    have he : z.excl = true := by cases z <;> first | rfl | (cases hq; done)
    have := (hi.writer j z hj).1 he
    obtain rfl := Option.some.inj (this.symm.trans hw)
    rw [hx] at hj
    cases hj
    cases hq
  · rw [hi.reading]
    refine List.countP_eq_zero.2 ?_
    intro z hz hq
    obtain ⟨j, hj⟩ := List.mem_iff_getElem?.1 hz
    cases z with
    | rEnd o => exact shared_pos hi hj rfl h0
    | fEnd o => exact shared_pos hi hj rfl h0
    | bEnd => exact (hb.noBegin j).2.1 hj
    | dEnd h k => exact its_pos hi (hi.deref j h k (Or.inl hj)) h0
    | aEnd h k => exact its_pos hi (hi.deref j h k (Or.inr hj)) h0
    | _ => cases hq

/-- Nobody writes while there is a shared lock. -/
theorem no_write {s : Conf (prog V pref)} (hi : Inv s) (h : s.sh.readers ≠ 0) : s.sh.writing = 0 := by
  rw [hi.writing]
  refine List.countP_eq_zero.2 ?_
  intro z hz hq
  obtain ⟨j, hj⟩ := List.mem_iff_getElem?.1 hz
  have he : z.crit = true := by cases z <;> first | rfl | (cases hq; done)
  exact h (hi.crit j z hj he)

theorem ub_ran {s : Conf (prog V pref)} {i : Nat} {x y : PC V} {sh : Sh V} (hi : Inv s) (hb : Safe s)
    (hx : s.pcs[i]? = some x) (hr : Ran pref i s.sh x sh y) : sh.ub = false := by
  have rd : s.sh.readers ≠ 0 → (s.sh.ub || s.sh.writing != 0) = false := by
    intro h
    rw [hb.ub, no_write hi h]
    rfl
  have un : s.sh.readers ≠ 0 → (s.sh.ub || s.sh.readers == 0) = false := by
    intro h
    rw [hb.ub]
    simpa using h
  cases hr with
  | wBeg op =>
    obtain ⟨h1, h2⟩ := no_access hi hb hx
    show (s.sh.ub || s.sh.writing != 0 || s.sh.reading != 0) = false
    rw [hb.ub, h1, h2]
    rfl
  | wEnd op p =>
    show (s.sh.ub || (write op p s.sh.db).2.2) = false
    rw [hi.found i op p hx, write_ub, hb.ub]
    rfl
  | rBeg op => exact rd (shared_pos hi hx rfl)
  | fBeg op => exact rd (shared_pos hi hx rfl)
  | bBeg => exact absurd hx (hb.noBegin i).1
  | dBeg h k hl => exact rd (its_pos hi (lookup_mem hl))
  | aBeg h k hl => exact rd (its_pos hi (lookup_mem hl))
  | rRel r => exact un (shared_pos hi hx rfl)
  | fRel r => exact un (shared_pos hi hx rfl)
  | destroy h p hl => exact un (its_pos hi (lookup_mem hl))
  | dBad h k hk =>
    have := hb.valid h i k (hi.deref i h k (Or.inl hx))
    simp [has, hk] at this
  | aBad h k hk =>
    have := hb.valid h i k (hi.deref i h k (Or.inr hx))
    rw [hk] at this
    cases this
  | _ => exact hb.ub

theorem valid_ran {s : Conf (prog V pref)} {i : Nat} {x y : PC V} {sh : Sh V} (hi : Inv s) (hb : Safe s)
    (hx : s.pcs[i]? = some x) (hr : Ran pref i s.sh x sh y) :
    ∀ h j k : Nat, (h, j, some k) ∈ sh.its → has k sh.db = true := by
  have add : ∀ p, (∀ k, p = some k → has k s.sh.db = true) → ∀ h j k : Nat,
      (h, j, some k) ∈ s.sh.its ++ [(s.sh.nextIt, i, p)] → has k s.sh.db = true := by
    intro p hp h j k hm
    rcases List.mem_append.1 hm with hm | hm
    · exact hb.valid h j k hm
    · have := List.mem_singleton.1 hm
      exact hp k (congrArg (fun t => t.2.2) this).symm
  cases hr with
  | wEnd op p =>
    intro h j k hm
    exact absurd (hi.crit i _ hx rfl) (its_pos hi hm)
  | fLock p hw => exact add p (fun k e => hi.here i k (e ▸ hx))
  | bLock p hw => exact add p (fun k e => absurd (e ▸ hx) ((hb.noBegin i).2.2 k))
  | copy h p hl => exact absurd hx (hi.noCopy i h)
  | destroy h p hl => exact fun g j k hm => hb.valid g j k (List.mem_filter.1 hm).1
  | aEnd h k hk =>
    intro g j k' hm
    obtain ⟨⟨a, b, c⟩, ht, e⟩ := List.mem_map.1 hm
    split at e
    · have : after k s.sh.db = some k' := congrArg (fun t => t.2.2) e
      exact after_has hb.sorted this
    · cases e
      exact hb.valid g j k' ht
  | _ => exact hb.valid

theorem noBegin_ran {s : Conf (prog V pref)} {i : Nat} {x y : PC V} {sh : Sh V} (hb : Safe s)
    (hx : s.pcs[i]? = some x) (hr : Ran pref i s.sh x sh y) :
    y ≠ .bBeg ∧ y ≠ .bEnd ∧ ∀ k, y ≠ .bLock (some k) := by
  cases hr with
  | bBeg => exact absurd hx (hb.noBegin i).1
  | bEnd => exact absurd hx (hb.noBegin i).2.1
  | _ => exact ⟨nofun, nofun, nofun⟩

theorem sorted_ran {s : Conf (prog V pref)} {i : Nat} {x y : PC V} {sh : Sh V} (hb : Safe s)
    (hr : Ran pref i s.sh x sh y) : StdMap.Sorted sh.db := by
  cases hr with
  | wEnd op p => exact sorted_write hb.sorted
  | _ => exact hb.sorted

theorem safe_step {s s' : Conf (prog V pref)} {l : Label (Op V)} (hi : Inv s) (hb : Safe s)
    (hl : l.Allowed guarded) (hs : Stepped pref s l s') : Safe s' := by
  cases hs with
  | start i r op hx =>
    refine ⟨?_, hb.valid, hb.sorted, hb.ub⟩
    intro j
    have key : ∀ z, (z = .bBeg ∨ z = .bEnd ∨ ∃ k, z = .bLock (some k)) → s.pcs[j]? ≠ some z →
        (s.pcs.set i (entry op))[j]? ≠ some z := by
      intro z hz hn e
      rcases set_get e with ⟨rfl, e, -⟩ | ⟨-, e⟩
      · cases op with
        | begin => exact hl
        | _ => subst e; rcases hz with e | e | ⟨k, e⟩ <;> cases e
      · exact hn e
    exact ⟨key _ (Or.inl rfl) (hb.noBegin j).1, key _ (Or.inr (Or.inl rfl)) (hb.noBegin j).2.1,
      fun k => key _ (Or.inr (Or.inr ⟨k, rfl⟩)) ((hb.noBegin j).2.2 k)⟩
  | run i x y sh hx hr =>
    obtain ⟨n1, n2, n3⟩ := noBegin_ran hb hx hr
    refine ⟨?_, valid_ran hi hb hx hr, sorted_ran hb hr, ub_ran hi hb hx hr⟩
    intro j
    have key : ∀ z, y ≠ z → s.pcs[j]? ≠ some z → (s.pcs.set i y)[j]? ≠ some z := by
      intro z hz hn e
      rcases set_get e with ⟨rfl, e, -⟩ | ⟨-, e⟩
      · exact hz e.symm
      · exact hn e
    exact ⟨key _ n1 (hb.noBegin j).1, key _ n2 (hb.noBegin j).2.1, fun k => key _ (n3 k) ((hb.noBegin j).2.2 k)⟩

theorem safe_init (n : Nat) : Safe (init V pref n) := by
  have hg : ∀ (j : Nat) (x : PC V), (init V pref n).pcs[j]? = some x → x = .idle none :=
    fun j x h => Prog.init_get h
  refine ⟨?_, ?_, StdMap.sorted_nil, rfl⟩
  · intro j
    refine ⟨?_, ?_, ?_⟩
    · intro e; cases hg j _ e
    · intro e; cases hg j _ e
    · intro k e; cases hg j _ e
  · intro h j k hm
    cases hm

theorem allowed_noCopy {l : Label (Op V)} (h : l.Allowed guarded) : l.Allowed noCopy := by
  cases l with
  | start i op => exact guarded_noCopy h
  | _ => trivial

theorem safe {n : Nat} {s : Conf (prog V pref)}
    (h : (prog V pref).system.ReachableBy guarded (init V pref n) s) : Inv s ∧ Safe s :=
  System.ReachableBy.invariant (S := (prog V pref).system) (fun s => Inv s ∧ Safe s)
    ⟨inv_init n, safe_init n⟩
    (fun _ _ _ hi hl hs => ⟨inv_step hi.1 (allowed_noCopy hl) (step_stepped hs),
      safe_step hi.1 hi.2 hl (step_stepped hs)⟩) h

end Verif.SafeDatabase
