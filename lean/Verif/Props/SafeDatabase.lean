import Verif.Lemmas.SafeDatabase
/-!
C63, C64: `SafeDatabase` as a map, and its iterators.
-/
namespace Verif.SafeDatabase
open Verif.Threads

variable {V : Type} {pref : Bool}

/-- `m` with `k` bound to `o`. -/
def bind (m : Nat → Option V) (k : Nat) (o : Option V) : Nat → Option V := fun j => if j = k then o else m j

/-- What a call does to a map and what it returns, as documented. -/
inductive Effect (m : Nat → Option V) : Op V → Ret V → (Nat → Option V) → Prop
  | added (k v) (h : m k = none) : Effect m (.add k v) (.bool true) (bind m k (some v))
  | notAdded (k v w) (h : m k = some w) : Effect m (.add k v) (.bool false) m
  | modified (k v w) (h : m k = some w) : Effect m (.modify k v) (.bool true) (bind m k (some v))
  | notModified (k v) (h : m k = none) : Effect m (.modify k v) (.bool false) m
  | addOrModifyAdded (k v) (h : m k = none) : Effect m (.addOrModify k v) (.bool true) (bind m k (some v))
  | addOrModifyModified (k v w) (h : m k = some w) :
      Effect m (.addOrModify k v) (.bool false) (bind m k (some v))
  | erased (k w) (h : m k = some w) : Effect m (.erase k) (.bool true) (bind m k none)
  | notErased (k) (h : m k = none) : Effect m (.erase k) (.bool false) m
  | present (k w) (h : m k = some w) : Effect m (.is k) (.bool true) m
  | absent (k) (h : m k = none) : Effect m (.is k) (.bool false) m
  | value (k w) (h : m k = some w) : Effect m (.at k) (.value w) m
  | noValue (k) (h : m k = none) : Effect m (.at k) .outOfRange m
  | size (keys : List Nat) (hn : keys.Nodup) (h : ∀ k, k ∈ keys ↔ ∃ w, m k = some w) :
      Effect m .size (.num (keys.length % 2 ^ 32)) m
  | found (k w) (h : m k = some w) : Effect m (.find k) (.pos (some k)) m
  | notFound (k) (h : m k = none) : Effect m (.find k) (.pos none) m

/-- The map after a sequence of calls, one after the other, on an empty map. -/
inductive History : List (Nat × Op V × Ret V) → (Nat → Option V) → Prop
  | nil : History [] fun _ => none
  | snoc {l m i op r m'} : History l m → Effect m op r m' → History (l ++ [(i, op, r)]) m'

theorem has_true {k : Nat} {db : List (Nat × V)} (h : has k db = true) : ∃ w, StdMap.get k db = some w :=
  Option.isSome_iff_exists.1 h

theorem has_false {k : Nat} {db : List (Nat × V)} (h : has k db = false) : StdMap.get k db = none := by
  cases e : StdMap.get k db with
  | none => rfl
  | some w => simp [has, e] at h

theorem bind_put (k : Nat) (v : V) (db : List (Nat × V)) :
    (fun j => StdMap.get j (StdMap.put k v db)) = bind (fun j => StdMap.get j db) k (some v) :=
  funext fun j => StdMap.get_put k j v db

theorem bind_del (k : Nat) (db : List (Nat × V)) :
    (fun j => StdMap.get j (StdMap.del k db)) = bind (fun j => StdMap.get j db) k none :=
  funext fun j => StdMap.get_del k j db

/-- Calls that write. -/
def writes : Op V → Prop
  | .add _ _ | .modify _ _ | .addOrModify _ _ | .erase _ => True
  | _ => False

/-- Calls that take a `shared_lock` and read. -/
def reads : Op V → Prop
  | .is _ | .at _ | .size => True
  | _ => False

theorem write_effect {op : Op V} (h : writes op) (db : List (Nat × V)) :
    Effect (fun k => StdMap.get k db) op (write op (has (key op) db) db).2.1
      (fun k => StdMap.get k (write op (has (key op) db) db).1) := by
  cases op with
  | add k v =>
    cases e : has k db with
    | true =>
      obtain ⟨w, hw⟩ := has_true e
      simp only [write, key, e, if_true]
      exact .notAdded k v w hw
    | false =>
      simp only [write, key, e, Bool.false_eq_true, if_false]
      rw [bind_put]
      exact .added k v (has_false e)
  | modify k v =>
    cases e : has k db with
    | true =>
      obtain ⟨w, hw⟩ := has_true e
      simp only [write, key, e, if_true]
      rw [bind_put]
      exact .modified k v w hw
    | false =>
      simp only [write, key, e, Bool.false_eq_true, if_false]
      exact .notModified k v (has_false e)
  | addOrModify k v =>
    cases e : has k db with
    | true =>
      obtain ⟨w, hw⟩ := has_true e
      simp only [write, key, e, if_true]
      rw [bind_put]
      exact .addOrModifyModified k v w hw
    | false =>
      simp only [write, key, e, Bool.false_eq_true, if_false]
      rw [bind_put]
      exact .addOrModifyAdded k v (has_false e)
  | erase k =>
    cases e : has k db with
    | true =>
      obtain ⟨w, hw⟩ := has_true e
      simp only [write, e]
      rw [bind_del]
      exact .erased k w hw
    | false =>
      simp only [write, e]
      have : (fun j => StdMap.get j (StdMap.del k db)) = fun j => StdMap.get j db := by
        rw [bind_del]
        funext j
        unfold bind
        split
        · rename_i hj
          rw [hj, has_false e]
        · rfl
      rw [this]
      exact .notErased k (has_false e)
  | _ => exact absurd h id

theorem keys_nodup {db : List (Nat × V)} (h : StdMap.Sorted db) : (db.map Prod.fst).Nodup := by
  induction db with
  | nil => exact List.nodup_nil
  | cons p db ih =>
    obtain ⟨h1, h2⟩ := List.pairwise_cons.1 h
    refine List.nodup_cons.2 ⟨?_, ih h2⟩
    intro hm
    obtain ⟨q, hq, e⟩ := List.mem_map.1 hm
    have := h1 q hq
    omega

theorem read_effect {op : Op V} (h : reads op) {db : List (Nat × V)} (hs : StdMap.Sorted db) :
    Effect (fun k => StdMap.get k db) op (read op db) (fun k => StdMap.get k db) := by
  cases op with
  | is k =>
    cases e : has k db with
    | true =>
      obtain ⟨w, hw⟩ := has_true e
      simp only [read, e]
      exact .present k w hw
    | false =>
      simp only [read, e]
      exact .absent k (has_false e)
  | «at» k =>
    cases e : StdMap.get k db with
    | some w =>
      simp only [read, e]
      exact .value k w e
    | none =>
      simp only [read, e]
      exact .noValue k e
  | size =>
    have := Effect.size (m := fun k => StdMap.get k db) (db.map Prod.fst) (keys_nodup hs) (by
      intro k
      constructor
      · intro hm
        obtain ⟨⟨a, v⟩, hq, rfl⟩ := List.mem_map.1 hm
        exact ⟨v, StdMap.get_of_mem hs hq⟩
      · rintro ⟨w, hw⟩
        exact List.mem_map.2 ⟨(k, w), StdMap.get_some_mem hw, rfl⟩)
    rw [List.length_map] at this
    exact this
  | _ => exact absurd h id

/-- The places inside a call, and the calls they belong to. -/
def PC.calls : PC V → Prop
  | .wAcq op | .wDrain op | .wBeg op | .wFind op | .wEnd op _ => writes op
  | .rAcq op | .rBeg op | .rEnd op => reads op
  | _ => True

theorem entry_calls (op : Op V) : (entry op).calls := by
  cases op <;> trivial

theorem calls_ran {i : Nat} {s sh : Sh V} {x y : PC V} (h : x.calls) (hr : Ran pref i s x sh y) : y.calls := by
  cases hr <;> first | exact trivial | exact h

theorem calls {A : Op V → Prop} {n : Nat} {s : Conf (prog V pref)}
    (h : (prog V pref).system.ReachableBy A (init V pref n) s) :
    ∀ (j : Nat) (x : PC V), s.pcs[j]? = some x → x.calls := by
  refine System.ReachableBy.invariant (S := (prog V pref).system)
    (fun s : Conf (prog V pref) => ∀ (j : Nat) (x : PC V), s.pcs[j]? = some x → x.calls) ?_ ?_ h
  · intro j x hx
    rw [Prog.init_get hx]
    trivial
  · intro s l s' hi hl hs
    cases step_stepped hs with
    | start i r op hx =>
      intro j z hz
      rcases set_get hz with ⟨rfl, rfl, -⟩ | ⟨-, hz⟩
      · exact entry_calls op
      · exact hi j z hz
    | run i x y sh hx hr =>
      intro j z hz
      rcases set_get hz with ⟨rfl, rfl, -⟩ | ⟨-, hz⟩
      · exact calls_ran (hi _ x hx) hr
      · exact hi j z hz

theorem history_ran {s : Conf (prog V pref)} {i : Nat} {x y : PC V} {sh : Sh V} (hi : Inv s) (hb : Safe s)
    (hc : x.calls) (hx : s.pcs[i]? = some x) (hh : History s.sh.log fun k => StdMap.get k s.sh.db)
    (hr : Ran pref i s.sh x sh y) : History sh.log fun k => StdMap.get k sh.db := by
  cases hr with
  | wEnd op p =>
    obtain rfl := hi.found i op p hx
    exact hh.snoc (write_effect hc s.sh.db)
  | rEnd op => exact hh.snoc (read_effect hc hb.sorted)
  | fFound k hk =>
    obtain ⟨w, hw⟩ := has_true hk
    exact hh.snoc (.found k w hw)
  | fAbsent k hk => exact hh.snoc (.notFound k (has_false hk))
  | _ => exact hh

/-- C63, first half.  However the calls of any number of threads interleave (everything but `begin` and
copies of iterators, see C64): there is no data race nor other undefined behaviour, and the contents and
results are those of the calls executed one after the other, in the order in which they took effect. -/
theorem C63_sequential {n : Nat} {s : Conf (prog V pref)}
    (h : (prog V pref).system.ReachableBy guarded (init V pref n) s) :
    s.sh.ub = false ∧ History s.sh.log fun k => StdMap.get k s.sh.db := by
  have key : (Inv s ∧ Safe s ∧ ∀ (j : Nat) (x : PC V), s.pcs[j]? = some x → x.calls) ∧
      History s.sh.log fun k => StdMap.get k s.sh.db := by
    refine System.ReachableBy.invariant (S := (prog V pref).system)
      (fun s : Conf (prog V pref) => (Inv s ∧ Safe s ∧ ∀ (j : Nat) (x : PC V), s.pcs[j]? = some x → x.calls) ∧
        History s.sh.log fun k => StdMap.get k s.sh.db)
      ⟨⟨inv_init n, safe_init n, fun j x hx => by rw [Prog.init_get hx]; trivial⟩, .nil⟩ ?_ h
    rintro s l s' ⟨⟨hi, hb, hc⟩, hh⟩ hl hs
    have hs := step_stepped hs
    refine ⟨⟨inv_step hi (allowed_noCopy hl) hs, safe_step hi hb hl hs, ?_⟩, ?_⟩
    · cases hs with
      | start i r op hx =>
        intro j z hz
        rcases set_get hz with ⟨rfl, rfl, -⟩ | ⟨-, hz⟩
        · exact entry_calls op
        · exact hc j z hz
      | run i x y sh hx hr =>
        intro j z hz
        rcases set_get hz with ⟨rfl, rfl, -⟩ | ⟨-, hz⟩
        · exact calls_ran (hc _ x hx) hr
        · exact hc j z hz
    · cases hs with
      | start i r op hx => exact hh
      | run i x y sh hx hr => exact history_ran hi hb (hc i x hx) hx hh hr
  exact ⟨key.1.2.1.ub, key.2⟩

/-! ### Each call takes effect between its start and its return -/

/-- The entries of thread `i`. -/
def mine (i : Nat) (log : List (Nat × Op V × Ret V)) : List (Nat × Op V × Ret V) := log.filter fun t => t.1 == i

/-- A call `op` of thread `i` that is at `x`: before or after its effect. -/
def During (i : Nat) (op : Op V) (L : List (Nat × Op V × Ret V)) (s : Sh V) : PC V → Prop
  | .wAcq o | .wDrain o | .wBeg o | .wFind o | .wEnd o _ | .rAcq o | .rBeg o | .rEnd o => o = op ∧ mine i s.log = L
  | .wRel r | .rRel r => mine i s.log = L ++ [(i, op, r)]
  | .fAcq k | .fBeg k | .fEnd k => op = .find k ∧ mine i s.log = L
  | .fLock p => ∃ k, op = .find k ∧ mine i s.log = L ++ [(i, op, .pos p)]
  | .fRel h => ∃ k p, op = .find k ∧ mine i s.log = L ++ [(i, op, .pos p)] ∧ (h, i, p) ∈ s.its
  | .idle (some (.iter h)) => ∃ k p, op = .find k ∧ mine i s.log = L ++ [(i, op, .pos p)] ∧ (h, i, p) ∈ s.its
  | .idle (some r) => mine i s.log = L ++ [(i, op, r)]
  | _ => False

theorem mine_snoc (i : Nat) (log : List (Nat × Op V × Ret V)) (op : Op V) (r : Ret V) :
    mine i (log ++ [(i, op, r)]) = mine i log ++ [(i, op, r)] := by
  simp [mine]

theorem mine_other {i j : Nat} (hj : j ≠ i) (log : List (Nat × Op V × Ret V)) (op : Op V) (r : Ret V) :
    mine i (log ++ [(j, op, r)]) = mine i log := by
  simp [mine, hj]

theorem log_other {i j : Nat} (hj : j ≠ i) {s sh : Sh V} {x y : PC V} (hr : Ran pref j s x sh y) :
    mine i sh.log = mine i s.log := by
  cases hr with
  | wEnd op p => exact mine_other hj _ _ _
  | rEnd op => exact mine_other hj _ _ _
  | fFound k hk => exact mine_other hj _ _ _
  | fAbsent k hk => exact mine_other hj _ _ _
  | _ => rfl

theorem during_same {i : Nat} {op : Op V} {L : List (Nat × Op V × Ret V)} {s s' : Sh V} {x : PC V}
    (h1 : mine i s'.log = mine i s.log) (h2 : ∀ h p, (h, i, p) ∈ s.its → (h, i, p) ∈ s'.its)
    (h : During i op L s x) : During i op L s' x := by
  have it : ∀ h, (∃ k p, op = .find k ∧ mine i s.log = L ++ [(i, op, .pos p)] ∧ (h, i, p) ∈ s.its) →
      ∃ k p, op = .find k ∧ mine i s'.log = L ++ [(i, op, .pos p)] ∧ (h, i, p) ∈ s'.its := by
    rintro h ⟨k, p, a, b, c⟩
    exact ⟨k, p, a, h1.trans b, h2 h p c⟩
  cases x with
  | wRel r => exact h1.trans h
  | rRel r => exact h1.trans h
  | fLock p => exact h.imp fun k h => ⟨h.1, h1.trans h.2⟩
  | fRel k => exact it k h
  | idle r =>
    cases r with
    | none => exact h
    | some r =>
      cases r with
      | iter k => exact it k h
      | _ => exact h1.trans h
  | wAcq _ | wDrain _ | wBeg _ | wFind _ | wEnd _ _ | rAcq _ | rBeg _ | rEnd _ | fAcq _ | fBeg _ | fEnd _ =>
    exact ⟨h.1, h1.trans h.2⟩
  | _ => exact h

/-- A result that is not a handle. -/
theorem during_idle {i : Nat} {op : Op V} {L : List (Nat × Op V × Ret V)} {s : Sh V} {r : Ret V}
    (hr : ∀ h, r ≠ .iter h) (h : mine i s.log = L ++ [(i, op, r)]) : During i op L s (.idle (some r)) := by
  cases r with
  | iter k => exact absurd rfl (hr k)
  | _ => exact h

theorem write_ret (op : Op V) (p : Bool) (db : List (Nat × V)) (h : Nat) : (write op p db).2.1 ≠ .iter h := by
  cases op with
  | add k v => cases e : has k db <;> simp [write, e]
  | modify k v => cases p <;> simp [write]
  | addOrModify k v => cases p <;> cases e : has k db <;> simp [write, e]
  | erase k => simp [write]
  | _ => exact nofun

theorem read_ret (op : Op V) (db : List (Nat × V)) (h : Nat) : read op db ≠ .iter h := by
  cases op with
  | «at» k => cases e : StdMap.get k db <;> simp [read, e]
  | _ => exact nofun

/-- The results about to be returned are not handles. -/
def PC.plain : PC V → Prop
  | .wRel r | .rRel r => ∀ h, r ≠ .iter h
  | _ => True

theorem plain_ran {i : Nat} {s sh : Sh V} {x y : PC V} (hr : Ran pref i s x sh y) : y.plain := by
  cases hr with
  | wEnd op p => exact write_ret op p s.db
  | rEnd op => exact read_ret op s.db
  | _ => trivial

theorem during_run {i : Nat} {op : Op V} {L : List (Nat × Op V × Ret V)} {s sh : Sh V} {x y : PC V}
    (hp : x.plain) (h : During i op L s x) (hr : Ran pref i s x sh y) : During i op L sh y := by
  cases hr with
  | wEnd o p =>
    obtain ⟨rfl, h⟩ := h
    exact (mine_snoc i _ _ _).trans (congrArg (· ++ [_]) h)
  | rEnd o =>
    obtain ⟨rfl, h⟩ := h
    exact (mine_snoc i _ _ _).trans (congrArg (· ++ [_]) h)
  | wRel r => exact during_idle hp h
  | rRel r => exact during_idle hp h
  | fFound k hk =>
    obtain ⟨rfl, h⟩ := h
    exact ⟨k, rfl, (mine_snoc i _ _ _).trans (congrArg (· ++ [_]) h)⟩
  | fAbsent k hk =>
    obtain ⟨rfl, h⟩ := h
    exact ⟨k, rfl, (mine_snoc i _ _ _).trans (congrArg (· ++ [_]) h)⟩
  | fLock p hw =>
    obtain ⟨k, rfl, h⟩ := h
    exact ⟨k, p, rfl, h, List.mem_append_right _ (List.mem_singleton.2 rfl)⟩
  | fRel k => exact h
  | wAcq _ _ _ => exact h
  | wWait _ _ _ _ => exact h
  | wDrain _ _ => exact h
  | wBeg _ => exact h
  | wFind _ => exact h
  | rAcq _ _ => exact h
  | rBeg _ => exact h
  | fAcq _ _ => exact h
  | fBeg _ => exact h
  | _ => exact absurd h id

theorem during_step {s s' : Conf (prog V pref)} {l : Label (Op V)} {i : Nat} {op : Op V}
    {L : List (Nat × Op V × Ret V)} (hi : Inv s) (hs : Stepped pref s l s') (hl : ∀ o, l ≠ .start i o)
    (h : ∃ x, s.pcs[i]? = some x ∧ x.plain ∧ During i op L s.sh x) :
    ∃ x, s'.pcs[i]? = some x ∧ x.plain ∧ During i op L s'.sh x := by
  obtain ⟨x, hx, hp, hd⟩ := h
  cases hs with
  | start j r o hj =>
    have : i ≠ j := fun e => hl o (by rw [e])
    exact ⟨x, (get_set_ne this).trans hx, hp, hd⟩
  | run j z y sh hz hr =>
    by_cases e : i = j
    · subst e
      rw [hx] at hz
      cases hz
      exact ⟨y, get_set_self hx, plain_ran hr, during_run hp hd hr⟩
    · refine ⟨x, (get_set_ne e).trans hx, hp, during_same (log_other (fun h => e h.symm) hr) ?_ hd⟩
      exact fun h p hm => others_ran hi.nodup (fun h k e => hi.deref j h k (Or.inr (e ▸ hz))) e hm hr

theorem during_exec {i : Nat} {op : Op V} {L : List (Nat × Op V × Ret V)} (ls : List (Label (Op V)))
    (hls : ∀ l ∈ ls, l.Allowed noCopy ∧ ∀ o, l ≠ .start i o) {s s' : Conf (prog V pref)} (hi : Inv s)
    (he : (prog V pref).system.exec s ls = some s')
    (h : ∃ x, s.pcs[i]? = some x ∧ x.plain ∧ During i op L s.sh x) :
    ∃ x, s'.pcs[i]? = some x ∧ x.plain ∧ During i op L s'.sh x := by
  induction ls generalizing s with
  | nil => cases he; exact h
  | cons l ls ih =>
    obtain ⟨s1, h1, h2⟩ := System.exec_cons he
    have hl := hls l (List.mem_cons_self ..)
    have hs := step_stepped h1
    exact ih (fun k hk => hls k (List.mem_cons_of_mem _ hk)) (inv_step hi hl.1 hs) h2
      (during_step hi hs hl.2 h)

/-- C63, second half: a call of `add`, `modify`, `add_or_modify`, `erase`, `is`, `at`, `size` or `find` that
returns took effect exactly once between its start and its return, with the result it returns (`find`: the
iterator returned is at the position found). -/
theorem C63_call {n : Nat} {s s' : Conf (prog V pref)} {i : Nat} {op : Op V} {r : Option (Ret V)}
    (h : (prog V pref).system.ReachableBy guarded (init V pref n) s)
    (hop : writes op ∨ reads op ∨ ∃ k, op = .find k) (ls : List (Label (Op V)))
    (hls : ∀ l ∈ ls, l.Allowed guarded ∧ ∀ o, l ≠ .start i o)
    (he : (prog V pref).system.exec s (.start i op :: ls) = some s') (hr : s'.pcs[i]? = some (.idle r)) :
    ∃ q, s'.sh.log.filter (fun t => t.1 == i) = s.sh.log.filter (fun t => t.1 == i) ++ [(i, op, q)] ∧
      (r = some q ∨ ∃ p g, q = .pos p ∧ r = some (.iter g) ∧ (g, i, p) ∈ s'.sh.its) := by
  obtain ⟨s1, h1, h2⟩ := System.exec_cons he
  have hi := (safe h).1
  have hg : noCopy op := by
    rcases hop with hop | hop | ⟨k, rfl⟩
    · cases op <;> first | trivial | exact hop
    · cases op <;> first | trivial | exact hop
    · trivial
  have hs := step_stepped h1
  have hi1 : Inv s1 := inv_step hi (l := .start i op) hg hs
  have hd : ∃ x, s1.pcs[i]? = some x ∧ x.plain ∧ During i op (mine i s.sh.log) s1.sh x := by
    cases hs with
    | start _ r' _ hx =>
      refine ⟨entry op, get_set_self hx, ?_, ?_⟩
      · cases op <;> trivial
      · rcases hop with hop | hop | ⟨k, rfl⟩
        · cases op <;> first | exact ⟨rfl, rfl⟩ | exact absurd hop id
        · cases op <;> first | exact ⟨rfl, rfl⟩ | exact absurd hop id
        · exact ⟨rfl, rfl⟩
  obtain ⟨x, hx, -, hd⟩ := during_exec ls (fun l hl => ⟨allowed_noCopy (hls l hl).1, (hls l hl).2⟩) hi1 h2 hd
  rw [hr] at hx
  cases hx
  cases r with
  | none => exact absurd hd id
  | some r =>
    cases r with
    | iter g =>
      obtain ⟨k, p, rfl, a, b⟩ := hd
      exact ⟨.pos p, a, Or.inr ⟨p, g, rfl, rfl, b⟩⟩
    | _ => exact ⟨_, hd, Or.inl rfl⟩

/-! ### C64: iterators -/

/-- C64: while an iterator exists no element changes; copies of iterators excluded (they hold no lock, see
`C64_negation_copy`). -/
theorem C64_frozen_partial {n : Nat} {s s' : Conf (prog V pref)} {l : Label (Op V)}
    (h : (prog V pref).system.ReachableBy noCopy (init V pref n) s)
    (hs : (prog V pref).system.step s l = some s') (hit : s.sh.its ≠ []) : s'.sh.db = s.sh.db :=
  frozen_step (inv h) (step_stepped hs) hit

/-- C64: every iterator denotes an element or the end; iterators from `begin` (`C64_negation_begin`) and
copies excluded. -/
theorem C64_valid_partial {n : Nat} {s : Conf (prog V pref)}
    (h : (prog V pref).system.ReachableBy guarded (init V pref n) s) {g i k : Nat}
    (hit : (g, i, some k) ∈ s.sh.its) : ∃ v, StdMap.get k s.sh.db = some v :=
  has_true ((safe h).2.valid g i k hit)

/-- C64, use of an iterator: `*it` gives the key it is at and the value this key has, before and after the
call (same exclusions). -/
theorem C64_deref_partial {n : Nat} {s s' : Conf (prog V pref)} {i g k : Nat} {r : Option (Ret V)}
    (h : (prog V pref).system.ReachableBy guarded (init V pref n) s) (hit : (g, i, some k) ∈ s.sh.its)
    (ls : List (Label (Op V))) (hls : ∀ l ∈ ls, l.Allowed guarded ∧ ∀ o, l ≠ .start i o)
    (he : (prog V pref).system.exec s (.start i (.deref g) :: ls) = some s')
    (hr : s'.pcs[i]? = some (.idle r)) :
    ∃ v, r = some (.item k v) ∧ StdMap.get k s.sh.db = some v ∧ s'.sh.db = s.sh.db := by
  obtain ⟨v, hv⟩ := C64_valid_partial h hit
  obtain ⟨s1, h1, h2⟩ := System.exec_cons he
  have key : ∀ (ls : List (Label (Op V))), (∀ l ∈ ls, l.Allowed guarded ∧ ∀ o, l ≠ .start i o) →
      ∀ a b : Conf (prog V pref), Inv a → Safe a → (prog V pref).system.exec a ls = some b →
      (∃ x, a.pcs[i]? = some x ∧ (x = .dBeg g ∨ x = .dEnd g k ∨ x = .idle (some (.item k v)))) →
      (g, i, some k) ∈ a.sh.its → a.sh.db = s.sh.db →
      (∃ x, b.pcs[i]? = some x ∧ (x = .dBeg g ∨ x = .dEnd g k ∨ x = .idle (some (.item k v)))) ∧
        b.sh.db = s.sh.db := by
    intro ls
    induction ls with
    | nil =>
      intro _ a b _ _ he hx _ hd
      cases he
      exact ⟨hx, hd⟩
    | cons l ls ih =>
      intro hls a b hi hb he hx hm hd
      obtain ⟨a1, e1, e2⟩ := System.exec_cons he
      have hl := hls l (List.mem_cons_self ..)
      have hs := step_stepped e1
      have hd1 := frozen_step hi hs (List.ne_nil_of_mem hm)
      refine ih (fun m hm => hls m (List.mem_cons_of_mem _ hm)) a1 b (inv_step hi (allowed_noCopy hl.1) hs)
        (safe_step hi hb hl.1 hs) e2 ?_ ?_ (hd1.trans hd)
      · obtain ⟨x, hx, hc⟩ := hx
        cases hs with
        | start j _ o hj =>
          have : i ≠ j := fun e => hl.2 o (by rw [e])
          exact ⟨x, (get_set_ne this).trans hx, hc⟩
        | run j z y sh hz hr =>
          by_cases e : i = j
          · subst e
            rw [hx] at hz
            cases hz
            refine ⟨y, get_set_self hx, ?_⟩
            rcases hc with rfl | rfl | rfl
            · cases hr with
              | dNone _ hl =>
                exact absurd (lookup_of_mem hi.nodup hm) (hl k)
              | dBeg _ k' hl =>
                have := handle_unique hi.nodup hm (lookup_mem hl) rfl
                cases this
                exact Or.inr (Or.inl rfl)
            · cases hr with
              | dEnd _ _ v' hk =>
                rw [hd, hv] at hk
                cases hk
                exact Or.inr (Or.inr rfl)
              | dBad _ _ hk =>
                rw [hd, hv] at hk
                cases hk
            · cases hr
          · exact ⟨x, (get_set_ne e).trans hx, hc⟩
      · cases hs with
        | start j _ o hj => exact hm
        | run j z y sh hz hr =>
          by_cases e : i = j
          · subst e
            obtain ⟨x, hx, hc⟩ := hx
            rw [hx] at hz
            cases hz
            rcases hc with rfl | rfl | rfl <;> cases hr <;> exact hm
          · exact others_ran hi.nodup (fun h k e => hi.deref j h k (Or.inr (e ▸ hz))) e hm hr
  have hb := safe h
  have hs1 := step_stepped h1
  have := key ls hls s1 s' (inv_step hb.1 (l := .start i (.deref g)) trivial hs1)
    (safe_step hb.1 hb.2 (l := .start i (.deref g)) trivial hs1) h2 ?_ ?_ ?_
  · obtain ⟨⟨x, hx, hc⟩, hd⟩ := this
    rw [hr] at hx
    cases hx
    rcases hc with e | e | e
    · cases e
    · cases e
    · cases e
      exact ⟨v, rfl, hv, hd⟩
  · cases hs1 with
    | start _ r' _ hx => exact ⟨_, get_set_self hx, Or.inl rfl⟩
  · cases hs1 with
    | start _ r' _ hx => exact hit
  · cases hs1 with
    | start _ r' _ hx => rfl

theorem after_least {k : Nat} {db : List (Nat × V)} (hs : StdMap.Sorted db) :
    match after k db with
    | none => ∀ j v, StdMap.get j db = some v → j ≤ k
    | some m => k < m ∧ (∃ v, StdMap.get m db = some v) ∧ ∀ j v, StdMap.get j db = some v → k < j → m ≤ j := by
  unfold after
  cases hf : db.find? (fun p => decide (k < p.1)) with
  | none =>
    intro j v hj
    have := List.find?_eq_none.1 hf _ (StdMap.get_some_mem hj)
    simp only [decide_eq_true_eq] at this
    omega
  | some q =>
    obtain ⟨m, w⟩ := q
    have h1 := List.find?_some hf
    simp only [decide_eq_true_eq] at h1
    refine ⟨h1, ⟨w, StdMap.get_of_mem hs (List.mem_of_find?_eq_some hf)⟩, ?_⟩
    intro j v hj hk
    have hm := StdMap.get_some_mem hj
    clear hj
    induction db with
    | nil => cases hm
    | cons p db ih =>
      obtain ⟨s1, s2⟩ := List.pairwise_cons.1 hs
      rw [List.find?_cons] at hf
      by_cases hp : k < p.1
      · rw [decide_eq_true hp] at hf
        cases hf
        rcases List.mem_cons.1 hm with e | hm
        · cases e
          exact Nat.le_refl _
        · exact Nat.le_of_lt (s1 _ hm)
      · rw [decide_eq_false hp] at hf
        rcases List.mem_cons.1 hm with e | hm
        · cases e
          exact absurd hk hp
        · exact ih s2 hf hm

/-- C64, use of an iterator: `++it` moves it to the next key, or to the end if there is none; nothing
changes in the database (same exclusions). -/
theorem C64_advance_partial {n : Nat} {s s' : Conf (prog V pref)} {i g k : Nat} {r : Option (Ret V)}
    (h : (prog V pref).system.ReachableBy guarded (init V pref n) s) (hit : (g, i, some k) ∈ s.sh.its)
    (ls : List (Label (Op V))) (hls : ∀ l ∈ ls, l.Allowed guarded ∧ ∀ o, l ≠ .start i o)
    (he : (prog V pref).system.exec s (.start i (.advance g) :: ls) = some s')
    (hr : s'.pcs[i]? = some (.idle r)) :
    s'.sh.db = s.sh.db ∧ ∃ p, (g, i, p) ∈ s'.sh.its ∧
      match p with
      | none => ∀ j v, StdMap.get j s.sh.db = some v → j ≤ k
      | some m => k < m ∧ (∃ v, StdMap.get m s.sh.db = some v) ∧
          ∀ j v, StdMap.get j s.sh.db = some v → k < j → m ≤ j := by
  obtain ⟨v, hv⟩ := C64_valid_partial h hit
  obtain ⟨s1, h1, h2⟩ := System.exec_cons he
  have key : ∀ (ls : List (Label (Op V))), (∀ l ∈ ls, l.Allowed guarded ∧ ∀ o, l ≠ .start i o) →
      ∀ a b : Conf (prog V pref), Inv a → Safe a → (prog V pref).system.exec a ls = some b →
      (∃ x, a.pcs[i]? = some x ∧ (((x = .aBeg g ∨ x = .aEnd g k) ∧ (g, i, some k) ∈ a.sh.its) ∨
        (x = .idle (some .done) ∧ (g, i, after k s.sh.db) ∈ a.sh.its))) →
      a.sh.db = s.sh.db →
      (∃ x, b.pcs[i]? = some x ∧ (((x = .aBeg g ∨ x = .aEnd g k) ∧ (g, i, some k) ∈ b.sh.its) ∨
        (x = .idle (some .done) ∧ (g, i, after k s.sh.db) ∈ b.sh.its))) ∧ b.sh.db = s.sh.db := by
    intro ls
    induction ls with
    | nil =>
      intro _ a b _ _ he hx hd
      cases he
      exact ⟨hx, hd⟩
    | cons l ls ih =>
      intro hls a b hi hb he hx hd
      obtain ⟨a1, e1, e2⟩ := System.exec_cons he
      have hl := hls l (List.mem_cons_self ..)
      have hs := step_stepped e1
      obtain ⟨x, hx, hc⟩ := hx
      have hne : a.sh.its ≠ [] := by
        rcases hc with ⟨-, hm⟩ | ⟨-, hm⟩ <;> exact List.ne_nil_of_mem hm
      have hd1 := frozen_step hi hs hne
      refine ih (fun m hm => hls m (List.mem_cons_of_mem _ hm)) a1 b (inv_step hi (allowed_noCopy hl.1) hs)
        (safe_step hi hb hl.1 hs) e2 ?_ (hd1.trans hd)
      cases hs with
      | start j _ o hj =>
        have : i ≠ j := fun e => hl.2 o (by rw [e])
        exact ⟨x, (get_set_ne this).trans hx, hc⟩
      | run j z y sh hz hr =>
        by_cases e : i = j
        · subst e
          rw [hx] at hz
          cases hz
          refine ⟨y, get_set_self hx, ?_⟩
          rcases hc with ⟨rfl | rfl, hm⟩ | ⟨rfl, hm⟩
          · cases hr with
            | aNone _ hl => exact absurd (lookup_of_mem hi.nodup hm) (hl k)
            | aBeg _ k' hl =>
              have := handle_unique hi.nodup hm (lookup_mem hl) rfl
              cases this
              exact Or.inl ⟨Or.inr rfl, hm⟩
          · cases hr with
            | aEnd _ _ hk =>
              refine Or.inr ⟨rfl, List.mem_map.2 ⟨_, hm, ?_⟩⟩
              rw [if_pos rfl, hd]
            | aBad _ _ hk =>
              rw [hd] at hk
              have := has_false hk
              rw [hv] at this
              cases this
          · cases hr
        · refine ⟨x, (get_set_ne e).trans hx, ?_⟩
          have keep : ∀ q, (g, i, q) ∈ a.sh.its → (g, i, q) ∈ sh.its := fun q hm =>
            others_ran hi.nodup (fun h k e => hi.deref j h k (Or.inr (e ▸ hz))) e hm hr
          rcases hc with ⟨hc, hm⟩ | ⟨hc, hm⟩
          · exact Or.inl ⟨hc, keep _ hm⟩
          · exact Or.inr ⟨hc, keep _ hm⟩
  have hb := safe h
  have hs1 := step_stepped h1
  have := key ls hls s1 s' (inv_step hb.1 (l := .start i (.advance g)) trivial hs1)
    (safe_step hb.1 hb.2 (l := .start i (.advance g)) trivial hs1) h2 ?_ ?_
  · obtain ⟨⟨x, hx, hc⟩, hd⟩ := this
    rw [hr] at hx
    cases hx
    rcases hc with ⟨e | e, -⟩ | ⟨-, hm⟩
    · cases e
    · cases e
    · exact ⟨hd, _, hm, after_least hb.2.sorted⟩
  · cases hs1 with
    | start _ r' _ hx => exact ⟨_, get_set_self hx, Or.inl ⟨Or.inl rfl, hit⟩⟩
  · cases hs1 with
    | start _ r' _ hx => rfl

/-- `begin` takes its position before it takes its lock. -/
theorem C64_negation_begin : ∃ (s : Conf (prog Nat pref)) (g i k : Nat),
    (prog Nat pref).system.ReachableBy noCopy (init Nat pref 2) s ∧ (g, i, some k) ∈ s.sh.its ∧
      StdMap.get k s.sh.db = none := by
  refine ⟨⟨⟨[], none, 1, [(0, 0, some 1)], 1, 0, 0, false,
      [(1, .add 1 5, .bool true), (1, .erase 1, .bool true)]⟩,
      [.idle (some (.iter 0)), .idle (some (.bool true))]⟩, 0, 0, 1, (prog Nat pref).system.exec_reachable
    [.start 1 (.add 1 5), .run 1, .run 1, .run 1, .run 1, .run 1, .start 0 .begin, .run 0, .run 0,
     .start 1 (.erase 1), .run 1, .run 1, .run 1, .run 1, .run 1, .run 0] ?_ .init (by cases pref <;> rfl),
    List.mem_singleton.2 rfl, rfl⟩
  simp [Label.Allowed, noCopy]

/-- `begin` reads the map while another thread writes it. -/
theorem C64_negation_race : ∃ s : Conf (prog Nat pref),
    (prog Nat pref).system.ReachableBy noCopy (init Nat pref 2) s ∧ s.sh.ub = true := by
  refine ⟨_, (prog Nat pref).system.exec_reachable
    [.start 1 (.add 1 5), .run 1, .run 1, .start 0 .begin, .run 0] ?_ .init rfl, rfl⟩
  simp [Label.Allowed, noCopy]

/-- A copied iterator has no lock of its own, but releases one. -/
theorem C64_negation_copy : ∃ (s : Conf (prog Nat pref)) (g i k : Nat),
    (prog Nat pref).system.ReachableBy (fun op => op ≠ .begin) (init Nat pref 2) s ∧
      (g, i, some k) ∈ s.sh.its ∧ StdMap.get k s.sh.db = none := by
  refine ⟨⟨⟨[], none, 0, [(1, 0, some 1)], 2, 0, 0, false,
      [(1, .add 1 5, .bool true), (0, .find 1, .pos (some 1)), (1, .erase 1, .bool true)]⟩,
      [.idle (some .done), .idle (some (.bool true))]⟩, 1, 0, 1, (prog Nat pref).system.exec_reachable
    [.start 1 (.add 1 5), .run 1, .run 1, .run 1, .run 1, .run 1, .start 0 (.find 1), .run 0, .run 0, .run 0,
     .run 0, .run 0, .start 0 (.copy 0), .run 0, .start 0 (.destroy 0), .run 0,
     .start 1 (.erase 1), .run 1, .run 1, .run 1, .run 1, .run 1] ?_ .init (by cases pref <;> rfl),
    List.mem_singleton.2 rfl, rfl⟩
  simp [Label.Allowed]

/-! ### Cases -/

/-- Non-trivial case for `C64_advance_partial`: an iterator at 1 moves to 4 while thread 1 waits to erase 4. -/
example : (((prog Nat true).system.exec (init Nat true 2)
    [.start 0 (.add 1 5), .run 0, .run 0, .run 0, .run 0, .run 0,
     .start 0 (.add 4 6), .run 0, .run 0, .run 0, .run 0, .run 0,
     .start 0 (.find 1), .run 0, .run 0, .run 0, .run 0, .run 0,
     .start 0 (.advance 0), .run 0, .start 1 (.erase 4), .run 1, .run 0]).map
    fun (s : Conf (prog Nat true)) => (s.sh.db, s.sh.its, s.pcs)) =
    some ([(1, 5), (4, 6)], [(0, 0, some 4)], [.idle (some .done), .wDrain (.erase 4)]) := rfl

/-- Two threads: `add_or_modify(1, 5)`, then `size` overlapping with `modify(1, 6)`, `at(1)` and a `find`. -/
def session : List (Label (Op Nat)) :=
  [.start 1 (.addOrModify 1 5), .run 1, .run 1, .run 1, .run 1, .run 1,
   .start 0 .size, .run 0, .start 1 (.modify 1 6), .run 0, .run 0, .run 0,
   .run 1, .run 1, .run 1, .run 1, .start 0 (.at 1), .run 1, .run 0, .run 0, .run 0, .run 0,
   .start 0 (.find 1), .run 0, .run 0, .run 0, .run 0, .run 0]

/-- Non-trivial case for `C63_sequential` and `C63_call` (the last call is `find(1)` of thread 0). -/
example : (((prog Nat false).system.exec (init Nat false 2) session).map
    fun (s : Conf (prog Nat false)) => (s.sh.log, s.sh.db, s.sh.its, s.pcs)) =
    some ([(1, .addOrModify 1 5, .bool true), (0, .size, .num 1), (1, .modify 1 6, .bool true),
      (0, .at 1, .value 6), (0, .find 1, .pos (some 1))], [(1, 6)], [(0, 0, some 1)],
      [.idle (some (.iter 0)), .idle (some (.bool true))]) := rfl

/-- Only allowed calls in it. -/
example : ∀ l ∈ session, l.Allowed (guarded (V := Nat)) := by
  simp [session, Label.Allowed, guarded]

/-- Non-trivial case for `C64_frozen_partial`, `C64_valid_partial` and `C64_deref_partial`: thread 0 has an
iterator at 1, thread 1 wants to erase 1 and cannot; thread 0 reads through its iterator. -/
example : (((prog Nat true).system.exec (init Nat true 2) (session ++
    [.start 1 (.erase 1), .run 1, .start 0 (.deref 0), .run 0, .run 0])).map
    fun (s : Conf (prog Nat true)) => (s.sh.db, s.sh.its, s.pcs, ((prog Nat true).step s (.run 1)).isSome)) =
    some ([(1, 6)], [(0, 0, some 1)], [.idle (some (.item 1 6)), .wDrain (.erase 1)], false) := rfl

end Verif.SafeDatabase
