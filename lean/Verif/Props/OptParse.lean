import Verif.Lemmas.OptParse
/-!
C124 (command lines are read as they are written), C125 (no argument is lost), C128 (names of long options).
-/
namespace Verif.OptParse

/-! ### Lookup -/

theorem findIdx_unique {α : Type} {l : List α} {q : α → Bool} {i : Nat} {d : α} (h : l[i]? = some d) (hq : q d = true)
    (hu : ∀ j e, l[j]? = some e → q e = true → i ≤ j) : l.findIdx? q = some i := by
  obtain ⟨hi, he⟩ := List.getElem?_eq_some_iff.1 h
  rw [List.findIdx?_eq_some_iff_getElem]
  refine ⟨hi, by rw [he]; exact hq, fun j hj => ?_⟩
  intro hc
  have := hu j _ (List.getElem?_eq_getElem (by omega)) hc
  omega

theorem streq_iff (l s : Str) (hl : '=' ∉ l) : streq l s = true ↔ s.takeWhile (· ≠ '=') = l := by
  induction l generalizing s with
  | nil =>
    cases s with
    | nil => simp [streq]
    | cons c s => by_cases h : c = '=' <;> simp [streq, h]
  | cons a l ih =>
    simp only [List.mem_cons, not_or] at hl
    cases s with
    | nil => simp [streq]
    | cons c s =>
      simp only [streq, Bool.and_eq_true, beq_iff_eq, ih s hl.2]
      by_cases h : c = '='
      · subst h; simp [Ne.symm hl.1]
      · rw [List.takeWhile_cons_of_pos (by simpa using h), List.cons.injEq]
        constructor
        · rintro ⟨rfl, h'⟩; exact ⟨rfl, h'⟩
        · rintro ⟨rfl, h'⟩; exact ⟨rfl, h'⟩

theorem streqabbr_iff (l s : Str) (hl : '=' ∉ l) (min : Int) (hm : 0 < min) :
    streqabbr l s min = true ↔
      s.takeWhile (· ≠ '=') = l ∨ (s.takeWhile (· ≠ '=') <+: l ∧ min ≤ (s.takeWhile (· ≠ '=')).length) := by
  have gen : ∀ (l s : Str), '=' ∉ l →
      ((((s.drop (common l s)).isEmpty || (s.drop (common l s)).head? == some '=') = true ↔ s.takeWhile (· ≠ '=') <+: l) ∧
      (s.takeWhile (· ≠ '=') <+: l → common l s = (s.takeWhile (· ≠ '=')).length)) := by
    intro l
    induction l with
    | nil =>
      intro s _
      cases s with
      | nil => simp [common]
      | cons c s => by_cases h : c = '=' <;> simp [common, h]
    | cons a l ih =>
      intro s hl
      simp only [List.mem_cons, not_or] at hl
      cases s with
      | nil => simp [common]
      | cons c s =>
        by_cases h : c = '='
        · subst h
          have : ¬ a = '=' := fun e => hl.1 e.symm
          simp [common, this]
        · rw [List.takeWhile_cons_of_pos (by simpa using h)]
          by_cases e : a = c
          · subst e
            simp only [common, if_pos, List.drop_succ_cons, List.length_cons, List.cons_prefix_cons, true_and]
            have := ih s hl.2
            exact ⟨this.1, fun hp => by rw [this.2 hp]⟩
          · simp [common, e, h, Ne.symm e]
  obtain ⟨g1, g2⟩ := gen l s hl
  unfold streqabbr
  rw [Bool.and_eq_true, g1]
  simp only [Bool.or_eq_true, beq_iff_eq, Bool.and_eq_true, decide_eq_true_eq, hm, true_and, gt_iff_lt, ge_iff_le]
  constructor
  · rintro ⟨h, hp⟩
    rw [g2 hp] at h
    rcases h with h | h
    · exact .inl (hp.eq_of_length h)
    · exact .inr ⟨hp, h⟩
  · rintro (h | ⟨hp, h⟩)
    · have hp : s.takeWhile (· ≠ '=') <+: l := by rw [h]; exact List.prefix_refl _
      exact ⟨.inl (by rw [g2 hp, h]), hp⟩
    · exact ⟨.inr (by rw [g2 hp]; exact h), hp⟩

/-! ### Names -/

/-- Specification: a table in which no long name contains "=". -/
def Named (usage : List Desc) : Prop := ∀ d ∈ usage, '=' ∉ d.long

/-- Specification: the option of the table that a long name means: the first with this name; if there is none and abbreviations are
allowed, the only one whose name begins like this, if enough of it is given. -/
def Meant (usage : List Desc) (min : Int) (name : Str) (i : Nat) : Prop :=
  (∃ d, usage[i]? = some d ∧ d.long = name ∧ ∀ j e, usage[j]? = some e → e.long = name → i ≤ j) ∨
  ((∀ d ∈ usage, d.long ≠ name) ∧ 0 < min ∧ min ≤ name.length ∧ ∃ d, usage[i]? = some d ∧ name <+: d.long ∧
    ∀ j e, usage[j]? = some e → name <+: e.long → j = i)

/-- Specification: the entry for unknown options. -/
def ForUnknown (usage : List Desc) (i : Nat) : Prop :=
  ∃ d, usage[i]? = some d ∧ d.short = [] ∧ d.long = [] ∧ ∀ j e, usage[j]? = some e → e.short = [] → e.long = [] → i ≤ j

theorem findIdx_iff {α : Type} (l : List α) (q : α → Bool) (i : Nat) :
    l.findIdx? q = some i ↔ ∃ d, l[i]? = some d ∧ q d = true ∧ ∀ j e, l[j]? = some e → q e = true → i ≤ j := by
  constructor
  · intro h
    rw [List.findIdx?_eq_some_iff_getElem] at h
    obtain ⟨hi, h1, h2⟩ := h
    refine ⟨l[i], List.getElem?_eq_getElem hi, h1, fun j e he hq => ?_⟩
    obtain ⟨hj, rfl⟩ := List.getElem?_eq_some_iff.1 he
    apply Nat.le_of_not_lt
    intro hlt
    exact h2 j hlt hq
  · rintro ⟨d, hd, hq, hu⟩
    exact findIdx_unique hd hq hu

theorem findLong_iff (usage : List Desc) (hn : Named usage) (s : Str) (min : Int) (i : Nat) :
    findLong usage s min = some i ↔ Meant usage min (s.takeWhile (· ≠ '=')) i := by
  generalize hname : s.takeWhile (· ≠ '=') = name
  have hq : ∀ {j : Nat} {e : Desc}, usage[j]? = some e → (streq e.long s = true ↔ e.long = name) := by
    intro j e he
    rw [streq_iff _ _ (hn e (List.mem_of_getElem? he)), hname, eq_comm]
  cases hf : usage.findIdx? fun d => streq d.long s with
  | some k =>
    have e : findLong usage s min = some k := by unfold findLong; rw [hf]
    rw [e]
    obtain ⟨d, hd, h1, h2⟩ := (findIdx_iff _ _ _).1 hf
    rw [hq hd] at h1
    have h2' : ∀ j e, usage[j]? = some e → e.long = name → k ≤ j := fun j e he hl => h2 j e he ((hq he).2 hl)
    constructor
    · intro h; cases h; exact .inl ⟨d, hd, h1, h2'⟩
    · rintro (⟨d', hd', h1', h3⟩ | ⟨h, -⟩)
      · rw [Nat.le_antisymm (h2' _ _ hd' h1') (h3 _ _ hd h1)]
      · exact absurd h1 (h d (List.mem_of_getElem? hd))
  | none =>
    rw [List.findIdx?_eq_none_iff] at hf
    have hno : ∀ d ∈ usage, d.long ≠ name := by
      intro d hd he
      obtain ⟨j, hj⟩ := List.getElem?_of_mem hd
      have := hf d hd
      rw [(hq hj).2 he] at this
      cases this
    have hf' : (usage.findIdx? fun d => streq d.long s) = none := List.findIdx?_eq_none_iff.2 hf
    unfold findLong
    rw [hf']
    simp only
    by_cases hm : 0 < min
    · rw [if_pos hm]
      have hab : ∀ {j : Nat} {e : Desc}, usage[j]? = some e → (streqabbr e.long s min = true ↔ (name <+: e.long ∧ min ≤ name.length)) := by
        intro j e he
        rw [streqabbr_iff _ _ (hn e (List.mem_of_getElem? he)) _ hm, hname]
        constructor
        · rintro (h | h)
          · exact absurd h.symm (hno e (List.mem_of_getElem? he))
          · exact h
        · exact .inr
      cases hg : usage.findIdx? fun d => streqabbr d.long s min with
      | none =>
        rw [List.findIdx?_eq_none_iff] at hg
        simp only [reduceCtorEq, false_iff]
        rintro (⟨d, hd, h, -⟩ | ⟨-, -, hl, d, hd, h, -⟩)
        · exact hno d (List.mem_of_getElem? hd) h
        · have := hg d (List.mem_of_getElem? hd)
          rw [(hab hd).2 ⟨h, hl⟩] at this
          cases this
      | some k =>
        obtain ⟨d, hd, h1, h2⟩ := (findIdx_iff _ _ _).1 hg
        obtain ⟨hp, hl⟩ := (hab hd).1 h1
        simp only
        by_cases ha : ((usage.drop (k + 1)).any fun d => streqabbr d.long s min) = true
        · rw [if_pos ha]
          simp only [reduceCtorEq, false_iff]
          obtain ⟨e, he, hs⟩ := List.any_eq_true.1 ha
          obtain ⟨j, hj⟩ := List.getElem?_of_mem he
          rw [List.getElem?_drop] at hj
          obtain ⟨hp', -⟩ := (hab hj).1 hs
          rintro (⟨d, hd, h, -⟩ | ⟨-, -, -, d', hd', h, hu⟩)
          · exact hno d (List.mem_of_getElem? hd) h
          · have a := hu k d hd hp
            have b := hu _ e hj hp'
            omega
        · rw [if_neg ha]
          have hu : ∀ j e, usage[j]? = some e → name <+: e.long → j = k := by
            intro j e he hpe
            have hs := (hab he).2 ⟨hpe, hl⟩
            have := h2 j e he hs
            apply Nat.le_antisymm _ this
            apply Nat.le_of_not_lt
            intro hlt
            apply ha
            rw [List.any_eq_true]
            refine ⟨e, ?_, hs⟩
            apply List.mem_of_getElem? (i := j - (k + 1))
            rw [List.getElem?_drop, show k + 1 + (j - (k + 1)) = j by omega]
            exact he
          constructor
          · intro h; cases h; exact .inr ⟨hno, hm, hl, d, hd, hp, hu⟩
          · rintro (⟨d, hd, h, -⟩ | ⟨-, -, -, d', hd', h, -⟩)
            · exact absurd h (hno d (List.mem_of_getElem? hd))
            · rw [hu i d' hd' h]
    · rw [if_neg hm]
      simp only [reduceCtorEq, false_iff]
      rintro (⟨d, hd, h, -⟩ | ⟨-, h, -⟩)
      · exact hno d (List.mem_of_getElem? hd) h
      · exact hm h

theorem findDummy_iff (usage : List Desc) (i : Nat) : findDummy usage = some i ↔ ForUnknown usage i := by
  unfold findDummy ForUnknown
  rw [findIdx_iff]
  simp only [Bool.and_eq_true, List.isEmpty_iff, and_imp, and_assoc]

/-! ### C124 -/

/-- Specification: how an option ends. -/
inductive Ending
  /-- nothing follows -/
  | nothing
  /-- the argument is part of the same word: `--name=arg`, `-carg` -/
  | attached (a : Str)
  /-- the argument is the next word -/
  | separate (a : Str)

def Ending.arg : Ending → Option Str
  | .nothing => none
  | .attached a | .separate a => some a

/-- Specification: what is in the same word as the name of a long or a short option. -/
def Ending.inLong : Ending → Str
  | .attached a => '=' :: a
  | _ => []

def Ending.inShort : Ending → Str
  | .attached a => a
  | _ => []

/-- Specification: what is in the next word. -/
def Ending.more : Ending → List Str
  | .separate a => [a]
  | _ => []

/-- Specification: what a user writes, options as positions in the table. -/
inductive Word
  /-- `--name` -/
  | long (i : Nat) (name : Str) (e : Ending)
  /-- `-name` -/
  | minus (i : Nat) (name : Str) (e : Ending)
  /-- `-abc`: switches and a last option -/
  | short (switches : List (Nat × Char)) (i : Nat) (c : Char) (e : Ending)
  /-- not an option -/
  | plain (s : Str)

/-- Specification: how it is written. -/
def Word.text : Word → List Str
  | .long _ name e => ('-' :: '-' :: (name ++ e.inLong)) :: e.more
  | .minus _ name e => ('-' :: (name ++ e.inLong)) :: e.more
  | .short sw _ c e => ('-' :: (sw.map Prod.snd ++ c :: e.inShort)) :: e.more
  | .plain s => [s]

/-- Specification: the options it stands for, with their arguments. -/
def Word.wants : Word → List (Nat × Option Str)
  | .long i _ e | .minus i _ e => [(i, e.arg)]
  | .short sw i _ e => sw.map (fun x => (x.1, none)) ++ [(i, e.arg)]
  | .plain _ => []

/-- Specification: the argument it is, if it is not an option. -/
def Word.others : Word → List Str
  | .plain s => [s]
  | _ => []

/-- Specification: whatever `check_arg` says, it is neither an argument nor a failure. -/
def Status.no (s : Status) : Prop := s = .none ∨ s = .ignore

/-- Specification: the option of this position takes the argument if there is one, and does not want one otherwise, when it is
called `name`. -/
def Accepts (d : Desc) (name : Str) : Ending → Prop
  | .nothing => ∀ a, (d.check name a).no
  | .attached a | .separate a => d.check name (some a) = .ok

/-- Specification: the option of the table for a letter, or the entry for unknown ones. -/
def Letter (usage : List Desc) (c : Char) (i : Nat) : Prop :=
  (∃ d, usage[i]? = some d ∧ c ∈ d.short ∧ ∀ j e, usage[j]? = some e → c ∈ e.short → i ≤ j) ∨
  ((∀ d ∈ usage, c ∉ d.short) ∧ ForUnknown usage i)

/-- Specification: the option of the table for a long name, or the entry for unknown ones. -/
def Long (c : Cfg) (name : Str) (i : Nat) : Prop :=
  Meant c.usage c.min name i ∨ ((∀ j, ¬ Meant c.usage c.min name j) ∧ ForUnknown c.usage i)

/-- Specification: the word is one the table provides for.  `-name` is a long option only if the parser is told so, and then a group of
letters must not be one. -/
def Word.Good (c : Cfg) : Word → Prop
  | .long i name e => name ≠ [] ∧ '=' ∉ name ∧ Long c name i ∧
      ∃ d, c.usage[i]? = some d ∧ Accepts d ('-' :: '-' :: (name ++ e.inLong)) e
  | .minus i name e => c.single = true ∧ name ≠ [] ∧ name.head? ≠ some '-' ∧ '=' ∉ name ∧ Meant c.usage c.min name i ∧
      ∃ d, c.usage[i]? = some d ∧ Accepts d ('-' :: (name ++ e.inLong)) e
  | .short sw i ch e => (∀ x ∈ sw, x.2 ≠ '-' ∧ Letter c.usage x.2 x.1 ∧ ∃ d, c.usage[x.1]? = some d ∧ ∀ n a, (d.check n a).no) ∧
      ch ≠ '-' ∧ Letter c.usage ch i ∧ e.arg ≠ some [] ∧
      (c.single = true → ∀ j, ¬ Meant c.usage c.min ((sw.map Prod.snd ++ ch :: e.inShort).takeWhile (· ≠ '=')) j) ∧
      ∃ d, c.usage[i]? = some d ∧ Accepts d (ch :: e.inShort) e
  | .plain s => ∀ a r, s ≠ '-' :: a :: r

theorem nonOption_iff (s : Str) : NonOption s ↔ ∀ a r, s ≠ '-' :: a :: r := by
  unfold NonOption
  match s with
  | [] => simp
  | [c] => simp
  | c :: d :: r =>
    simp

theorem findShort_eq {usage : List Desc} {i : Nat} {c : Char} (h : Letter usage c i) :
    (findShort usage c).or (findDummy usage) = some i := by
  rcases h with ⟨d, hd, hc, hu⟩ | ⟨hno, hf⟩
  · have : findShort usage c = some i := findIdx_unique hd (by simpa using hc) fun j e he h => hu j e he (by simpa using h)
    rw [this, Option.some_or]
  · have : findShort usage c = none := by
      unfold findShort
      rw [List.findIdx?_eq_none_iff]
      intro d hd
      simpa using hno d hd
    rw [this, Option.none_or, findDummy_iff]
    exact hf

theorem findLong_eq {c : Cfg} {i : Nat} {name s : Str} (hn : Named c.usage) (h : Long c name i)
    (hs : s.takeWhile (· ≠ '=') = name) : (findLong c.usage s c.min).or (findDummy c.usage) = some i := by
  subst hs
  rcases h with h | ⟨hno, hf⟩
  · rw [(findLong_iff _ hn _ _ _).2 h, Option.some_or]
  · have : findLong c.usage s c.min = none := by
      cases hk : findLong c.usage s c.min with
      | none => rfl
      | some k => exact absurd ((findLong_iff _ hn _ _ _).1 hk) (hno k)
    rw [this, Option.none_or, findDummy_iff]
    exact hf

theorem handle_no {usage : List Desc} {i : Nat} {d : Desc} (hd : usage[i]? = some d) {name : Str} {a : Potential}
    (h : (d.check name a.text).no) : handle usage i name a = some (⟨i, name, none⟩, false) := by
  unfold handle
  rw [hd]
  rcases h with h | h <;> simp [h]

theorem handle_ok {usage : List Desc} {i : Nat} {d : Desc} (hd : usage[i]? = some d) {name : Str} {a : Potential}
    (h : d.check name a.text = .ok) : handle usage i name a = some (⟨i, name, a.text⟩, true) := by
  unfold handle
  rw [hd]
  simp [h]

/-- What is seen of the options. -/
def seen (os : List Opt) : List (Nat × Option Str) := os.map fun o => (o.desc, o.arg)

theorem seen_append (a b : List Opt) : seen (a ++ b) = seen a ++ seen b := List.map_append

theorem shorts_switches (usage : List Desc) (next : Option Str) (sw : List (Nat × Char)) (r : Str)
    (h : ∀ x ∈ sw, x.2 ≠ '-' ∧ Letter usage x.2 x.1 ∧ ∃ d, usage[x.1]? = some d ∧ ∀ n a, (d.check n a).no) :
    seen (shorts usage next (sw.map Prod.snd ++ r)).1 = sw.map (fun x => (x.1, none)) ++ seen (shorts usage next r).1 ∧
    (shorts usage next (sw.map Prod.snd ++ r)).2 = (shorts usage next r).2 := by
  induction sw with
  | nil => simp
  | cons x sw ih =>
    obtain ⟨-, hx, d, hd, hc⟩ := h x (by simp)
    obtain ⟨h1, h2⟩ := ih fun x hx => h x (by simp [hx])
    simp only [List.map_cons, List.cons_append]
    rw [shorts]
    simp only [findShort_eq hx]
    rw [handle_no hd (hc _ _)]
    simp only [seen, List.map_cons, List.cons.injEq, true_and]
    exact ⟨h1, h2⟩

theorem last_short {usage : List Desc} {next : Option Str} {i : Nat} {c : Char} {e : Ending} {d : Desc} (hd : usage[i]? = some d)
    (hs : Letter usage c i) (he : e.arg ≠ some []) (ha : Accepts d (c :: e.inShort) e)
    (hn : ∀ a, e = .separate a → next = some a) :
    seen (shorts usage next (c :: e.inShort)).1 = [(i, e.arg)] ∧
      (shorts usage next (c :: e.inShort)).2 = (match e with | .separate _ => Fate.took | _ => .plain) := by
  rw [shorts]
  simp only [findShort_eq hs]
  cases e with
  | nothing =>
    rw [handle_no hd (ha _)]
    simp [seen, shorts, Ending.arg, Ending.inShort]
  | attached a =>
    replace ha : d.check (c :: a) (Potential.attached a).text = .ok := ha
    have hne : a ≠ [] := fun h => he (by rw [h]; rfl)
    rw [show (Ending.attached a).inShort = a from rfl, if_neg hne, handle_ok hd ha]
    simp [seen, Ending.arg, Potential.text, Potential.fate]
  | separate a =>
    replace ha : d.check [c] (Potential.detached a).text = .ok := ha
    simp only [Ending.inShort, if_true, hn a rfl, detach]
    rw [handle_ok hd ha]
    simp [seen, Ending.arg, Potential.text, Potential.fate]

theorem takeWhile_name (name r : Str) (h : '=' ∉ name) (hr : r = [] ∨ r.head? = some '=') :
    (name ++ r).takeWhile (· ≠ '=') = name ∧ (name ++ r).dropWhile (· ≠ '=') = r := by
  induction name with
  | nil =>
    rcases hr with rfl | hr
    · simp
    · cases r with
      | nil => simp
      | cons c r => simp at hr; subst hr; simp
  | cons a name ih =>
    simp only [List.mem_cons, not_or] at h
    have : a ≠ '=' := fun e => h.1 e.symm
    rw [List.cons_append, List.takeWhile_cons_of_pos (by simpa using this), List.dropWhile_cons_of_pos (by simpa using this)]
    exact ⟨by rw [(ih h.2).1], (ih h.2).2⟩

theorem walk_long (c : Cfg) (p : Str) (hn : ¬ NonOption p) (hdd : p ≠ c!"--") {i : Nat} {d : Desc} (hd : c.usage[i]? = some d)
    {name : Str} (heq : '=' ∉ name) {e : Ending} (ha : Accepts d p e) (r : List Str)
    (hone : one c p (e.more ++ r).head? = longs c.usage (e.more ++ r).head? p (name ++ e.inLong) (some i)) :
    seen (walk c (p :: (e.more ++ r))).opts = (i, e.arg) :: seen (walk c r).opts ∧
      (walk c (p :: (e.more ++ r))).err = (walk c r).err ∧ (walk c (p :: (e.more ++ r))).left = (walk c r).left := by
  have hq' : e.inLong = [] ∨ e.inLong.head? = some '=' := by cases e <;> simp [Ending.inLong]
  obtain ⟨-, t2⟩ := takeWhile_name name e.inLong heq hq'
  rw [walk, if_neg hn, if_neg hdd, hone]
  unfold longs
  simp only
  have hla : longArg (name ++ e.inLong) (e.more ++ r).head? = match e with
      | .nothing => detach r.head? | .attached a => .attached a | .separate a => .detached a := by
    unfold longArg
    rw [t2]
    cases e <;> simp [Ending.more, Ending.inLong, detach]
  rw [hla]
  cases e with
  | nothing =>
    rw [handle_no hd (ha _)]
    simp [seen, Ending.arg, Ending.more]
  | attached a =>
    replace ha : d.check p (Potential.attached a).text = .ok := ha
    rw [handle_ok hd ha]
    simp [seen, Ending.arg, Ending.more, Potential.text, Potential.fate]
  | separate a =>
    replace ha : d.check p (Potential.detached a).text = .ok := ha
    rw [handle_ok hd ha]
    simp [seen, Ending.arg, Ending.more, Potential.text, Potential.fate]

/-- One word is read as it is meant. -/
theorem walk_word (c : Cfg) (hu : Named c.usage) (w : Word) (hw : w.Good c)
    (hg : c.gnu = true ∨ w.others = []) (r : List Str) :
    seen (walk c (w.text ++ r)).opts = w.wants ++ seen (walk c r).opts ∧ (walk c (w.text ++ r)).err = (walk c r).err ∧
      (walk c (w.text ++ r)).left = w.others ++ (walk c r).left := by
  cases w with
  | plain s =>
    have hn : NonOption s := (nonOption_iff s).2 hw
    have hg : c.gnu = true := by simpa [Word.others] using hg
    simp only [Word.text, List.singleton_append]
    rw [walk, if_pos hn, if_pos hg]
    simp [Word.wants, Word.others]
  | long i name e =>
    obtain ⟨hne, heq, hl, d, hd, ha⟩ := hw
    have hq' : e.inLong = [] ∨ e.inLong.head? = some '=' := by cases e <;> simp [Ending.inLong]
    obtain ⟨t1, -⟩ := takeWhile_name name e.inLong heq hq'
    simp only [Word.text, List.cons_append, Word.wants, Word.others, List.nil_append]
    refine walk_long c ('-' :: '-' :: (name ++ e.inLong)) (by unfold NonOption; simp) ?_ hd heq ha r ?_
    · intro h; apply hne
      simp at h; exact h.1
    · unfold one
      rw [if_pos (by simp)]
      have : ('-' :: '-' :: (name ++ e.inLong)).drop 2 = name ++ e.inLong := by simp
      rw [this, findLong_eq hu hl t1]
  | minus i name e =>
    obtain ⟨hsg, hne, hmi, heq, hl, d, hd, ha⟩ := hw
    have hq' : e.inLong = [] ∨ e.inLong.head? = some '=' := by cases e <;> simp [Ending.inLong]
    obtain ⟨t1, -⟩ := takeWhile_name name e.inLong heq hq'
    simp only [Word.text, List.cons_append, Word.wants, Word.others, List.nil_append]
    cases name with
    | nil => exact absurd rfl hne
    | cons x y =>
      have hx : x ≠ '-' := by simpa using hmi
      refine walk_long c ('-' :: (x :: y ++ e.inLong)) (by unfold NonOption; simp) (by simp [hx]) hd heq ha r ?_
      unfold one
      rw [if_neg (by simp [hx]), hsg, if_pos rfl]
      have : ('-' :: (x :: y ++ e.inLong)).drop 1 = x :: y ++ e.inLong := by simp
      rw [this]
      have hf : findLong c.usage (x :: y ++ e.inLong) c.min = some i := by
        rw [findLong_iff _ hu, t1]; exact hl
      rw [hf]
  | short sw i ch e =>
    obtain ⟨hsw, hch, hsi, he, hsg, d, hd, ha⟩ := hw
    simp only [Word.text, List.cons_append]
    obtain ⟨s1, s2⟩ := shorts_switches c.usage (e.more ++ r).head? sw (ch :: e.inShort) hsw
    obtain ⟨l1, l2⟩ := last_short (next := (e.more ++ r).head?) hd hsi he ha (by rintro a rfl; simp [Ending.more])
    rw [l1] at s1
    rw [l2] at s2
    obtain ⟨q, hq⟩ : ∃ q, sw.map Prod.snd ++ ch :: e.inShort = q := ⟨_, rfl⟩
    rw [hq] at s1 s2 hsg ⊢
    obtain ⟨x, y, hxy, hx⟩ : ∃ x y, q = x :: y ∧ x ≠ '-' := by
      subst hq
      cases sw with
      | nil => exact ⟨_, _, rfl, hch⟩
      | cons z sw => exact ⟨_, _, rfl, (hsw z (by simp)).1⟩
    have hfl : (if c.single = true then findLong c.usage (('-' :: q).drop 1) c.min else none) = none := by
      by_cases hs : c.single = true
      · rw [if_pos hs, List.drop_one, List.tail_cons]
        cases hk : findLong c.usage q c.min with
        | none => rfl
        | some k => exact absurd ((findLong_iff _ hu _ _ _).1 hk) (hsg hs k)
      · rw [if_neg hs]
    have hone : one c ('-' :: q) (e.more ++ r).head? = shorts c.usage (e.more ++ r).head? q := by
      unfold one
      rw [if_neg (by rw [hxy]; simp [hx]), hfl]
      rfl
    have hn : ¬ NonOption ('-' :: q) := by unfold NonOption; rw [hxy]; simp
    have hdd : '-' :: q ≠ c!"--" := by rw [hxy]; simp [hx]
    rw [walk, if_neg hn, if_neg hdd, hone]
    generalize shorts c.usage (e.more ++ r).head? q = z at s1 s2
    obtain ⟨o, f⟩ := z
    simp only at s1 s2
    subst s2
    cases e with
    | nothing => simp [seen_append, s1, Word.wants, Word.others, Ending.more]
    | attached a => simp [seen_append, s1, Word.wants, Word.others, Ending.more]
    | separate a => simp [seen_append, s1, Word.wants, Word.others, Ending.more]

theorem walk_words (c : Cfg) (hu : Named c.usage) (ws : List Word) (hw : ∀ w ∈ ws, w.Good c)
    (hg : c.gnu = true ∨ ∀ w ∈ ws, w.others = []) (r : List Str) :
    seen (walk c (ws.flatMap Word.text ++ r)).opts = ws.flatMap Word.wants ++ seen (walk c r).opts ∧
      (walk c (ws.flatMap Word.text ++ r)).err = (walk c r).err ∧
      (walk c (ws.flatMap Word.text ++ r)).left = ws.flatMap Word.others ++ (walk c r).left := by
  induction ws with
  | nil => simp
  | cons w ws ih =>
    obtain ⟨i1, i2, i3⟩ := ih (fun w h => hw w (by simp [h])) (hg.imp id fun h w hm => h w (by simp [hm]))
    obtain ⟨j1, j2, j3⟩ := walk_word c hu w (hw w (by simp)) (hg.imp id fun h => h w (by simp)) (ws.flatMap Word.text ++ r)
    simp only [List.flatMap_cons, List.append_assoc]
    exact ⟨by rw [j1, i1], by rw [j2, i2], by rw [j3, i3]⟩

/-- Specification: how a command line goes on after the options. -/
inductive Rest
  | nothing
  /-- `--` and anything -/
  | dashes (r : List Str)
  /-- an argument that is not an option and anything -/
  | plain (s : Str) (r : List Str)

def Rest.text : Rest → List Str
  | .nothing => []
  | .dashes r => c!"--" :: r
  | .plain s r => s :: r

def Rest.others : Rest → List Str
  | .nothing => []
  | .dashes r => r
  | .plain s r => s :: r

/-- C124.  A command line made of options of the table (or unknown ones, if the table has an entry for them), and in `gnu` mode of other arguments among them, is read as exactly these options, in order and with their arguments, and the other arguments
remain in order; everything after `--` (and without `gnu` everything from the first other argument on) is left alone. -/
theorem C124_roundtrip (c : Cfg) (hu : Named c.usage) (ws : List Word) (hw : ∀ w ∈ ws, w.Good c) (hg : c.gnu = true ∨ ∀ w ∈ ws, w.others = []) (r : Rest)
    (hr : ∀ s q, r = .plain s q → c.gnu = false ∧ ∀ a t, s ≠ '-' :: a :: t) :
    let out := workhorse c none (ws.flatMap Word.text ++ r.text)
    out.opts.map (fun o => (o.desc, o.arg)) = ws.flatMap Word.wants ∧ out.err = false ∧
      (out.vec.drop out.start).take out.count = ws.flatMap Word.others ++ r.others := by
  have hrest : (walk c r.text).opts = [] ∧ (walk c r.text).err = false ∧ (walk c r.text).left = r.others := by
    cases r with
    | nothing => simp [Rest.text, Rest.others, walk]
    | dashes q =>
      have hn : ¬ NonOption c!"--" := by decide
      simp only [Rest.text]
      rw [walk, if_neg hn, if_pos rfl]
      simp [Rest.others]
    | plain s q =>
      obtain ⟨hg, hp⟩ := hr s q rfl
      simp only [Rest.text]
      rw [walk, if_pos ((nonOption_iff s).2 hp), hg]
      simp [Rest.others]
  obtain ⟨h1, h2, h3⟩ := walk_words c hu ws hw hg r.text
  have key := workhorse_walk c none (ws.flatMap Word.text ++ r.text) (Nat.le_refl _)
  simp only [Option.getD_none, List.take_length] at key
  obtain ⟨k1, k2, -, k4⟩ := key
  rw [hrest.1] at h1
  rw [hrest.2.1] at h2
  rw [hrest.2.2] at h3
  refine ⟨?_, by rw [k2, h2], ?_⟩
  · rw [k1]; simpa [seen] using h1
  · have := (k4 h2).1
    unfold Out.left at this
    rw [this, h3]

/-! ### C125 -/

/-- Specification: the elements of two lists, in their orders. -/
inductive Shuffle : List Str → List Str → List Str → Prop
  | nil : Shuffle [] [] []
  | left {a b l : List Str} (x : Str) : Shuffle a b l → Shuffle (x :: a) b (x :: l)
  | right {a b l : List Str} (x : Str) : Shuffle a b l → Shuffle a (x :: b) (x :: l)

/-- Specification: an argument in the form of an option. -/
def LooksLikeOption (x : Str) : Prop := ∃ a r, x = '-' :: a :: r

theorem shuffle_right (l : List Str) : Shuffle [] l l := by
  induction l with
  | nil => exact .nil
  | cons x l ih => exact .right x ih

theorem not_nonOption {p : Str} (h : ¬ NonOption p) : LooksLikeOption p := by
  rw [nonOption_iff] at h
  simpa [LooksLikeOption] using h

theorem shorts_arg {usage : List Desc} {a : Str} {s : Str} (h : (shorts usage (some a) s).2 = .took) :
    ∃ o ∈ (shorts usage (some a) s).1, o.arg = some a := by
  induction s with
  | nil => simp [shorts] at h
  | cons c r ih =>
    rw [shorts] at h ⊢
    split at h
    · exact ih h
    · split at h
      · simp at h
      · rename_i o ho
        obtain ⟨s, hs⟩ := fate_took h
        refine ⟨o, by simp, ?_⟩
        rw [(handle_name ho).2.2.1 rfl, hs]
        split at hs
        · have := detach_took hs; rw [this]; rfl
        · cases hs
      · rename_i o ho
        obtain ⟨o', h1, h2⟩ := ih h
        exact ⟨o', by simp [h1], h2⟩

theorem longs_arg {usage : List Desc} {a p name : Str} {i : Option Nat} (h : (longs usage (some a) p name i).2 = .took) :
    ∃ o ∈ (longs usage (some a) p name i).1, o.arg = some a := by
  unfold longs at h ⊢
  split at h
  · cases h
  · split at h
    · simp at h
    · rename_i i o ho
      obtain ⟨s, hs⟩ := fate_took h
      refine ⟨o, by simp, ?_⟩
      rw [(handle_name ho).2.2.1 rfl, hs, longArg_took hs]; rfl
    · cases h

theorem one_arg {c : Cfg} {p a : Str} (h : (one c p (some a)).2 = .took) : ∃ o ∈ (one c p (some a)).1, o.arg = some a := by
  unfold one at h ⊢
  split at h
  · rename_i e; rw [if_pos e]; exact longs_arg h
  · rename_i e
    rw [if_neg e]
    split at h
    · exact longs_arg h
    · exact shorts_arg h

theorem walk_facts (c : Cfg) (args : List Str) :
    Shuffle (walk c args).used (walk c args).left args ∧
    (c.gnu = false → (walk c args).used ++ (walk c args).left = args) ∧
    (∀ x ∈ (walk c args).used, LooksLikeOption x ∨ ∃ o ∈ (walk c args).opts, o.arg = some x) ∧
    ((walk c args).err = false → c.gnu = true → ∃ before after, (walk c args).left = before ++ after ∧
      (∀ x ∈ before, ¬ LooksLikeOption x) ∧ (after = [] ∨ (walk c args).used.getLast? = some c!"--")) := by
  fun_induction walk c args with
  | case1 => exact ⟨.nil, fun _ => rfl, by simp, fun _ _ => ⟨[], [], rfl, by simp, .inl rfl⟩⟩
  | case2 p r hn hg ih =>
    obtain ⟨i1, i2, i3, i4⟩ := ih
    refine ⟨.right p i1, fun h => by simp [h] at hg, i3, fun he hg => ?_⟩
    obtain ⟨b, a, h1, h2, h3⟩ := i4 he hg
    refine ⟨p :: b, a, by simp [h1], ?_, h3⟩
    intro x hx
    rcases List.mem_cons.1 hx with rfl | hx
    · rintro ⟨u, v, rfl⟩; exact (nonOption_iff _).1 hn u v rfl
    · exact h2 x hx
  | case3 p r hn hg => exact ⟨shuffle_right _, fun _ => rfl, by simp, fun _ h => absurd h hg⟩
  | case4 r hn => exact ⟨.left _ (shuffle_right _), fun _ => rfl, by simpa using not_nonOption hn,
      fun _ _ => ⟨[], r, rfl, by simp, .inr rfl⟩⟩
  | case5 p r hn hd o ho => exact ⟨shuffle_right _, fun _ => rfl, by simp, fun h => by simp at h⟩
  | case6 p r hn hd o ho ih =>
    obtain ⟨i1, i2, i3, i4⟩ := ih
    refine ⟨.left p i1, fun h => by simp [i2 h], ?_, fun he hg => ?_⟩
    · intro x hx
      rcases List.mem_cons.1 hx with rfl | hx
      · exact .inl (not_nonOption hn)
      · exact (i3 x hx).imp id fun ⟨q, h1, h2⟩ => ⟨q, by simp [h1], h2⟩
    · obtain ⟨b, a, h1, h2, h3⟩ := i4 he hg
      refine ⟨b, a, h1, h2, h3.imp id fun h => ?_⟩
      simp only [List.getLast?_cons, h, Option.getD_some]
  | case7 p hn hd o ho => exact absurd (one_took (by rw [ho])) (by simp)
  | case8 p hn hd o a r ho ih =>
    obtain ⟨i1, i2, i3, i4⟩ := ih
    refine ⟨.left p (.left a i1), fun h => by simp [i2 h], ?_, fun he hg => ?_⟩
    · intro x hx
      rcases List.mem_cons.1 hx with rfl | hx
      · exact .inl (not_nonOption hn)
      rcases List.mem_cons.1 hx with rfl | hx
      · have := one_arg (c := c) (p := p) (a := x) (by rw [show (some x) = (x :: r).head? from rfl, ho])
        rw [show (some x) = (x :: r).head? from rfl, ho] at this
        obtain ⟨q, h1, h2⟩ := this
        exact .inr ⟨q, by simp at h1; simp [h1], h2⟩
      · exact (i3 x hx).imp id fun ⟨q, h1, h2⟩ => ⟨q, by simp [h1], h2⟩
    · obtain ⟨b, a', h1, h2, h3⟩ := i4 he hg
      refine ⟨b, a', h1, h2, h3.imp id fun h => ?_⟩
      simp only [List.getLast?_cons, h, Option.getD_some]

/-- C125.  Whatever the arguments, the table and the checks: after parsing the vector has the same arguments, first those used for options and
then the others, both in their order; without `gnu` it is unchanged; the others are what `nonOptions` shows; what was used has the
form of an option or is the argument of one; and if there was no failure, what is left in `gnu` mode and has the form of
an option was behind `--`. -/
theorem C125_reorder (p p' : Parser) (h h' : Heap) (c : Cfg) (argc bufmax : Option Nat) (argv argv' : List Str)
    (hn : argc.getD argv.length ≤ argv.length) (hp : parse p h c argc argv bufmax = some (p', h', argv')) :
    ∃ used left, Shuffle used left (argv.take (argc.getD argv.length)) ∧
      argv' = used ++ left ++ argv.drop (argc.getD argv.length) ∧
      (c.gnu = false → argv' = argv) ∧
      (∀ x ∈ used, LooksLikeOption x ∨ ∃ o ∈ (workhorse c argc argv).opts, o.arg = some x) ∧
      (p'.err = false → p'.nonops = if left = [] then p.nonops else left) ∧
      (p'.err = false → c.gnu = true → ∃ before after, left = before ++ after ∧ (∀ x ∈ before, ¬ LooksLikeOption x) ∧
        (after = [] ∨ used.getLast? = some c!"--")) := by
  have key := workhorse_walk c argc argv hn
  simp only at key
  obtain ⟨k1, k2, k3, k4⟩ := key
  obtain ⟨f1, f2, f3, f4⟩ := walk_facts c (argv.take (argc.getD argv.length))
  unfold parse at hp
  split at hp
  · cases hp
  · simp only at hp
    split at hp
    · cases hp
    · simp only [Option.some.injEq, Prod.mk.injEq] at hp
      obtain ⟨rfl, rfl, rfl⟩ := hp
      refine ⟨_, _, f1, k3, fun hg => ?_, ?_, ?_, ?_⟩
      · rw [k3, f2 hg, List.take_append_drop]
      · rw [k1]; exact f3
      · intro he
        simp only at he ⊢
        obtain ⟨l1, l2⟩ := k4 (by rw [← k2]; exact he)
        unfold Out.left at l1
        rw [l1, l2]
        by_cases hl : (walk c (argv.take (argc.getD argv.length))).left = []
        · simp [hl]
        · rw [if_neg hl, if_pos ⟨he, List.length_pos_iff.2 hl⟩]
      · intro he hg
        exact f4 (by rw [← k2]; exact he) hg

/-! ### C128 -/

/-- C128 for names that are not empty (missing: `--=…`, see `C128_negation`).  A long option without argument is taken for the option of the
table that it means, and if it means none, for an unknown one. -/
theorem C128_long_partial (c : Cfg) (hn : Named c.usage) (hc : ∀ d ∈ c.usage, ∀ n a, (d.check n a).no) (s : Str)
    (hs : s.takeWhile (· ≠ '=') ≠ []) :
    let out := workhorse c none [c!"--" ++ s]
    out.opts.length ≤ 1 ∧ ∀ i, (∃ o ∈ out.opts, o.desc = i) ↔
      Meant c.usage c.min (s.takeWhile (· ≠ '=')) i ∨
        ((∀ j, ¬ Meant c.usage c.min (s.takeWhile (· ≠ '=')) j) ∧ ForUnknown c.usage i) := by
  have key := (workhorse_walk c none [c!"--" ++ s] (Nat.le_refl _)).1
  simp only [Option.getD_none, List.take_length] at key
  simp only
  have hne : s ≠ [] := by rintro rfl; exact hs rfl
  have hnon : ¬ NonOption (c!"--" ++ s) := by unfold NonOption; simp
  have hdd : c!"--" ++ s ≠ c!"--" := by simpa using hne
  have hone : one c (c!"--" ++ s) none
      = longs c.usage none (c!"--" ++ s) s ((findLong c.usage s c.min).or (findDummy c.usage)) := by
    unfold one; rw [if_pos (by simp)]; rfl
  have hl : ∀ k d, c.usage[k]? = some d → longs c.usage none (c!"--" ++ s) s (some k) = ([⟨k, c!"--" ++ s, none⟩], .plain) := by
    intro k d hd
    unfold longs
    simp only
    rw [handle_no hd (hc d (List.mem_of_getElem? hd) _ _)]
  have hw : (walk c [c!"--" ++ s]).opts = match (findLong c.usage s c.min).or (findDummy c.usage) with
      | none => [] | some k => [⟨k, c!"--" ++ s, none⟩] := by
    rw [walk, if_neg hnon, if_neg hdd, List.head?_nil, hone]
    cases hk : (findLong c.usage s c.min).or (findDummy c.usage) with
    | none => simp [longs, walk]
    | some k =>
      obtain ⟨d, hd⟩ : ∃ d, c.usage[k]? = some d := by
        cases hf : findLong c.usage s c.min with
        | some j =>
          rw [hf] at hk; cases hk
          rcases (findLong_iff _ hn _ _ _).1 hf with ⟨d, hd, -⟩ | ⟨-, -, -, d, hd, -⟩ <;> exact ⟨d, hd⟩
        | none =>
          rw [hf] at hk
          obtain ⟨d, hd, -⟩ := (findDummy_iff _ _).1 hk
          exact ⟨d, hd⟩
      rw [hl k d hd]
      simp [walk]
  rw [key, hw]
  cases hf : findLong c.usage s c.min with
  | some j =>
    have hm := (findLong_iff _ hn _ _ _).1 hf
    simp only [Option.some_or, List.length_singleton, Nat.le_refl, true_and]
    intro i
    simp only [List.mem_singleton, exists_eq_left]
    constructor
    · rintro rfl; exact .inl hm
    · rintro (h | ⟨h, -⟩)
      · have := (findLong_iff _ hn s c.min i).2 h
        rw [hf] at this
        injection this
      · exact absurd hm (h j)
  | none =>
    have hno : ∀ j, ¬ Meant c.usage c.min (s.takeWhile (· ≠ '=')) j := by
      intro j hj
      rw [← findLong_iff _ hn, hf] at hj
      cases hj
    simp only [Option.none_or]
    cases hd : findDummy c.usage with
    | none =>
      simp only [List.length_nil, Nat.zero_le, true_and]
      intro i
      constructor
      · rintro ⟨o, h, -⟩; cases h
      · rintro (h | ⟨-, h⟩)
        · exact absurd h (hno i)
        · rw [← findDummy_iff, hd] at h; cases h
    | some k =>
      simp only [List.length_singleton, Nat.le_refl, true_and]
      intro i
      simp only [List.mem_singleton, exists_eq_left]
      constructor
      · rintro rfl; exact .inr ⟨hno, (findDummy_iff _ _).1 hd⟩
      · rintro (h | ⟨-, h⟩)
        · exact absurd h (hno i)
        · rw [← findDummy_iff, hd] at h
          injection h

/-- A check for options that need an argument, as the documentation of the header recommends. -/
def required : Str → Option Str → Status := fun _ a => if a.isSome then .ok else .illegal

/-- C128 is false for empty names: `--=5` is taken for the first option that has no long name. -/
theorem C128_negation : ∃ (c : Cfg) (s : Str) (o : Opt) (d : Desc), Named c.usage ∧
    (workhorse c none [s]).opts = [o] ∧ s.take 2 = c!"--" ∧ c.usage[o.desc]? = some d ∧ d.long = [] ∧ d.short ≠ [] ∧
    o.arg = some c!"5" := by
  refine ⟨⟨true, [⟨0, c!"x", [], required⟩], 0, false⟩, c!"--=5", ⟨0, c!"--=5", some c!"5"⟩, ⟨0, c!"x", [], required⟩, ?_, ?_, ?_⟩
  · intro d hd; simp at hd; subst hd; decide
  · decide
  · exact ⟨rfl, rfl, rfl, by decide, rfl⟩

/-! ### Examples -/

/-- A table: unknown options, a switch, an option with a required and one with an optional argument. -/
def table : List Desc :=
  [⟨0, [], [], checkNone⟩, ⟨1, c!"v", c!"verbose", checkNone⟩, ⟨2, c!"o", c!"output", required⟩,
   ⟨3, c!"l", c!"level", checkOptional⟩, ⟨1, c!"q", c!"quiet", checkNone⟩]

theorem table_named : Named table := by
  intro d hd; simp [table] at hd; rcases hd with rfl | rfl | rfl | rfl | rfl <;> decide

/-- A table entry with this name, and no other. -/
theorem meant_one {usage : List Desc} {min : Int} {name : Str} {i : Nat} {d : Desc} (h : usage[i]? = some d) (hl : d.long = name)
    (hu : (usage.take i).all fun e => e.long ≠ name) : Meant usage min name i := by
  refine .inl ⟨d, h, hl, fun j e he hn => ?_⟩
  apply Nat.le_of_not_lt
  intro hlt
  have : e ∈ usage.take i := List.mem_of_getElem? (i := j) (by rw [List.getElem?_take, if_pos hlt]; exact he)
  have := List.all_eq_true.1 hu e this
  simp [hn] at this

theorem letter_one {usage : List Desc} {c : Char} {i : Nat} {d : Desc} (h : usage[i]? = some d) (hl : c ∈ d.short)
    (hu : (usage.take i).all fun e => c ∉ e.short) : Letter usage c i := by
  refine .inl ⟨d, h, hl, fun j e he hn => ?_⟩
  apply Nat.le_of_not_lt
  intro hlt
  have : e ∈ usage.take i := List.mem_of_getElem? (i := j) (by rw [List.getElem?_take, if_pos hlt]; exact he)
  have := List.all_eq_true.1 hu e this
  simp [hn] at this

/-- `file -vqo out --level=3 x --verbose -- -y` -/
def line : List Word :=
  [.plain c!"file", .short [(1, 'v'), (4, 'q')] 2 'o' (.separate c!"out"), .long 3 c!"level" (.attached c!"3"), .plain c!"x",
   .long 1 c!"verbose" .nothing]

theorem line_good (g : Bool) (m : Int) : ∀ w ∈ line, w.Good ⟨g, table, m, false⟩ := by
  intro w hw
  simp only [line, List.mem_cons, List.not_mem_nil, or_false] at hw
  rcases hw with rfl | rfl | rfl | rfl | rfl
  · intro a r; simp
  · refine ⟨?_, by decide, letter_one (d := table[2]) rfl (by decide) (by rfl), by decide, nofun, _, rfl, rfl⟩
    intro x hx
    simp only [List.mem_cons, List.not_mem_nil, or_false] at hx
    rcases hx with rfl | rfl
    · exact ⟨by decide, letter_one (d := table[1]) rfl (by decide) (by rfl), _, rfl, fun _ _ => .inl rfl⟩
    · exact ⟨by decide, letter_one (d := table[4]) rfl (by decide) (by rfl), _, rfl, fun _ _ => .inl rfl⟩
  · exact ⟨by decide, by decide, .inl (meant_one (d := table[3]) rfl rfl (by rfl)), _, rfl, rfl⟩
  · intro a r; simp
  · exact ⟨by decide, by decide, .inl (meant_one (d := table[1]) rfl rfl (by rfl)), _, rfl, fun _ => .inl rfl⟩

example : line.flatMap Word.text ++ (Rest.dashes [c!"-y"]).text
    = [c!"file", c!"-vqo", c!"out", c!"--level=3", c!"x", c!"--verbose", c!"--", c!"-y"] := by decide

example : line.flatMap Word.wants = [(1, none), (4, none), (2, some c!"out"), (3, some c!"3"), (1, none)] ∧
    line.flatMap Word.others ++ (Rest.dashes [c!"-y"]).others = [c!"file", c!"x", c!"-y"] := by decide

example := C124_roundtrip ⟨true, table, 0, false⟩ table_named line (line_good _ _) (.inl rfl) (.dashes [c!"-y"]) nofun

example := C124_roundtrip ⟨false, table, 3, false⟩ table_named [.long 1 c!"verbose" .nothing]
  (by intro w hw; simp at hw; subst hw; exact line_good _ _ _ (by simp [line])) (.inr (by simp [Word.others]))
  (.plain c!"file" [c!"-o"]) (by intro s q h; cases h; exact ⟨rfl, by simp⟩)

/-- `-verbose -o=` with long options after one minus. -/
example : seen (workhorse ⟨false, table, 0, true⟩ none [c!"-verbose", c!"-o="]).opts = [(1, none), (2, some c!"=")] := by
  have h := (C124_roundtrip ⟨false, table, 0, true⟩ table_named [.minus 1 c!"verbose" .nothing, .short [] 2 'o' (.attached c!"=")] (by
    intro w hw
    simp only [List.mem_cons, List.not_mem_nil, or_false] at hw
    rcases hw with rfl | rfl
    · exact ⟨rfl, by decide, by decide, by decide, meant_one (d := table[1]) rfl rfl (by decide), _, rfl, fun _ => .inl rfl⟩
    · refine ⟨by simp, by decide, letter_one (d := table[2]) rfl (by decide) (by decide), by decide, fun _ j => ?_, _, rfl, rfl⟩
      rw [show (([] : List (Nat × Char)).map Prod.snd ++ 'o' :: (Ending.attached c!"=").inShort).takeWhile (· ≠ '=') = c!"o" by decide]
      rintro (⟨d, hd, hl, -⟩ | ⟨-, h, -⟩)
      · have : ∀ d ∈ table, d.long ≠ c!"o" := by
          intro d hd; simp [table] at hd; rcases hd with rfl | rfl | rfl | rfl | rfl <;> decide
        exact this d (List.mem_of_getElem? hd) hl
      · exact absurd h (by decide)) (.inr (by simp [Word.others])) .nothing nofun).1
  exact h

/-- A vector in which an option takes `-x` as its argument. -/
example : parse {} (Heap.new 4 4) ⟨true, table, 0, false⟩ none [c!"a", c!"-o", c!"-x", c!"b", c!"--", c!"-v"] none
    = some (⟨1, [c!"a", c!"b", c!"-v"], false⟩,
      ⟨[fresh (.option 0) none, fresh (.option 1) none, fresh (.option 2) (some ⟨2, c!"o", some c!"-x"⟩), fresh (.option 3) none],
        [fresh (.buffer 0) (some ⟨2, c!"o", some c!"-x"⟩), fresh (.buffer 1) none, fresh (.buffer 2) none, fresh (.buffer 3) none]⟩,
      [c!"-o", c!"-x", c!"--", c!"a", c!"b", c!"-v"]) := by decide

example (p' : Parser) (h' : Heap) (argv' : List Str)
    (h : parse {} (Heap.new 4 4) ⟨false, table, 0, false⟩ none [c!"-v", c!"a", c!"-q"] none = some (p', h', argv')) :
    argv' = [c!"-v", c!"a", c!"-q"] := by
  obtain ⟨u, l, -, -, e, -⟩ := C125_reorder {} p' (Heap.new 4 4) h' ⟨false, table, 0, false⟩ none none _ argv' (by simp) h
  exact e rfl

/-- The table without the option that needs an argument. -/
def switches : List Desc := [⟨0, [], [], checkNone⟩, ⟨1, c!"v", c!"verbose", checkNone⟩, ⟨2, c!"w", c!"version", checkNone⟩]

example : ((∃ o ∈ (workhorse ⟨true, switches, 3, false⟩ none [c!"--" ++ c!"verb"]).opts, o.desc = 1)) :=
  ((C128_long_partial ⟨true, switches, 3, false⟩ (by intro d hd; simp [switches] at hd; rcases hd with rfl | rfl | rfl <;> decide)
    (by intro d hd; simp [switches] at hd; rcases hd with rfl | rfl | rfl <;> exact fun _ _ => .inl rfl) c!"verb" (by decide)).2 1).2
    (.inl (.inr ⟨by intro d hd; simp [switches] at hd; rcases hd with rfl | rfl | rfl <;> decide, by decide, by decide, _, rfl,
      by decide, by
        intro j e he hp
        match j with
        | 0 => cases he; exact absurd hp (by decide)
        | 1 => rfl
        | 2 => cases he; exact absurd hp (by decide)
        | n + 3 => simp [switches] at he⟩))

/-- An abbreviation of two names is unknown. -/
example : (workhorse ⟨true, switches, 3, false⟩ none [c!"--ver"]).opts = [⟨0, c!"--ver", none⟩] := by decide

end Verif.OptParse
