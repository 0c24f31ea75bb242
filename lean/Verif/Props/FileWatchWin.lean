import Verif.Model.FileWatchWin

/-!
C194: the changes a `FileWatcherHandler` reports on Windows.
-/
namespace Verif.FileWatchWin
open Verif.FileWatch (Byte word)

/-! ### paths -/

theorem sep_split (d f : List Byte) (s : Byte) (hs : isSep s = true) (hf : ∀ b ∈ f, isSep b = false) :
    split (d ++ s :: f) = (d ++ [s], f) := by
  have hpos : ∀ b ∈ f.reverse, (!isSep b) = true := fun b hb => by simp [hf b (List.mem_reverse.1 hb)]
  have hrev : (d ++ s :: f).reverse = f.reverse ++ s :: d.reverse := by simp
  unfold split
  rw [hrev, List.takeWhile_append_of_pos hpos, List.dropWhile_append_of_pos hpos]
  simp [hs]

theorem plain_split (f : List Byte) (hf : ∀ b ∈ f, isSep b = false) : (split f).2 = f := by
  have hpos : ∀ b ∈ f.reverse, (!isSep b) = true := fun b hb => by simp [hf b (List.mem_reverse.1 hb)]
  have h1 := List.takeWhile_append_of_pos (l₂ := []) hpos
  rw [List.append_nil] at h1
  unfold split
  simp [h1]

/-- A character of a name of the system: a unit that is a character of its own and not a separator. -/
def Letter (u : Nat) : Prop := u < 0x10000 ∧ u ≠ 0x5C ∧ u ≠ 0x2F

theorem utf8_sep (u : Nat) (h : Letter u) : ∀ b ∈ utf8 u, isSep b = false := by
  obtain ⟨h1, h2, h3⟩ := h
  intro b hb
  have key : ∀ n : Nat, n < 256 → n ≠ 0x5C → n ≠ 0x2F → isSep (BitVec.ofNat 8 n) = false := by
    intro n hn ha hb
    have e : ∀ m : Nat, m < 256 → (BitVec.ofNat 8 n = BitVec.ofNat 8 m ↔ n = m) := by
      intro m hm
      constructor
      · intro e
        have := congrArg BitVec.toNat e
        simp at this
        omega
      · rintro rfl; rfl
    simp only [isSep, Bool.or_eq_false_iff, decide_eq_false_iff_not]
    exact ⟨fun h => ha ((e 0x5C (by omega)).1 h), fun h => hb ((e 0x2F (by omega)).1 h)⟩
  unfold utf8 at hb
  split at hb
  · simp only [List.mem_singleton] at hb
    rw [hb]
    exact key u (by omega) h2 h3
  · split at hb
    · simp only [List.mem_cons, List.not_mem_nil, or_false] at hb
      rcases hb with rfl | rfl
      · exact key _ (by omega) (by omega) (by omega)
      · exact key _ (by omega) (by omega) (by omega)
    · simp only [List.mem_cons, List.not_mem_nil, or_false] at hb
      rcases hb with rfl | rfl | rfl
      · exact key _ (by omega) (by omega) (by omega)
      · exact key _ (by omega) (by omega) (by omega)
      · exact key _ (by omega) (by omega) (by omega)

theorem convert_sep (n : List Nat) (h : ∀ u ∈ n, Letter u) : ∀ b ∈ convert n, isSep b = false := by
  intro b hb
  obtain ⟨u, hu, hb⟩ := List.mem_flatMap.1 hb
  exact utf8_sep u (h u hu) b hb

theorem ofNat_inj (a b : Nat) (ha : a < 256) (hb : b < 256) (h : BitVec.ofNat 8 a = BitVec.ofNat 8 b) : a = b := by
  have := congrArg BitVec.toNat h
  simp at this
  omega

theorem utf8_length (u : Nat) : 1 ≤ (utf8 u).length ∧ (0x80 ≤ u → 2 ≤ (utf8 u).length) := by
  unfold utf8
  split
  · exact ⟨by simp, by omega⟩
  · split <;> exact ⟨by simp, by simp⟩

theorem convert_inj (a : List Nat) (ha : ∀ u ∈ a, u < 0x10000) :
    ∀ b : List Nat, (∀ u ∈ b, u < 0x10000) → convert a = convert b → a = b := by
  induction a with
  | nil =>
    intro b _ h
    cases b with
    | nil => rfl
    | cons y b =>
      have := congrArg List.length h
      simp only [convert, List.flatMap_nil, List.flatMap_cons, List.length_append, List.length_nil] at this
      have := (utf8_length y).1
      omega
  | cons x a ih =>
    intro b hb h
    cases b with
    | nil =>
      have := congrArg List.length h
      simp only [convert, List.flatMap_nil, List.flatMap_cons, List.length_append, List.length_nil] at this
      have := (utf8_length x).1
      omega
    | cons y b =>
      have hx := ha x (by simp)
      have hy := hb y (by simp)
      have ih := ih (fun u hu => ha u (by simp [hu])) b (fun u hu => hb u (by simp [hu]))
      simp only [convert, List.flatMap_cons] at h ih
      have go : x = y ∧ a.flatMap utf8 = b.flatMap utf8 := by
        unfold utf8 at h
        by_cases x1 : x < 0x80 <;> by_cases y1 : y < 0x80 <;> by_cases x2 : x < 0x800 <;> by_cases y2 : y < 0x800 <;>
          simp only [x1, y1, x2, y2, if_true, if_false, List.cons_append, List.nil_append, List.cons.injEq] at h
        all_goals first | omega | skip
        all_goals
          first
          | exact ⟨ofNat_inj _ _ (by omega) (by omega) h.1, h.2⟩
          | (exfalso; have e := ofNat_inj _ _ (by omega) (by omega) h.1; omega)
          | (have e1 := ofNat_inj _ _ (by omega) (by omega) h.1
             have e2 := ofNat_inj _ _ (by omega) (by omega) h.2.1
             first
             | exact ⟨by omega, h.2.2⟩
             | (have e3 := ofNat_inj _ _ (by omega) (by omega) h.2.2.1
                exact ⟨by omega, h.2.2.2⟩))
      rw [go.1, ih go.2]

/-! ### the buffer -/

/-- A 32-bit number as four bytes. -/
def le32 (n : Nat) : List Byte :=
  [BitVec.ofNat 8 n, BitVec.ofNat 8 (n / 256), BitVec.ofNat 8 (n / 65536), BitVec.ofNat 8 (n / 16777216)]

theorem word_le32 (n : Nat) (h : n < 2 ^ 32) (rest : List Byte) : word (le32 n ++ rest) = n := by
  simp [word, le32]
  omega

/-- A 16-bit unit as two bytes. -/
def le16 (u : Nat) : List Byte := [BitVec.ofNat 8 u, BitVec.ofNat 8 (u / 256)]

/-- An entry as the system writes it: the kind, the name, and what follows the name up to the next entry (the system aligns
entries). -/
structure Entry where
  action : Nat
  name : List Nat
  pad : List Byte

/-- What can be written: kinds and lengths have 32 bits and units 16. -/
structure Entry.Good (e : Entry) : Prop where
  action : e.action < 2 ^ 32
  units : ∀ u ∈ e.name, u < 2 ^ 16
  size : 12 + 2 * e.name.length + e.pad.length < 2 ^ 32

/-- The bytes of the name. -/
def Entry.nameBytes (e : Entry) : List Byte := e.name.flatMap le16

/-- The bytes of entries, each with the distance to the next, the last with 0. -/
def bytes : List Entry → List Byte
  | [] => []
  | [e] => le32 0 ++ (le32 e.action ++ (le32 (2 * e.name.length) ++ (e.nameBytes ++ e.pad)))
  | e :: es => le32 (12 + 2 * e.name.length + e.pad.length) ++
      (le32 e.action ++ (le32 (2 * e.name.length) ++ (e.nameBytes ++ e.pad))) ++ bytes es

theorem nameBytes_length (e : Entry) : e.nameBytes.length = 2 * e.name.length := by
  unfold Entry.nameBytes
  induction e.name with
  | nil => rfl
  | cons u us ih => simp [ih, le16]; omega

theorem units_nameBytes (name : List Nat) (h : ∀ u ∈ name, u < 2 ^ 16) (rest : List Byte) :
    units name.length (name.flatMap le16 ++ rest) = name := by
  induction name with
  | nil => rfl
  | cons u us ih =>
    have hu := h u (by simp)
    have := ih (fun u hu => h u (by simp [hu]))
    simp only [List.flatMap_cons, List.length_cons, units]
    rw [show (le16 u ++ us.flatMap le16 ++ rest).drop 2 = us.flatMap le16 ++ rest by simp [le16], this]
    congr 1
    simp [le16]
    omega

theorem walk_step (next : Nat) (hnext : next < 2 ^ 32) (e : Entry) (he : e.Good) (rest : List Byte) (fuel : Nat) :
    walk (fuel + 1) (le32 next ++ (le32 e.action ++ (le32 (2 * e.name.length) ++ (e.nameBytes ++ e.pad))) ++ rest) =
      if next = 0 then some [(e.action, e.name)]
      else (walk fuel ((le32 next ++ (le32 e.action ++ (le32 (2 * e.name.length) ++ (e.nameBytes ++ e.pad))) ++ rest).drop
        next)).map ((e.action, e.name) :: ·) := by
  generalize hb : le32 next ++ (le32 e.action ++ (le32 (2 * e.name.length) ++ (e.nameBytes ++ e.pad))) ++ rest = buffer
  have h0 : word buffer = next := by
    rw [← hb, List.append_assoc]; exact word_le32 _ hnext _
  have h4 : word (buffer.drop 4) = e.action := by
    have : buffer.drop 4 = le32 e.action ++ (le32 (2 * e.name.length) ++ (e.nameBytes ++ e.pad) ++ rest) := by
      rw [← hb]; simp [le32]
    rw [this]; exact word_le32 _ he.action _
  have h8 : word (buffer.drop 8) = 2 * e.name.length := by
    have : buffer.drop 8 = le32 (2 * e.name.length) ++ (e.nameBytes ++ e.pad ++ rest) := by
      rw [← hb]; simp [le32]
    rw [this]; exact word_le32 _ (by have := he.size; omega) _
  have h12 : buffer.drop 12 = e.name.flatMap le16 ++ (e.pad ++ rest) := by
    rw [← hb]; simp [le32, Entry.nameBytes]
  have hl : buffer.length = 12 + 2 * e.name.length + e.pad.length + rest.length := by
    rw [← hb]
    simp [le32, nameBytes_length]
    omega
  rw [walk, if_neg (by omega), h8, if_neg (by omega)]
  simp only [h4, h0]
  rw [show 2 * e.name.length / 2 = e.name.length by omega, h12, units_nameBytes _ he.units]

theorem bytes_cons (e e' : Entry) (es : List Entry) : bytes (e :: e' :: es) =
    le32 (12 + 2 * e.name.length + e.pad.length) ++
      (le32 e.action ++ (le32 (2 * e.name.length) ++ (e.nameBytes ++ e.pad))) ++ bytes (e' :: es) := rfl

theorem bytes_pos (e : Entry) (es : List Entry) : es.length + 1 ≤ (bytes (e :: es)).length := by
  induction es generalizing e with
  | nil => simp [bytes, le32]
  | cons e' es ih =>
    have := ih e'
    rw [bytes_cons, List.length_append, List.length_append]
    simp only [List.length_cons] at *
    have : 0 < (le32 (12 + 2 * e.name.length + e.pad.length)).length := by simp [le32]
    omega

theorem walk_bytes (e : Entry) (es : List Entry) (h : ∀ x ∈ e :: es, x.Good) :
    ∀ fuel, es.length + 1 ≤ fuel → walk fuel (bytes (e :: es)) = some ((e :: es).map fun x => (x.action, x.name)) := by
  induction es generalizing e with
  | nil =>
    intro fuel hf
    obtain ⟨fuel, rfl⟩ := Nat.exists_eq_add_of_le' (show 1 ≤ fuel by simpa using hf)
    have := walk_step 0 (by omega) e (h e (by simp)) [] fuel
    rw [List.append_nil] at this
    rw [show bytes [e] = le32 0 ++ (le32 e.action ++ (le32 (2 * e.name.length) ++ (e.nameBytes ++ e.pad))) from rfl, this]
    simp
  | cons e' es ih =>
    intro fuel hf
    obtain ⟨fuel, rfl⟩ := Nat.exists_eq_add_of_le' (show 1 ≤ fuel by omega)
    have hg := h e (by simp)
    have hd : (bytes (e :: e' :: es)).drop (12 + 2 * e.name.length + e.pad.length) = bytes (e' :: es) := by
      rw [bytes_cons]
      refine List.drop_left' ?_
      simp [le32, nameBytes_length]
      omega
    rw [bytes_cons] at hd ⊢
    rw [walk_step _ hg.size e hg, hd, if_neg (by omega),
      ih e' (fun x hx => h x (by simp [hx])) fuel (by simp at hf; omega)]
    rfl

/-- C194: whatever changes the system writes into the buffer, with names of any length and any padding, the loop finds exactly these,
in their order, with their kinds and names, and reads nothing beyond them. -/
theorem C194_buffer (es : List Entry) (hne : es ≠ []) (h : ∀ e ∈ es, e.Good) :
    walk (bytes es).length (bytes es) = some (es.map fun e => (e.action, e.name)) := by
  cases es with
  | nil => exact absurd rfl hne
  | cons e es => exact walk_bytes e es h _ (bytes_pos e es)

/-- The hypotheses are met: a file is created and written to. -/
example : (∀ e ∈ [(⟨1, [0x66], [0#8, 0#8]⟩ : Entry), ⟨3, [0x66, 0xF1], []⟩], e.Good) ∧
    walk (bytes [⟨1, [0x66], [0#8, 0#8]⟩, ⟨3, [0x66, 0xF1], []⟩]).length
      (bytes [⟨1, [0x66], [0#8, 0#8]⟩, ⟨3, [0x66, 0xF1], []⟩]) = some [(1, [0x66]), (3, [0x66, 0xF1])] := by
  refine ⟨?_, by decide⟩
  intro e he
  simp only [List.mem_cons, List.not_mem_nil, or_false] at he
  rcases he with rfl | rfl <;> exact ⟨by decide, by decide, by decide⟩

/-! ### what is reported -/

/-- The kinds that Windows has. -/
def Known (e : Entry) : Prop := 1 ≤ e.action ∧ e.action ≤ 5

theorem actionOf_known (e : Entry) (h : Known e) : ∃ c, actionOf e.action = some c ∧ (c = .modified ↔ e.action = 3) := by
  obtain ⟨h1, h2⟩ := h
  have : e.action = 1 ∨ e.action = 2 ∨ e.action = 3 ∨ e.action = 4 ∨ e.action = 5 := by omega
  rcases this with h | h | h | h | h <;> rw [h] <;> exact ⟨_, rfl, by simp⟩

theorem noted_known (filename : List Byte) (es : List Entry) (hk : ∀ e ∈ es, Known e) :
    ∃ l, noted filename (es.map fun e => (e.action, e.name)) = some l ∧
      (l.filterMap fun x => if x.2 = .modified then some x.1 else none) =
        (es.filter fun e => e.action = 3 && pass filename (convert e.name)).map fun e => convert e.name := by
  induction es with
  | nil => exact ⟨[], rfl, rfl⟩
  | cons e es ih =>
    obtain ⟨l, hl, hm⟩ := ih (fun x hx => hk x (by simp [hx]))
    obtain ⟨c, hc, hmod⟩ := actionOf_known e (hk e (by simp))
    by_cases hp : pass filename (convert e.name) = true
    · refine ⟨(convert e.name, c) :: l, by simp [noted, hp, hc, hl], ?_⟩
      by_cases h3 : e.action = 3
      · have hcm := hmod.2 h3
        rw [List.filterMap_cons_some (b := convert e.name) (by simp [hcm]), hm,
          List.filter_cons_of_pos (by simp [h3, hp]), List.map_cons]
      · have hcm : c ≠ .modified := fun h => h3 (hmod.1 h)
        rw [List.filterMap_cons_none (by simp [hcm]), hm, List.filter_cons_of_neg (by simp [h3])]
    · exact ⟨l, by simp [noted, hp, hl], by rw [hm, List.filter_cons_of_neg (by simp [hp])]⟩

/-- Everything that is reported, for whichever entries fit into the buffer. -/
theorem reported_known (path : List Byte) (es : List Entry) (hg : ∀ e ∈ es, e.Good) (hk : ∀ e ∈ es, Known e)
    (hs : (bytes es).length ≤ 262144) :
    reported path (bytes es) =
      some ((es.filter fun e => e.action = 3 && pass (split path).2 (convert e.name)).map fun e => convert e.name) := by
  have hsys : system (bytes es) = bytes es := by
    unfold system bufferSize
    rw [if_pos (by omega)]
  unfold reported
  rw [hsys]
  cases es with
  | nil => rfl
  | cons e es =>
    obtain ⟨l, hl, hm⟩ := noted_known (split path).2 (e :: es) hk
    have hpos := bytes_pos e es
    unfold round getFile
    rw [if_neg (by omega), C194_buffer _ (by simp) hg, Option.bind_some, hl, Option.map_some, hm]

/-- The bytes of a text of ASCII characters. -/
def ascii (f : List Nat) : List Byte := f.map (BitVec.ofNat 8)

theorem ascii_convert (f : List Nat) (h : ∀ u ∈ f, u < 0x80) : ascii f = convert f := by
  induction f with
  | nil => rfl
  | cons u f ih =>
    have hu : utf8 u = [BitVec.ofNat 8 u] := by
      unfold utf8
      rw [if_pos (h u (by simp))]
    rw [show ascii (u :: f) = BitVec.ofNat 8 u :: ascii f from rfl, ih fun v hv => h v (by simp [hv])]
    simp [convert, hu]

/-- C194, in part: for a file whose name has ASCII characters only, in the letters the directory has it in, and as long as
nothing changes below the directory and the changes fit into the buffer, its modifications and no others are reported, in order.
Missing: other names, other letters, directories below, and full buffers, see the negations. -/
theorem C194_reported_partial (d : List Byte) (s : Byte) (hs : isSep s = true) (f : List Nat)
    (hf : ∀ u ∈ f, Letter u ∧ u < 0x80) (es : List Entry) (hg : ∀ e ∈ es, e.Good) (hk : ∀ e ∈ es, Known e)
    (hflat : ∀ e ∈ es, ∀ u ∈ e.name, Letter u) (hfit : (bytes es).length ≤ 262144) :
    reported (d ++ s :: ascii f) (bytes es) =
      some ((es.filter fun e => e.action = 3 && e.name = f).map fun _ => ascii f) := by
  have hfc : ascii f = convert f := ascii_convert f fun u hu => (hf u hu).2
  have hsep : ∀ b ∈ ascii f, isSep b = false := by
    rw [hfc]
    exact convert_sep f fun u hu => (hf u hu).1
  rw [reported_known _ es hg hk hfit, sep_split d _ s hs hsep]
  have hpass : ∀ e ∈ es, pass (ascii f) (convert e.name) = decide (e.name = f) := by
    intro e he
    rw [pass, plain_split _ (convert_sep _ (hflat e he)), hfc]
    by_cases h : e.name = f
    · simp [h]
    · have : convert e.name ≠ convert f := fun hc => h (convert_inj _ (fun u hu => (hflat e he u hu).1) _
        (fun u hu => (hf u hu).1.1) hc)
      simp [h, this]
  have hfilter : (es.filter fun e => e.action = 3 && pass (ascii f) (convert e.name)) =
      es.filter fun e => e.action = 3 && e.name = f := by
    refine List.filter_congr fun e he => ?_
    rw [hpass e he]
  show some _ = some _
  rw [hfilter]
  congr 1
  refine List.map_congr_left fun e he => ?_
  have := (List.mem_filter.1 he).2
  simp only [Bool.and_eq_true, decide_eq_true_eq] at this
  rw [this.2, hfc]

/-- The path `d\f` while `f` and `g` are written. -/
example : reported ([0x64#8] ++ 0x5C#8 :: ascii [0x66]) (bytes [⟨3, [0x67], [0#8, 0#8]⟩, ⟨3, [0x66], []⟩]) =
    some [ascii [0x66]] := by decide

/-- C194 is false: a file with the same name in any directory below is reported as if it were the file. -/
theorem C194_negation_below (d : List Byte) (s : Byte) (hs : isSep s = true) (f sub : List Nat)
    (hf : ∀ u ∈ f, Letter u ∧ u < 0x80) (hsub : ∀ u ∈ sub, u < 2 ^ 16) (hsize : 2 * (sub.length + f.length) < 260000) :
    reported (d ++ s :: ascii f) (bytes [⟨3, sub ++ 0x5C :: f, []⟩]) = some [convert (sub ++ 0x5C :: f)] := by
  have hfc : ascii f = convert f := ascii_convert f fun u hu => (hf u hu).2
  have hsep : ∀ b ∈ convert f, isSep b = false := convert_sep f fun u hu => (hf u hu).1
  rw [reported_known _ _ ?_ ?_ ?_, hfc, sep_split d _ s hs hsep]
  · have hc : convert (sub ++ 0x5C :: f) = convert sub ++ 0x5C#8 :: convert f := by
      simp [convert, utf8]
    rw [List.filter_cons_of_pos]
    · rfl
    · simp only [pass]
      rw [hc, sep_split (convert sub) (convert f) 0x5C#8 (by decide) hsep]
      simp
  · intro e he
    simp only [List.mem_singleton] at he
    subst he
    refine ⟨by simp, ?_, by simp; omega⟩
    intro u hu
    simp only [List.mem_append, List.mem_cons] at hu
    rcases hu with hu | rfl | hu
    · exact hsub u hu
    · decide
    · have := (hf u hu).1.1; omega
  · intro e he
    simp only [List.mem_singleton] at he
    subst he
    exact ⟨by simp, by simp⟩
  · simp [bytes, le32, nameBytes_length]
    omega

/-- `d\f` is watched and `d\old\f` written. -/
example : reported ([0x64#8] ++ 0x5C#8 :: ascii [0x66]) (bytes [⟨3, [0x6F, 0x6C, 0x64] ++ 0x5C :: [0x66], []⟩]) =
    some [convert ([0x6F, 0x6C, 0x64] ++ 0x5C :: [0x66])] := by decide

/-- C194: the directory that is watched is the one of the path, for a path of one part the current one. -/
theorem C194_directory (d f : List Byte) (s : Byte) (hs : isSep s = true) (hf : ∀ b ∈ f, isSep b = false) :
    (getFile (d ++ s :: f)).1 = d ++ [s] ∧ (getFile f).1 = [0x2E#8, 0x2F#8] := by
  refine ⟨by rw [getFile, sep_split d f s hs hf], ?_⟩
  have hpos : ∀ b ∈ f.reverse, (!isSep b) = true := fun b hb => by simp [hf b (List.mem_reverse.1 hb)]
  have h2 := List.dropWhile_append_of_pos (l₂ := []) hpos
  rw [List.append_nil] at h2
  unfold getFile split
  simp [h2]

example : (getFile [0x64#8, 0x2F#8, 0x66#8]).1 = [0x64#8, 0x2F#8] ∧ (getFile [0x66#8]).1 = [0x2E#8, 0x2F#8] := by decide

/-- The small letter of an ASCII letter. -/
def small (u : Nat) : Nat := if 0x41 ≤ u ∧ u ≤ 0x5A then u + 0x20 else u

/-- C194 is false: Windows takes names that differ in small and capital letters for the same file, but if the path has it in
other letters than the directory, then nothing is ever reported. -/
theorem C194_negation_case (d : List Byte) (s : Byte) (hs : isSep s = true) (f n : List Nat)
    (hf : ∀ u ∈ f, Letter u ∧ u < 0x80) (hn : ∀ u ∈ n, Letter u) (_hsame : n.map small = f.map small) (hne : n ≠ f)
    (es : List Entry) (hg : ∀ e ∈ es, e.Good) (hk : ∀ e ∈ es, Known e) (hes : ∀ e ∈ es, e.name = n)
    (hfit : (bytes es).length ≤ 262144) : reported (d ++ s :: ascii f) (bytes es) = some [] := by
  rw [C194_reported_partial d s hs f hf es hg hk (fun e he => by rw [hes e he]; exact hn) hfit]
  rw [List.filter_eq_nil_iff.2]
  · rfl
  · intro e he
    simp [hes e he, hne]

/-- `Conf` in the directory, `conf` in the path. -/
example : [0x43, 0x6F, 0x6E, 0x66].map small = [0x63, 0x6F, 0x6E, 0x66].map small ∧
    [0x43, 0x6F, 0x6E, 0x66] ≠ [0x63, 0x6F, 0x6E, 0x66] ∧
    reported ([0x64#8] ++ 0x5C#8 :: ascii [0x63, 0x6F, 0x6E, 0x66]) (bytes [⟨3, [0x43, 0x6F, 0x6E, 0x66], []⟩]) = some [] := by
  decide

theorem convert_length (f : List Nat) : f.length ≤ (convert f).length ∧
    ((∃ u ∈ f, 0x80 ≤ u) → f.length < (convert f).length) := by
  induction f with
  | nil => exact ⟨by simp, by simp⟩
  | cons u f ih =>
    have h := utf8_length u
    have e : (convert (u :: f)).length = (utf8 u).length + (convert f).length := by simp [convert]
    rw [e, List.length_cons]
    refine ⟨by omega, ?_⟩
    rintro ⟨v, hv, h8⟩
    rcases List.mem_cons.1 hv with rfl | hv
    · have := h.2 h8; omega
    · have := ih.2 ⟨v, hv, h8⟩; omega

/-- C194 is false: the path is in the code page of the system (`GetFileAttributesA`), the names of changes are in UTF-8.  For
every code page with one byte for each character, a file with a character that is not ASCII in its name is never reported. -/
theorem C194_negation_code_page (page : Nat → Byte) (d : List Byte) (s : Byte) (hs : isSep s = true) (f : List Nat)
    (hf : ∀ u ∈ f, Letter u ∧ isSep (page u) = false) (h8 : ∃ u ∈ f, 0x80 ≤ u)
    (es : List Entry) (hg : ∀ e ∈ es, e.Good) (hk : ∀ e ∈ es, Known e) (hes : ∀ e ∈ es, e.name = f)
    (hfit : (bytes es).length ≤ 262144) : reported (d ++ s :: f.map page) (bytes es) = some [] := by
  have hsep : ∀ b ∈ f.map page, isSep b = false := by
    intro b hb
    obtain ⟨u, hu, rfl⟩ := List.mem_map.1 hb
    exact (hf u hu).2
  rw [reported_known _ es hg hk hfit, sep_split d _ s hs hsep, List.filter_eq_nil_iff.2]
  · rfl
  · intro e he
    have hlen := (convert_length f).2 h8
    have : convert f ≠ f.map page := fun h => by
      rw [h, List.length_map] at hlen
      omega
    simp [pass, hes e he, plain_split _ (convert_sep f fun u hu => (hf u hu).1), this]

/-- "año" in the code page 1252 (and in Latin 1). -/
example : (∀ u ∈ [0x61, 0xF1, 0x6F], isSep (BitVec.ofNat 8 u) = false) ∧ (∃ u ∈ [0x61, 0xF1, 0x6F], 0x80 ≤ u) ∧
    reported ([0x64#8] ++ 0x5C#8 :: [0x61, 0xF1, 0x6F].map (BitVec.ofNat 8)) (bytes [⟨3, [0x61, 0xF1, 0x6F], []⟩]) = some [] := by
  decide

/-- C194 is false: a new version that is renamed to the file is not reported, nor is any change that is not a modification in
place, whatever the names. -/
theorem C194_negation_rename (path : List Byte) (es : List Entry) (hg : ∀ e ∈ es, e.Good) (hk : ∀ e ∈ es, Known e)
    (h3 : ∀ e ∈ es, e.action ≠ 3) (hfit : (bytes es).length ≤ 262144) : reported path (bytes es) = some [] := by
  rw [reported_known _ es hg hk hfit, List.filter_eq_nil_iff.2]
  · rfl
  · intro e he
    simp [h3 e he]

/-- `f~` is renamed to `f`, which is there. -/
example : reported ([0x64#8] ++ 0x5C#8 :: ascii [0x66])
    (bytes [⟨2, [0x66], [0#8, 0#8]⟩, ⟨4, [0x66, 0x7E], []⟩, ⟨5, [0x66], []⟩]) = some [] := by decide

/-- C194 is false: of changes that do not fit into the buffer of 256 KB none is reported, modifications of the file among them
or not, and there is no error. -/
theorem C194_negation_full (path : List Byte) (es : List Entry) (h : 262144 < (bytes es).length) :
    reported path (bytes es) = some [] := by
  have : system (bytes es) = [] := by
    unfold system bufferSize
    rw [if_neg (by omega)]
  unfold reported
  rw [this]
  rfl

/-- The file is written to very often. -/
example : 262144 < (bytes (⟨3, [0x66], []⟩ :: List.replicate 262144 ⟨3, [0x66], []⟩)).length := by
  have := bytes_pos ⟨3, [0x66], []⟩ (List.replicate 262144 ⟨3, [0x66], []⟩)
  rw [List.length_replicate] at this
  omega

/-- C194 is false: changes of attributes and of permissions are reported as modifications though the text stays, and so is
reading the file, as a callback would, on volumes that keep times of last access. -/
theorem C194_negation_same_text (old : List Byte) (name : List Nat) :
    (∀ u : Use, u = .setAttributes ∨ u = .setSecurity → u.text old = old ∧ ∀ t, u.entry t name = some (3, name)) ∧
      Use.read.text old = old ∧ Use.read.entry true name = some (3, name) := by
  refine ⟨?_, rfl, rfl⟩
  rintro u (rfl | rfl) <;> exact ⟨rfl, fun t => rfl⟩

/-- C194: writing to the file in place always makes an entry. -/
theorem C194_write (t : Bool) (name : List Nat) (text : List Byte) : (Use.write text).entry t name = some (3, name) := rfl

example : (Use.write [0x61#8]).text [] = [0x61#8] := rfl

end Verif.FileWatchWin
