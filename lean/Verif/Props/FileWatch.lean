import Verif.Model.FileWatch
/-!
C115: what is watched for a path, and what is made of the bytes the kernel writes.
-/
namespace Verif.FileWatch

theorem slash_split (d f : Str) (h : '/' ∉ f) : split (d ++ '/' :: f) = (d ++ ['/'], f) := by
  have hpos : ∀ c ∈ f.reverse, (decide (c ≠ '/')) = true := by
    intro c hc
    exact decide_eq_true fun e => h (by rw [← e]; exact List.mem_reverse.1 hc)
  have hrev : (d ++ '/' :: f).reverse = f.reverse ++ '/' :: d.reverse := by simp
  unfold split
  rw [hrev, List.takeWhile_append_of_pos hpos, List.dropWhile_append_of_pos hpos]
  simp

theorem plain_split (f : Str) (h : '/' ∉ f) : split f = (c!"./", f) := by
  have hpos : ∀ c ∈ f.reverse, (decide (c ≠ '/')) = true := by
    intro c hc
    exact decide_eq_true fun e => h (by rw [← e]; exact List.mem_reverse.1 hc)
  have h1 := List.takeWhile_append_of_pos (l₂ := []) hpos
  have h2 := List.dropWhile_append_of_pos (l₂ := []) hpos
  rw [List.append_nil] at h1 h2
  unfold split
  rw [h1, h2]
  simp

/-- C115: for the path of a file, its directory is watched, and of the files in it exactly that one counts; for a path of one
component the directory is ".". -/
theorem C115_single_file (d f n : Str) (hf : '/' ∉ f) (hn : '/' ∉ n) :
    (getDirectory (d ++ '/' :: f) true).1 = d ++ ['/'] ∧
    (pass (getDirectory (d ++ '/' :: f) true).2 n = true ↔ n = f) ∧
    (getDirectory f true).1 = c!"./" ∧ (pass (getDirectory f true).2 n = true ↔ n = f) := by
  simp [getDirectory, slash_split d f hf, plain_split f hf, pass, plain_split n hn]

example : (getDirectory c!"/etc/app/conf.yaml" true).1 = c!"/etc/app/" ∧
    pass (getDirectory c!"/etc/app/conf.yaml" true).2 c!"conf.yaml" = true ∧
    pass (getDirectory c!"/etc/app/conf.yaml" true).2 c!"conf.yaml.swp" = false := by decide

/-- A `uint32_t` as four bytes. -/
def le32 (n : Nat) : List Byte :=
  [BitVec.ofNat 8 n, BitVec.ofNat 8 (n / 256), BitVec.ofNat 8 (n / 65536), BitVec.ofNat 8 (n / 16777216)]

theorem word_le32 (n : Nat) (h : n < 2 ^ 32) (rest : List Byte) : word (le32 n ++ rest) = n := by
  simp [word, le32]
  omega

/-- An event as the kernel writes it: `wd`, `mask`, `cookie`, and a name with the zero bytes after it. -/
structure Raw where
  wd : Nat
  mask : Nat
  cookie : Nat
  name : List Byte
  zeros : Nat

/-- What the kernel guarantees (inotify(7)): a name has no zero byte and is followed by at least one; an event without name has none
either. -/
structure Raw.Good (r : Raw) : Prop where
  mask : r.mask < 2 ^ 32
  len : r.name.length + r.zeros < 2 ^ 32
  name : 0#8 ∉ r.name
  zeros : r.name ≠ [] → 0 < r.zeros
  none : r.name = [] → r.zeros = 0

/-- The bytes. -/
def Raw.bytes (r : Raw) : List Byte :=
  le32 r.wd ++ (le32 r.mask ++ (le32 r.cookie ++ (le32 (r.name.length + r.zeros) ++
    (r.name ++ List.replicate r.zeros 0#8))))

/-- What it means: the bits are those of the numbers `IN_CREATE`, `IN_DELETE` and `IN_MODIFY` of <sys/inotify.h>. -/
def Raw.ev (r : Raw) : Ev :=
  ⟨if r.name = [] then .none else some (r.name.map fun b => Char.ofNat b.toNat),
    decide (r.mask / 0x100 % 2 = 1), decide (r.mask / 0x200 % 2 = 1), decide (r.mask / 0x2 % 2 = 1)⟩

theorem bytes_length (r : Raw) : r.bytes.length = 16 + (r.name.length + r.zeros) := by
  simp [Raw.bytes, le32]
  omega

theorem cstring_name (name : List Byte) (h : 0#8 ∉ name) (k : Nat) (rest : List Byte) (hk : 0 < k) :
    cstring (name ++ List.replicate k 0#8 ++ rest) = name.map fun b => Char.ofNat b.toNat := by
  have hpos : ∀ b ∈ name, (decide (b ≠ 0#8)) = true := fun b hb => decide_eq_true fun e => h (e ▸ hb)
  obtain ⟨k, rfl⟩ := Nat.exists_eq_succ_of_ne_zero (Nat.pos_iff_ne_zero.1 hk)
  unfold cstring
  rw [List.append_assoc, List.takeWhile_append_of_pos hpos]
  simp [List.replicate_succ]

theorem scan_bytes (fuel : Nat) (r : Raw) (h : r.Good) (rest : List Byte) :
    scan (fuel + 1) (r.bytes ++ rest) = (scan fuel rest).map (r.ev :: ·) := by
  have hlen := bytes_length r
  have hne : ∃ b bs, r.bytes ++ rest = b :: bs := by
    unfold Raw.bytes le32
    exact ⟨_, _, rfl⟩
  have h4 : word ((r.bytes ++ rest).drop 4) = r.mask := by
    have : (r.bytes ++ rest).drop 4 = le32 r.mask ++ (le32 r.cookie ++ (le32 (r.name.length + r.zeros) ++
        (r.name ++ List.replicate r.zeros 0#8)) ++ rest) := by
      simp [Raw.bytes, le32]
    rw [this]
    exact word_le32 _ h.mask _
  have h12 : word ((r.bytes ++ rest).drop 12) = r.name.length + r.zeros := by
    have : (r.bytes ++ rest).drop 12 = le32 (r.name.length + r.zeros) ++ (r.name ++ List.replicate r.zeros 0#8 ++ rest) := by
      simp [Raw.bytes, le32]
    rw [this]
    exact word_le32 _ h.len _
  have h16 : (r.bytes ++ rest).drop 16 = r.name ++ List.replicate r.zeros 0#8 ++ rest := by
    simp [Raw.bytes, le32]
  have hdrop : (r.bytes ++ rest).drop (16 + (r.name.length + r.zeros)) = rest := by
    rw [← hlen, List.drop_left]
  have hl : (r.bytes ++ rest).length = 16 + (r.name.length + r.zeros) + rest.length := by
    rw [List.length_append, hlen]
  have hscan : scan (fuel + 1) (r.bytes ++ rest) =
      (let buffer := r.bytes ++ rest
       if buffer.length < 16 then none
       else
         let mask := word (buffer.drop 4)
         let len := word (buffer.drop 12)
         if buffer.length < 16 + len then none
         else
           let name := if len ≠ 0 then some (cstring (buffer.drop 16)) else none
           (scan fuel (buffer.drop (16 + len))).map (⟨name, bit 8 mask, bit 9 mask, bit 1 mask⟩ :: ·)) := by
    obtain ⟨b, bs, e⟩ := hne
    rw [e]
    rfl
  rw [hscan]
  simp only
  rw [h4, h12, h16, hdrop, hl, if_neg (by omega), if_neg (by omega)]
  congr 2
  funext xs
  congr 1
  unfold Raw.ev
  congr 1
  · by_cases hn : r.name = []
    · simp [hn, h.none hn]
    · have hz := h.zeros hn
      rw [if_pos (by omega), if_neg hn, cstring_name _ h.name _ _ hz]
  · simp [bit, Nat.testBit_eq_decide_div_mod_eq]
  · simp [bit, Nat.testBit_eq_decide_div_mod_eq]
  · simp [bit, Nat.testBit_eq_decide_div_mod_eq]

theorem scan_all (rs : List Raw) (h : ∀ r ∈ rs, r.Good) :
    ∀ fuel, rs.length ≤ fuel → scan fuel (rs.flatMap Raw.bytes) = some (rs.map Raw.ev) := by
  induction rs with
  | nil =>
    intro fuel _
    cases fuel <;> rfl
  | cons r rs ih =>
    intro fuel hf
    obtain ⟨fuel, rfl⟩ := Nat.exists_eq_succ_of_ne_zero (Nat.pos_iff_ne_zero.1 (Nat.lt_of_lt_of_le (Nat.succ_pos _) hf))
    rw [List.flatMap_cons, scan_bytes fuel r (h r List.mem_cons_self),
      ih (fun r hr => h r (List.mem_cons_of_mem _ hr)) fuel (Nat.le_of_succ_le_succ hf)]
    rfl

/-- C115: whatever events the kernel writes into the buffer, with names of any length and any padding, the loop finds exactly these, in
their order, with their names and kinds, and reads nothing beyond them. -/
theorem C115_events (rs : List Raw) (h : ∀ r ∈ rs, r.Good) :
    readEvents (rs.flatMap Raw.bytes) = some (rs.map Raw.ev) := by
  refine scan_all rs h _ ?_
  clear h
  induction rs with
  | nil => exact Nat.zero_le _
  | cons r rs ih =>
    rw [List.flatMap_cons, List.length_append, bytes_length, List.length_cons]
    omega

/-- The hypotheses are met: a file is created and written to, then the watch is removed. -/
example : (∀ r ∈ [⟨1, 0x100, 0, [0x66#8], 15⟩, ⟨1, 0x2, 0, [0x66#8], 15⟩, ⟨1, 0x8000, 0, [], 0⟩], Raw.Good r) ∧
    [⟨1, 0x100, 0, [0x66#8], 15⟩, ⟨1, 0x2, 0, [0x66#8], 15⟩, (⟨1, 0x8000, 0, [], 0⟩ : Raw)].map Raw.ev =
      [⟨some c!"f", true, false, false⟩, ⟨some c!"f", false, false, true⟩, ⟨none, false, false, false⟩] := by
  refine ⟨?_, by decide⟩
  intro r hr
  simp only [List.mem_cons, List.not_mem_nil, or_false] at hr
  rcases hr with rfl | rfl | rfl <;> exact ⟨by decide, by decide, by decide, by decide, by decide⟩

end Verif.FileWatch
