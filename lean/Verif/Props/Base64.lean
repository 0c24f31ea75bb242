import Verif.Lemmas.Base64
/-!
C13 - C15: base64.
-/
namespace Verif.Base64
open Verif

/-- C14: `base64_encode` computes the RFC 4648 encoding of every byte string. -/
theorem C14_encode_rfc4648 (s : List Byte) :
    (encode s).map BitVec.toNat = Spec.Base64.encode (s.map BitVec.toNat) := by
  rw [encode_eq_fin]
  simpa [nats] using fin_encLoop _ s rfl 0#32 [] rfl

/-- The specification has the stated shape: length 4*ceil(n/3). -/
theorem C14_length (s : List Byte) : (encode s).length = 4 * ((s.length + 2) / 3) := by
  have h : ∀ n (l : List Nat), l.length = n → (Spec.Base64.encode l).length = 4 * ((n + 2) / 3) := by
    intro n
    induction n using Nat.strongRecOn with
    | _ n ih =>
      intro l hl
      match l, hl with
      | [], h => subst h; rfl
      | [_], h => subst h; simp [Spec.Base64.encode]
      | [_, _], h => subst h; simp [Spec.Base64.encode]
      | a :: b :: c :: r, h =>
        simp only [Spec.Base64.encode, List.length_cons]
        rw [ih r.length (by simp at h; omega) r rfl]
        simp at h; omega
  have := congrArg List.length (C14_encode_rfc4648 s)
  rw [h _ _ rfl] at this
  simpa using this

/-- C14: every output character is an alphabet character or one of at most two final `=`. -/
theorem C14_alphabet (s : List Byte) :
    ∃ body k, encode s = body ++ List.replicate k 61#8 ∧ k ≤ 2 ∧ ∀ c ∈ body, c ∈ alphabet := by
  have hd : ∀ d, d < 64 → codeByte d ∈ alphabet := by
    intro d h
    have : ∀ k : Fin 64, codeByte k.val ∈ alphabet := by decide +kernel
    exact this ⟨d, h⟩
  have h : ∀ n (l : List Nat), l.length = n → (∀ x ∈ l, x < 256) →
      ∃ body k, (Spec.Base64.encode l).map (BitVec.ofNat 8) = body ++ List.replicate k 61#8 ∧ k ≤ 2 ∧
        ∀ c ∈ body, c ∈ alphabet := by
    intro n
    induction n using Nat.strongRecOn with
    | _ n ih =>
      intro l hl hb
      match l, hl with
      | [], h => exact ⟨[], 0, rfl, by decide, by simp⟩
      | [a], h =>
        have := hb a (by simp)
        refine ⟨[codeByte (a * 65536 / 262144), codeByte (a * 65536 / 4096 % 64)], 2, rfl, by decide, ?_⟩
        intro c hc
        simp only [List.mem_cons, List.not_mem_nil, or_false] at hc
        rcases hc with rfl | rfl
        · exact hd _ (by omega)
        · exact hd _ (by omega)
      | [a, b], h =>
        have := hb a (by simp)
        have := hb b (by simp)
        refine ⟨[codeByte ((a * 65536 + b * 256) / 262144), codeByte ((a * 65536 + b * 256) / 4096 % 64),
          codeByte ((a * 65536 + b * 256) / 64 % 64)], 1, rfl, by decide, ?_⟩
        intro c hc
        simp only [List.mem_cons, List.not_mem_nil, or_false] at hc
        rcases hc with rfl | rfl | rfl
        · exact hd _ (by omega)
        · exact hd _ (by omega)
        · exact hd _ (by omega)
      | a :: b :: c :: r, h =>
        have := hb a (by simp)
        have := hb b (by simp)
        have := hb c (by simp)
        obtain ⟨body, k, e, hk, hm⟩ := ih r.length (by simp at h; omega) r rfl
          (fun x hx => hb x (by simp [hx]))
        refine ⟨codeByte ((a * 65536 + b * 256 + c) / 262144) ::
          codeByte ((a * 65536 + b * 256 + c) / 4096 % 64) ::
          codeByte ((a * 65536 + b * 256 + c) / 64 % 64) ::
          codeByte ((a * 65536 + b * 256 + c) % 64) :: body, k, ?_, hk, ?_⟩
        · simp only [Spec.Base64.encode, List.map_cons, e, codeByte, List.cons_append]
        · intro x hx
          simp only [List.mem_cons] at hx
          rcases hx with rfl | rfl | rfl | rfl | hx
          · exact hd _ (by omega)
          · exact hd _ (by omega)
          · exact hd _ (by omega)
          · exact hd _ (by omega)
          · exact hm x hx
  obtain ⟨body, k, e, hk, hm⟩ := h _ (s.map BitVec.toNat) rfl (by
    intro x hx
    obtain ⟨c, -, rfl⟩ := List.mem_map.1 hx
    exact c.isLt)
  refine ⟨body, k, ?_, hk, hm⟩
  rw [← e, ← C14_encode_rfc4648, List.map_map]
  conv => lhs; rw [← List.map_id (encode s)]
  apply List.map_congr_left
  intro c _
  simp

/-- C13: decoding an encoded string gives it back, for every byte string. -/
theorem C13_roundtrip (s : List Byte) : decode (encode s) = s := by
  have e : encode s = (Spec.Base64.encode (nats s)).map (BitVec.ofNat 8) := by
    rw [← C14_encode_rfc4648, List.map_map]
    conv => lhs; rw [← List.map_id (encode s)]
    apply List.map_congr_left
    intro c _
    simp
  rw [e]
  show decLoop _ _ _ _ = _
  simpa using decLoop_spec _ s rfl 0#32 []

/-- C13: hence encoding is injective. -/
theorem C13_injective (s t : List Byte) (h : encode s = encode t) : s = t := by
  rw [← C13_roundtrip s, h, C13_roundtrip]

example : decode (encode [255#8, 0#8, 128#8, 7#8, 255#8]) = [255#8, 0#8, 128#8, 7#8, 255#8] :=
  C13_roundtrip _
-- "Man" -> "TWFu"
example : encode [77#8, 97#8, 110#8] = [84#8, 87#8, 70#8, 117#8] := by decide +kernel

/-! ## C15 -/

theorem shlStrict_eq (v : I32) (k : Nat) (hk : 1 ≤ k) (hk' : k ≤ 32) :
    shlStrict v k = if v.toNat < 2 ^ (32 - k) then some (v <<< k) else none := by
  unfold shlStrict
  have e : 2 ^ 32 = 2 ^ (32 - k) * 2 ^ k := by rw [← Nat.pow_add]; congr 1; omega
  have hpos : 0 < 2 ^ k := Nat.pow_pos (by decide)
  by_cases h : v.toNat < 2 ^ (32 - k)
  · have h31 : 2 ^ (32 - k) ≤ 2 ^ 31 := Nat.pow_le_pow_right (by decide) (by omega)
    have hm : v.msb = false := by
      rw [BitVec.msb_eq_decide]; simp; omega
    have : ¬ (2 ^ 32 ≤ v.toNat * 2 ^ k) := by
      rw [e, Nat.not_le]; exact Nat.mul_lt_mul_of_pos_right h hpos
    simp [h, hm, this]
  · have : 2 ^ 32 ≤ v.toNat * 2 ^ k := by
      rw [e]; exact Nat.mul_le_mul_right _ (by omega)
    simp [h, this]

theorem shlStrict8 (v : I32) :
    shlStrict v 8 = if v.toNat < 16777216 then some (v <<< 8) else none :=
  shlStrict_eq v 8 (by decide) (by decide)

theorem foldl_ge (k : Nat) (hk : 1 ≤ k) (l : List Nat) (v : Nat) :
    v ≤ l.foldl (fun v d => v * k + d) v := by
  induction l generalizing v with
  | nil => simp
  | cons d l ih =>
    refine Nat.le_trans ?_ (ih (v * k + d))
    have := Nat.mul_le_mul_left v hk
    omega

theorem encLoopStrict_ok (c : Byte) (cs : List Byte) (v : I32) (b : Int) (o : List Byte)
    (hv : v.toNat < 16777216) : encLoopStrict (c :: cs) v b o =
      encLoopStrict cs (push v c) (emit (push v c) (b + 8) o).1 (emit (push v c) (b + 8) o).2 := by
  have h := shlStrict8 v
  rw [if_pos hv] at h
  simp only [encLoopStrict, h]
  rfl

theorem encLoopStrict_ub (c : Byte) (cs : List Byte) (v : I32) (b : Int) (o : List Byte)
    (hv : ¬ v.toNat < 16777216) : encLoopStrict (c :: cs) v b o = none := by
  have h := shlStrict8 v
  rw [if_neg hv] at h
  simp only [encLoopStrict, h]

theorem push_small (v : I32) (c : Byte) (hv : v.toNat < 16777216) :
    (push v c).toNat = v.toNat * 256 + c.toNat := by
  have hc := c.isLt
  rw [push_toNat']
  generalize v.toNat = x at *
  generalize c.toNat = y at *
  omega

theorem encLoopStrict_eq (s : List Byte) : ∀ (v : I32) (b : Int) (o : List Byte),
    encLoopStrict s v b o =
      if s = [] ∨ (nats s.dropLast).foldl (fun v d => v * 256 + d) v.toNat < 16777216
      then some (encLoop s v b o) else none := by
  induction s with
  | nil => intro v b o; simp [encLoopStrict, encLoop]
  | cons c cs ih =>
    intro v b o
    by_cases hv : v.toNat < 16777216
    · rw [encLoopStrict_ok _ _ _ _ _ hv, ih, push_small _ _ hv, ← encLoop_cons]
      cases cs with
      | nil => simp [hv]
      | cons c' cs => simp [List.dropLast]
    · rw [encLoopStrict_ub _ _ _ _ _ hv]
      have h1 := foldl_ge 256 (by decide) (nats (c :: cs).dropLast) v.toNat
      rw [if_neg]
      rintro (h | h)
      · cases h
      · exact hv (Nat.lt_of_le_of_lt h1 h)

theorem encLoop_valb (n : Nat) : ∀ (s : List Byte), s.length = n → ∀ v o,
    (encLoop s v (-6) o).2.1 > -6 ↔ s.length % 3 ≠ 0 := by
  induction n using Nat.strongRecOn with
  | _ n ih =>
    intro s hs v o
    match s, hs with
    | [], _ => simp [encLoop]
    | [a], _ => simp [encLoop_one]
    | [a, b], _ => simp [encLoop_two]
    | a :: b :: c :: r, hs =>
      rw [encLoop_group, ih r.length (by simp at hs; omega) r rfl]
      simp only [List.length_cons]; omega

theorem encLoop_val (s : List Byte) : ∀ (v : I32) b o,
    (encLoop s v b o).1.toNat = (nats s).foldl (fun v d => v * 256 + d) v.toNat % 2 ^ 32 := by
  induction s with
  | nil => intro v b o; exact (Nat.mod_eq_of_lt v.isLt).symm
  | cons c cs ih =>
    intro v b o
    rw [encLoop_cons, ih, push_toNat']
    simp only [nats, List.map_cons, List.foldl_cons]
    generalize v.toNat * 256 + c.toNat = w
    generalize List.map BitVec.toNat cs = l
    have H : ∀ (l : List Nat) (w w' : Nat), w % 2 ^ 32 = w' % 2 ^ 32 →
        l.foldl (fun v d => v * 256 + d) w % 2 ^ 32 = l.foldl (fun v d => v * 256 + d) w' % 2 ^ 32 := by
      intro l
      induction l with
      | nil => intro w w' h; exact h
      | cons d l ih => intro w w' h; exact ih _ _ (by show (w * 256 + d) % _ = (w' * 256 + d) % _; omega)
    exact H l _ _ (by simp)

/-- The part of the input whose value is shifted left by `base64_encode`: everything
but the last byte, or everything when the length is not a multiple of 3. -/
def shifted (s : List Byte) : List Byte := if s.length % 3 = 0 then s.dropLast else s

/-- C15 (exact condition): under the C++14/17 rules `base64_encode` has undefined
behaviour exactly when the big-endian number formed by the shifted part of the input
reaches 2^24; otherwise it returns the same text as the wrap-around semantics. -/
theorem C15_encode_exact (s : List Byte) :
    encodeStrict s =
      if Spec.Base64.value 256 ((shifted s).map BitVec.toNat) < 2 ^ 24 then .ok (encode s) else .ub := by
  unfold encodeStrict
  rw [encLoopStrict_eq]
  have hv := encLoop_valb _ s rfl 0#32 []
  have hval := encLoop_val s 0#32 (-6) []
  rw [encode_eq_fin]
  by_cases hs : s = []
  · subst hs; simp [encLoop, shifted, Spec.Base64.value, fin]
  simp only [hs, false_or]
  have hle : Spec.Base64.value 256 (nats s.dropLast) ≤ Spec.Base64.value 256 (nats s) := by
    have e : nats s = nats s.dropLast ++ [(s.getLast hs).toNat] := by
      conv => lhs; rw [← List.dropLast_concat_getLast hs]
      simp [nats]
    rw [e]
    simp only [Spec.Base64.value, List.foldl_append, List.foldl_cons, List.foldl_nil]
    omega
  have h0 : (0#32 : I32).toNat = 0 := rfl
  rw [h0] at hval ⊢
  change _ = (Spec.Base64.value 256 (nats s)) % 2 ^ 32 at hval
  have e0 : ∀ l : List Nat, l.foldl (fun v d => v * 256 + d) 0 = Spec.Base64.value 256 l := fun _ => rfl
  rw [e0]
  generalize hr : encLoop s 0#32 (-6) [] = r at *
  obtain ⟨val, valb, out⟩ := r
  by_cases h3 : s.length % 3 = 0
  · have hnb : ¬ valb > -6 := fun h => (hv.1 h) h3
    simp only [shifted, h3, if_true]
    by_cases h : Spec.Base64.value 256 (nats s.dropLast) < 2 ^ 24
    · simp only [h, if_true, hnb, if_false, fin]
    · simp only [h, if_false]
  · have hb : valb > -6 := hv.2 h3
    simp only [shifted, h3, if_false]
    by_cases h : Spec.Base64.value 256 (nats s) < 2 ^ 24
    · have h1 : Spec.Base64.value 256 (nats s.dropLast) < 2 ^ 24 := by omega
      have h' : Spec.Base64.value 256 (s.map BitVec.toNat) < 2 ^ 24 := h
      simp only [h1, h', if_true, hb, fin]
      rw [shlStrict8, if_pos (by simp only [] at hval; omega)]
    · have h' : ¬ Spec.Base64.value 256 (s.map BitVec.toNat) < 2 ^ 24 := h
      simp only [h', if_false]
      by_cases h1 : Spec.Base64.value 256 (nats s.dropLast) < 2 ^ 24
      · simp only [h1, if_true, hb]
        have hlt : Spec.Base64.value 256 (nats s) < 2 ^ 32 := by
          have e : nats s = nats s.dropLast ++ [(s.getLast hs).toNat] := by
            conv => lhs; rw [← List.dropLast_concat_getLast hs]
            simp [nats]
          have := (s.getLast hs).isLt
          rw [e]
          simp only [Spec.Base64.value, List.foldl_append, List.foldl_cons, List.foldl_nil] at h1 ⊢
          omega
        rw [shlStrict8, if_neg (by simp only [] at hval; omega)]
      · simp only [h1, if_false]

/-- C15 is false under C++14/17: encoding the four bytes 1,0,0,0 shifts 2^24 left by 8. -/
theorem C15_negation : ∃ s : List Byte, encodeStrict s = .ub :=
  ⟨[1#8, 0#8, 0#8, 0#8], by rw [C15_encode_exact, if_neg (by decide)]⟩

/-- C15, what holds: inputs of at most 3 bytes are free of undefined behaviour
(missing: longer inputs, see `C15_encode_exact`). -/
theorem C15_encode_partial (s : List Byte) (h : s.length ≤ 3) : encodeStrict s = .ok (encode s) := by
  rw [C15_encode_exact, if_pos]
  match s, h with
  | [], _ => decide
  | [a], _ =>
    have := a.isLt
    simp [shifted, Spec.Base64.value]; omega
  | [a, b], _ =>
    have := a.isLt
    have := b.isLt
    simp [shifted, Spec.Base64.value]; omega
  | [a, b, c], _ =>
    have := a.isLt
    have := b.isLt
    simp [shifted, Spec.Base64.value]; omega

example : encodeStrict [77#8, 97#8, 110#8] = .ok [84#8, 87#8, 70#8, 117#8] := by decide +kernel

/-! ### decoding -/

theorem table_spec (c : Byte) : table.getD c.toNat none = Spec.Base64.digitOf c.toNat := by
  have H : ∀ k : Fin 256, table.getD k.val none = Spec.Base64.digitOf k.val := by decide +kernel
  exact H ⟨c.toNat, c.isLt⟩

theorem shlStrict6 (v : I32) :
    shlStrict v 6 = if v.toNat < 67108864 then some (v <<< 6) else none :=
  shlStrict_eq v 6 (by decide) (by decide)

theorem digitOf_lt {c d : Nat} (h : Spec.Base64.digitOf c = some d) : d < 64 :=
  List.mem_range.1 (List.mem_of_find?_eq_some h)

theorem pushD_small (v : I32) (d : Nat) (hd : d < 64) (hv : v.toNat < 67108864) :
    (pushD v d).toNat = v.toNat * 64 + d := by
  rw [pushD_toNat _ _ hd]
  generalize v.toNat = x at *
  omega

theorem decLoopStrict_eq (s : List Byte) : ∀ (v : I32) (b : Int) (o : List Byte),
    decLoopStrict s v b o =
      if Spec.Base64.digits (nats s) = [] ∨
        (Spec.Base64.digits (nats s)).dropLast.foldl (fun v d => v * 64 + d) v.toNat < 67108864
      then some (decLoop s v b o) else none := by
  induction s with
  | nil => intro v b o; simp [decLoopStrict, decLoop, Spec.Base64.digits]
  | cons c cs ih =>
    intro v b o
    simp only [decLoopStrict, decLoop, table_spec, nats, List.map_cons, Spec.Base64.digits]
    cases hd : Spec.Base64.digitOf c.toNat with
    | none => simp
    | some d =>
      have hlt := digitOf_lt hd
      by_cases hv : v.toNat < 67108864
      · simp only [shlStrict6, if_pos hv]
        have key : ∀ b' o', decLoopStrict cs (pushD v d) b' o' =
            if (d :: Spec.Base64.digits (nats cs)).dropLast.foldl (fun v d => v * 64 + d) v.toNat < 67108864
            then some (decLoop cs (pushD v d) b' o') else none := by
          intro b' o'
          rw [ih, pushD_small _ _ hlt hv]
          generalize Spec.Base64.digits (nats cs) = l
          cases l with
          | nil => simp [hv]
          | cons e l => simp
        change (if 0 ≤ b + 6 then decLoopStrict cs (pushD v d) _ _ else decLoopStrict cs (pushD v d) _ _)
          = if _ then some (if 0 ≤ b + 6 then decLoop cs (pushD v d) _ _ else decLoop cs (pushD v d) _ _) else none
        rw [key, key]
        by_cases hb : 0 ≤ b + 6 <;> simp [hb]
      · simp only [shlStrict6, if_neg hv]
        have h1 := foldl_ge 64 (by decide) (d :: Spec.Base64.digits (nats cs)).dropLast v.toNat
        rw [if_neg]
        rintro (h | h)
        · cases h
        · exact hv (Nat.lt_of_le_of_lt h1 h)

/-- C15 (exact condition for decoding): undefined behaviour under C++14/17 exactly when
the base-64 number formed by all digits but the last reaches 2^26. -/
theorem C15_decode_exact (s : List Byte) :
    decodeStrict s =
      if Spec.Base64.value 64 (Spec.Base64.digits (s.map BitVec.toNat)).dropLast < 2 ^ 26
      then .ok (decode s) else .ub := by
  unfold decodeStrict
  rw [decLoopStrict_eq]
  by_cases h0 : Spec.Base64.digits (nats s) = []
  · simp [h0, Spec.Base64.value, decode]
  · simp only [h0, false_or]
    change (match (if Spec.Base64.value 64 (Spec.Base64.digits (s.map BitVec.toNat)).dropLast < 2 ^ 26
      then some (decode s) else none) with | none => Res.ub | some out => Res.ok out) = _
    split <;> rename_i h <;> split at h <;> simp_all

/-- C15 is false for decoding too: "BAAAAAA" has more than 26 significant bits before its
last digit. -/
theorem C15_negation_decode : ∃ s : List Byte, decodeStrict s = .ub :=
  ⟨[66#8, 65#8, 65#8, 65#8, 65#8, 65#8, 65#8], by rw [C15_decode_exact, if_neg (by decide +kernel)]⟩

/-- C14: decoding stops at the first character outside the alphabet (padding included). -/
theorem C14_decode_stops (a b : List Byte) (c : Byte)
    (hc : Spec.Base64.digitOf c.toNat = none) : decode (a ++ c :: b) = decode a := by
  have H : ∀ (a : List Byte) v vb o, decLoop (a ++ c :: b) v vb o = decLoop a v vb o := by
    intro a
    induction a with
    | nil => intro v vb o; simp only [List.nil_append, decLoop, table_spec, hc]
    | cons x a ih =>
      intro v vb o
      simp only [List.cons_append, decLoop, ih]
  exact H a _ _ _

example : Spec.Base64.digitOf (61#8 : Byte).toNat = none := by decide +kernel

end Verif.Base64
