import Verif.Model.Base64
import Verif.Spec.Base64
namespace Verif.Base64
open Verif

theorem digit_code (x : I32) : (digit x).toNat = Spec.Base64.digitCode (x.toNat % 64) := by
  have h : ∀ k : Fin 64, (alphabet.getD k.val 0#8).toNat = Spec.Base64.digitCode k.val := by
    decide +kernel
  have e : (x &&& 0x3F#32).toNat = x.toNat % 64 := by
    rw [BitVec.toNat_and]; exact Nat.and_two_pow_sub_one_eq_mod x.toNat 6
  unfold digit
  rw [e]
  exact h ⟨x.toNat % 64, Nat.mod_lt _ (by decide)⟩

theorem sshift_mod (v : I32) (k m : Nat) (h : k + m ≤ 32) :
    (v.sshiftRight k).toNat % 2 ^ m = v.toNat / 2 ^ k % 2 ^ m := by
  apply Nat.eq_of_testBit_eq
  intro i
  rw [Nat.testBit_mod_two_pow, Nat.testBit_mod_two_pow, Nat.testBit_div_two_pow]
  by_cases hi : i < m
  · simp only [hi, decide_true, Bool.true_and]
    rw [BitVec.testBit_toNat, BitVec.testBit_toNat, BitVec.getLsbD_sshiftRight]
    have h1 : ¬ (32 ≤ i) := by omega
    have h2 : k + i < 32 := by omega
    simp [h1, h2, Nat.add_comm]
  · simp [hi]

theorem digit_shift (v : I32) (k : Nat) (h : k ≤ 26) :
    (digit (v.sshiftRight k)).toNat = Spec.Base64.digitCode (v.toNat / 2 ^ k % 64) := by
  rw [digit_code, show (64:Nat) = 2 ^ 6 from rfl, sshift_mod v k 6 (by omega)]

theorem push_toNat (v : I32) (c : Byte) :
    ((v <<< 8) + c.setWidth 32).toNat = (v.toNat * 256 + c.toNat) % 2 ^ 32 := by
  have := c.isLt
  rw [BitVec.toNat_add, BitVec.toNat_shiftLeft, BitVec.toNat_setWidth, Nat.shiftLeft_eq]
  omega

theorem emit_neg (v : I32) (b : Int) (o) (h : b < 0) : emit v b o = (b, o) := by
  unfold emit; simp [show ¬ (0 ≤ b) by omega]

theorem emit_step (v : I32) (b : Int) (o) (h : 0 ≤ b) :
    emit v b o = emit v (b - 6) (o ++ [digit (v.sshiftRight b.toNat)]) := by
  conv => lhs; unfold emit
  simp [h]

theorem pad_of (n : Nat) (o : List Byte) (h : (o.length + n) % 4 = 0) (hn : n < 4) :
    pad o = o ++ List.replicate n 61#8 := by
  induction n generalizing o with
  | zero => unfold pad; simp at h; simp [h]
  | succ n ih =>
    unfold pad
    rw [if_neg (by omega), ih _ (by simp; omega) (by omega)]
    simp [List.replicate_succ]

abbrev nats (s : List Byte) : List Nat := s.map BitVec.toNat

/-- What `encode` does after the loop. -/
def fin (r : I32 × Int × List Byte) : List Byte :=
  pad (if r.2.1 > -6 then r.2.2 ++ [digit ((r.1 <<< 8).sshiftRight (r.2.1 + 8).toNat)] else r.2.2)

theorem encode_eq_fin (s : List Byte) : encode s = fin (encLoop s 0#32 (-6) []) := rfl

/-- Value after pushing a byte. -/
def push (v : I32) (c : Byte) : I32 := (v <<< 8) + c.setWidth 32

theorem encLoop_cons (c : Byte) (cs : List Byte) (v : I32) (b : Int) (o : List Byte) :
    encLoop (c :: cs) v b o =
      encLoop cs (push v c) (emit (push v c) (b + 8) o).1 (emit (push v c) (b + 8) o).2 := rfl

theorem emit_first (v : I32) (o : List Byte) :
    emit v (-6 + 8) o = (-4, o ++ [digit (v.sshiftRight 2)]) := by
  rw [emit_step _ _ _ (by decide), emit_neg _ _ _ (by decide)]; rfl

theorem emit_second (v : I32) (o : List Byte) :
    emit v (-4 + 8) o = (-2, o ++ [digit (v.sshiftRight 4)]) := by
  rw [emit_step _ _ _ (by decide), emit_neg _ _ _ (by decide)]; rfl

theorem emit_third (v : I32) (o : List Byte) :
    emit v (-2 + 8) o = (-6, o ++ [digit (v.sshiftRight 6), digit (v.sshiftRight 0)]) := by
  rw [emit_step _ _ _ (by decide), emit_step _ _ _ (by decide), emit_neg _ _ _ (by decide),
    List.append_assoc]; rfl

theorem encLoop_group (a b c : Byte) (r : List Byte) (v : I32) (o : List Byte) :
    encLoop (a :: b :: c :: r) v (-6) o =
      encLoop r (push (push (push v a) b) c) (-6)
        (o ++ [digit ((push v a).sshiftRight 2), digit ((push (push v a) b).sshiftRight 4),
          digit ((push (push (push v a) b) c).sshiftRight 6),
          digit ((push (push (push v a) b) c).sshiftRight 0)]) := by
  rw [encLoop_cons, emit_first, encLoop_cons, emit_second, encLoop_cons, emit_third,
    List.append_assoc, List.append_assoc]
  rfl

theorem encLoop_two (a b : Byte) (v : I32) (o : List Byte) :
    encLoop [a, b] v (-6) o = (push (push v a) b, -2,
        o ++ [digit ((push v a).sshiftRight 2), digit ((push (push v a) b).sshiftRight 4)]) := by
  rw [encLoop_cons, emit_first, encLoop_cons, emit_second, List.append_assoc]
  rfl

theorem encLoop_one (a : Byte) (v : I32) (o : List Byte) :
    encLoop [a] v (-6) o = (push v a, -4, o ++ [digit ((push v a).sshiftRight 2)]) := by
  rw [encLoop_cons, emit_first]
  rfl

theorem push_toNat' (v : I32) (c : Byte) :
    (push v c).toNat = (v.toNat * 256 + c.toNat) % 4294967296 := push_toNat v c

theorem shl8_toNat (v : I32) : (v <<< 8).toNat = v.toNat * 256 % 4294967296 := by
  rw [BitVec.toNat_shiftLeft, Nat.shiftLeft_eq]

set_option maxRecDepth 8000 in
theorem fin_encLoop (n : Nat) : ∀ (s : List Byte), s.length = n → ∀ (v : I32) (o : List Byte),
    o.length % 4 = 0 →
    nats (fin (encLoop s v (-6) o)) = nats o ++ Spec.Base64.encode (nats s) := by
  induction n using Nat.strongRecOn with
  | _ n ih =>
    intro s hs v o ho
    match s, hs with
    | [], _ =>
      have hp : pad o = o := by unfold pad; simp [ho]
      simp [encLoop, fin, hp, Spec.Base64.encode]
    | [a], _ =>
      have := a.isLt
      rw [encLoop_one]
      simp only [fin]
      rw [if_pos (by decide), pad_of 2 _ (by simp; omega) (by decide)]
      simp only [nats, List.map_append, List.map_cons, List.map_nil, List.append_assoc,
        List.append_cancel_left_eq, Spec.Base64.encode, List.cons_append, List.nil_append]
      rw [digit_shift _ _ (by decide), digit_shift _ _ (by decide)]
      simp only [List.replicate, List.map_cons, List.map_nil]
      rw [shl8_toNat, push_toNat']
      have e1 : (v.toNat * 256 + a.toNat) % 4294967296 / 2 ^ 2 % 64 = a.toNat * 65536 / 262144 := by omega
      have e2 : (v.toNat * 256 + a.toNat) % 4294967296 * 256 % 4294967296 / 2 ^ ((-4 : Int) + 8).toNat % 64
          = a.toNat * 65536 / 4096 % 64 := by
        show (v.toNat * 256 + a.toNat) % 4294967296 * 256 % 4294967296 / 16 % 64 = _
        omega
      rw [e1, e2]
      rfl
    | [a, b], _ =>
      have := a.isLt
      have := b.isLt
      rw [encLoop_two]
      simp only [fin]
      rw [if_pos (by decide), pad_of 1 _ (by simp; omega) (by decide)]
      simp only [nats, List.map_append, List.map_cons, List.map_nil, List.append_assoc,
        List.append_cancel_left_eq, Spec.Base64.encode, List.cons_append, List.nil_append]
      rw [digit_shift _ _ (by decide), digit_shift _ _ (by decide), digit_shift _ _ (by decide)]
      simp only [List.replicate, List.map_cons, List.map_nil]
      simp only [shl8_toNat, push_toNat']
      have e1 : (v.toNat * 256 + a.toNat) % 4294967296 / 2 ^ 2 % 64
          = (a.toNat * 65536 + b.toNat * 256) / 262144 := by omega
      have e2 : ((v.toNat * 256 + a.toNat) % 4294967296 * 256 + b.toNat) % 4294967296 / 2 ^ 4 % 64
          = (a.toNat * 65536 + b.toNat * 256) / 4096 % 64 := by omega
      have e3 : ((v.toNat * 256 + a.toNat) % 4294967296 * 256 + b.toNat) % 4294967296 * 256 % 4294967296
          / 2 ^ ((-2 : Int) + 8).toNat % 64
          = (a.toNat * 65536 + b.toNat * 256) / 64 % 64 := by
        show ((v.toNat * 256 + a.toNat) % 4294967296 * 256 + b.toNat) % 4294967296 * 256 % 4294967296
          / 64 % 64 = _
        omega
      rw [e1, e2, e3]
      rfl
    | a :: b :: c :: r, hs =>
      have := a.isLt
      have := b.isLt
      have := c.isLt
      rw [encLoop_group, ih r.length (by simp at hs; omega) r rfl _ _ (by simp; omega)]
      simp only [nats, List.map_append, List.map_cons, List.map_nil, List.append_assoc,
        List.append_cancel_left_eq, Spec.Base64.encode, List.cons_append, List.nil_append]
      rw [digit_shift _ _ (by decide), digit_shift _ _ (by decide), digit_shift _ _ (by decide),
        digit_shift _ _ (by decide)]
      simp only [push_toNat']
      have e1 : (v.toNat * 256 + a.toNat) % 4294967296 / 2 ^ 2 % 64
          = (a.toNat * 65536 + b.toNat * 256 + c.toNat) / 262144 := by omega
      have e2 : ((v.toNat * 256 + a.toNat) % 4294967296 * 256 + b.toNat) % 4294967296 / 2 ^ 4 % 64
          = (a.toNat * 65536 + b.toNat * 256 + c.toNat) / 4096 % 64 := by omega
      have e3 : (((v.toNat * 256 + a.toNat) % 4294967296 * 256 + b.toNat) % 4294967296 * 256 + c.toNat)
          % 4294967296 / 2 ^ 6 % 64 = (a.toNat * 65536 + b.toNat * 256 + c.toNat) / 64 % 64 := by omega
      have e4 : (((v.toNat * 256 + a.toNat) % 4294967296 * 256 + b.toNat) % 4294967296 * 256 + c.toNat)
          % 4294967296 / 2 ^ 0 % 64 = (a.toNat * 65536 + b.toNat * 256 + c.toNat) % 64 := by omega
      rw [e1, e2, e3, e4]

/-! ### decoding -/

/-- Code of a digit as a byte. -/
def codeByte (d : Nat) : Byte := BitVec.ofNat 8 (Spec.Base64.digitCode d)

theorem table_code (d : Nat) (h : d < 64) : table.getD (codeByte d).toNat none = some d := by
  have H : ∀ k : Fin 64, table.getD (codeByte k.val).toNat none = some k.val := by decide +kernel
  exact H ⟨d, h⟩

theorem table_pad : table.getD (61#8 : Byte).toNat none = none := by decide +kernel

/-- Value after pushing a digit. -/
def pushD (v : I32) (d : Nat) : I32 := (v <<< 6) + BitVec.ofNat 32 d

theorem pushD_toNat (v : I32) (d : Nat) (_ : d < 64) :
    (pushD v d).toNat = (v.toNat * 64 + d) % 4294967296 := by
  unfold pushD
  rw [BitVec.toNat_add, BitVec.toNat_shiftLeft, BitVec.toNat_ofNat, Nat.shiftLeft_eq]
  omega

def outByte (v : I32) (k : Nat) : Byte := ((v.sshiftRight k) &&& 0xFF#32).setWidth 8

theorem outByte_toNat (v : I32) (k : Nat) (h : k ≤ 24) :
    (outByte v k).toNat = v.toNat / 2 ^ k % 256 := by
  unfold outByte
  rw [BitVec.toNat_setWidth, BitVec.toNat_and]
  have : (v.sshiftRight k).toNat &&& (0xFF#32).toNat = (v.sshiftRight k).toNat % 2 ^ 8 :=
    Nat.and_two_pow_sub_one_eq_mod _ 8
  rw [this, sshift_mod v k 8 (by omega)]
  omega

theorem decLoop_code (d : Nat) (h : d < 64) (cs : List Byte) (v : I32) (b : Int) (o : List Byte) :
    decLoop (codeByte d :: cs) v b o =
      if 0 ≤ b + 6 then decLoop cs (pushD v d) (b + 6 - 8) (o ++ [outByte (pushD v d) (b + 6).toNat])
      else decLoop cs (pushD v d) (b + 6) o := by
  conv => lhs; unfold decLoop
  rw [table_code d h]
  rfl

theorem decLoop_pad (cs : List Byte) (v : I32) (b : Int) (o : List Byte) :
    decLoop (61#8 :: cs) v b o = o := by
  conv => lhs; unfold decLoop
  rw [table_pad]

theorem decLoop_spec (n : Nat) : ∀ (s : List Byte), s.length = n → ∀ (v : I32) (o : List Byte),
    decLoop ((Spec.Base64.encode (nats s)).map (BitVec.ofNat 8)) v (-8) o = o ++ s := by
  induction n using Nat.strongRecOn with
  | _ n ih =>
    intro s hs v o
    match s, hs with
    | [], _ => simp [Spec.Base64.encode, decLoop]
    | [a], _ =>
      have ha := a.isLt
      simp only [nats, List.map_cons, List.map_nil, Spec.Base64.encode]
      have d1 : a.toNat * 65536 / 262144 < 64 := by omega
      have d2 : a.toNat * 65536 / 4096 % 64 < 64 := by omega
      generalize hx1 : a.toNat * 65536 / 262144 = x1 at *
      generalize hx2 : a.toNat * 65536 / 4096 % 64 = x2 at *
      change decLoop (codeByte x1 :: codeByte x2 :: 61#8 :: 61#8 :: []) v (-8) o = _
      rw [decLoop_code _ d1, if_neg (by decide), decLoop_code _ d2, if_pos (by decide), decLoop_pad]
      congr 2
      apply BitVec.eq_of_toNat_eq
      rw [outByte_toNat _ _ (by decide), pushD_toNat _ _ d2, pushD_toNat _ _ d1]
      show ((v.toNat * 64 + x1) % 4294967296 * 64 + x2) % 4294967296 / 2 ^ 4 % 256 = _
      omega
    | [a, b], _ =>
      have ha := a.isLt
      have hb := b.isLt
      simp only [nats, List.map_cons, List.map_nil, Spec.Base64.encode]
      generalize hn : a.toNat * 65536 + b.toNat * 256 = n at *
      have d1 : n / 262144 < 64 := by omega
      have d2 : n / 4096 % 64 < 64 := by omega
      have d3 : n / 64 % 64 < 64 := by omega
      generalize hx1 : n / 262144 = x1 at *
      generalize hx2 : n / 4096 % 64 = x2 at *
      generalize hx3 : n / 64 % 64 = x3 at *
      change decLoop (codeByte x1 :: codeByte x2 :: codeByte x3 :: 61#8 :: []) v (-8) o = _
      rw [decLoop_code _ d1, if_neg (by decide), decLoop_code _ d2, if_pos (by decide),
        decLoop_code _ d3, if_pos (by decide), decLoop_pad, List.append_assoc]
      congr 1
      show [_, _] = _
      congr 1
      · apply BitVec.eq_of_toNat_eq
        rw [outByte_toNat _ _ (by decide), pushD_toNat _ _ d2, pushD_toNat _ _ d1]
        show ((v.toNat * 64 + x1) % 4294967296 * 64 + x2) % 4294967296 / 2 ^ 4 % 256 = _
        omega
      · congr 1
        apply BitVec.eq_of_toNat_eq
        rw [outByte_toNat _ _ (by decide), pushD_toNat _ _ d3, pushD_toNat _ _ d2, pushD_toNat _ _ d1]
        show (((v.toNat * 64 + x1) % 4294967296 * 64 + x2) % 4294967296 * 64 + x3) % 4294967296 / 2 ^ 2 % 256 = _
        omega
    | a :: b :: c :: r, hs =>
      have ha := a.isLt
      have hb := b.isLt
      have hc := c.isLt
      simp only [nats, List.map_cons, Spec.Base64.encode]
      generalize hn : a.toNat * 65536 + b.toNat * 256 + c.toNat = n at *
      have d1 : n / 262144 < 64 := by omega
      have d2 : n / 4096 % 64 < 64 := by omega
      have d3 : n / 64 % 64 < 64 := by omega
      have d4 : n % 64 < 64 := by omega
      generalize hx1 : n / 262144 = x1 at *
      generalize hx2 : n / 4096 % 64 = x2 at *
      generalize hx3 : n / 64 % 64 = x3 at *
      generalize hx4 : n % 64 = x4 at *
      change decLoop (codeByte x1 :: codeByte x2 :: codeByte x3 :: codeByte x4 :: _) v (-8) o = _
      rw [decLoop_code _ d1, if_neg (by decide), decLoop_code _ d2, if_pos (by decide),
        decLoop_code _ d3, if_pos (by decide), decLoop_code _ d4, if_pos (by decide)]
      show decLoop _ _ (-8) _ = _
      rw [ih r.length (by simp at hs; omega) r rfl]
      simp only [List.append_assoc]
      congr 1
      show _ :: _ :: _ :: r = _
      congr 1
      · apply BitVec.eq_of_toNat_eq
        rw [outByte_toNat _ _ (by decide), pushD_toNat _ _ d2, pushD_toNat _ _ d1]
        show ((v.toNat * 64 + x1) % 4294967296 * 64 + x2) % 4294967296 / 2 ^ 4 % 256 = _
        omega
      · congr 1
        · apply BitVec.eq_of_toNat_eq
          rw [outByte_toNat _ _ (by decide), pushD_toNat _ _ d3, pushD_toNat _ _ d2, pushD_toNat _ _ d1]
          show (((v.toNat * 64 + x1) % 4294967296 * 64 + x2) % 4294967296 * 64 + x3) % 4294967296 / 2 ^ 2 % 256 = _
          omega
        · congr 1
          apply BitVec.eq_of_toNat_eq
          rw [outByte_toNat _ _ (by decide), pushD_toNat _ _ d4, pushD_toNat _ _ d3,
            pushD_toNat _ _ d2, pushD_toNat _ _ d1]
          show ((((v.toNat * 64 + x1) % 4294967296 * 64 + x2) % 4294967296 * 64 + x3) % 4294967296 * 64 + x4)
            % 4294967296 / 2 ^ 0 % 256 = _
          omega

end Verif.Base64
