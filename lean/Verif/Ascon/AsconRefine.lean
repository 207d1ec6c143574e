import Verif.Ascon.AsconDuplex
/-! The functions of the model on words are the duplex on bytes. -/
namespace Verif.Ascon
open Verif

theorem xorb_short (A R B : Bytes) (h : A.length = B.length) : xorb (A ++ R) B = xorb A B := by
  have := xorb_append A R B [] h
  rwa [List.append_nil, xorb_nil, List.append_nil] at this

theorem xorS_app (A R B : Bytes) (h : A.length = B.length) : Spec.xorS (A ++ R) B = xorb A B ++ R := by
  unfold Spec.xorS
  rw [xorb_short A R B h, List.drop_left' h]

theorem be64_xor_n (x : W) (b : Bytes) (h : b.length = 8) : be64 (x ^^^ be64n b) = xorb (be64 x) b := by
  rw [put_xor, be64_be64n b (by omega), h]; simp

theorem be64_n (b : Bytes) (h : b.length = 8) : be64 (be64n b) = b := by
  rw [be64_be64n b (by omega), h]; simp

theorem be64_tail (x : Bytes) (h : x.length < 8) : be64 (be64n x ^^^ pad x.length) = padr 8 x := by
  rw [put_xor, be64_be64n x (by omega), be64_pad _ h]
  have e1 : xorb (x ++ zs (8 - x.length)) (zs x.length ++ 0x80 :: zs (7 - x.length)) =
      xorb x (zs x.length) ++ xorb (zs (8 - x.length)) (0x80 :: zs (7 - x.length)) := xorb_append _ _ _ _ (by simp)
  rw [e1, xorb_zeros_right _ _ (Nat.le_refl _), xorb_zeros_left _ _ (by simp; omega)]
  unfold padr
  rfl

theorem be64_zero : be64 0 = zs 8 := by decide

theorem pad_zeros (n : Nat) (h : n < 8) : padr 8 (zs n) = be64 (pad n) := by
  rw [be64_pad n h]; unfold padr; simp

/-- The words behind the first. -/
def rest1 (s : St) : Bytes := be64 s.x1 ++ (be64 s.x2 ++ (be64 s.x3 ++ be64 s.x4))
/-- The words behind the first two. -/
def rest2 (s : St) : Bytes := be64 s.x2 ++ (be64 s.x3 ++ be64 s.x4)

theorem ser1 (s : St) : ser s = be64 s.x0 ++ rest1 s := rfl
theorem ser2 (s : St) : ser s = (be64 s.x0 ++ be64 s.x1) ++ rest2 s := by
  unfold ser rest2; rw [List.append_assoc]

theorem xor8 (s : St) (b : Bytes) (h : b.length = 8) : Spec.xorS (ser s) b = ser { s with x0 := s.x0 ^^^ be64n b } := by
  rw [ser1, xorS_app _ _ _ (by rw [put_len, h]), ← be64_xor_n _ _ h]; rfl

theorem xor8t (s : St) (x : Bytes) (h : x.length < 8) :
    Spec.xorS (ser s) (padr 8 x) = ser { s with x0 := s.x0 ^^^ be64n x ^^^ pad x.length } := by
  rw [ser1, xorS_app _ _ _ (by rw [put_len, padr_len 8 x h]), ← be64_tail x h, ← put_xor, ← BitVec.xor_assoc]; rfl

theorem split16 (b : Bytes) (h : 16 ≤ b.length) : b.take 16 = b.take 8 ++ (b.drop 8).take 8 := by
  rw [← List.take_append_drop 8 (b.take 16), List.take_take, List.drop_take]
  rfl

theorem xor16 (s : St) (b : Bytes) (h : 16 ≤ b.length) : Spec.xorS (ser s) (b.take 16) =
    ser { s with x0 := s.x0 ^^^ be64n (b.take 8), x1 := s.x1 ^^^ be64n ((b.drop 8).take 8) } := by
  have l1 : (b.take 8).length = 8 := by rw [List.length_take]; omega
  have l2 : ((b.drop 8).take 8).length = 8 := by rw [List.length_take, List.length_drop]; omega
  rw [ser2, split16 b h, xorS_app _ _ _ (by simp only [List.length_append, put_len, l1, l2]),
    xorb_append _ _ _ _ (by rw [put_len, l1]), ← be64_xor_n _ _ l1, ← be64_xor_n _ _ l2, ser2]; rfl

theorem padr16_hi (x : Bytes) (h : 8 ≤ x.length) : padr 16 x = x.take 8 ++ padr 8 (x.drop 8) := by
  unfold padr
  rw [← List.append_assoc, List.take_append_drop, List.length_drop, show 16 - 1 - x.length = 8 - 1 - (x.length - 8) by omega]

theorem padr16_lo (x : Bytes) (h : x.length < 8) : padr 16 x = padr 8 x ++ zs 8 := by
  unfold padr
  rw [List.append_assoc, List.cons_append, List.replicate_append_replicate, show 8 - 1 - x.length + 8 = 16 - 1 - x.length by omega]

theorem xor16t_hi (s : St) (x : Bytes) (h1 : 8 ≤ x.length) (h2 : x.length < 16) : Spec.xorS (ser s) (padr 16 x) =
    ser { s with x0 := s.x0 ^^^ be64n (x.take 8), x1 := s.x1 ^^^ be64n (x.drop 8) ^^^ pad (x.length - 8) } := by
  have l1 : (x.take 8).length = 8 := by rw [List.length_take]; omega
  have l2 : (x.drop 8).length = x.length - 8 := List.length_drop ..
  have l3 : (padr 8 (x.drop 8)).length = 8 := padr_len _ _ (by omega)
  rw [ser2, padr16_hi x h1, xorS_app _ _ _ (by simp only [List.length_append, put_len, l1, l3]),
    xorb_append _ _ _ _ (by rw [put_len, l1]), ← be64_xor_n _ _ l1, ← be64_tail _ (by omega), ← put_xor, ← BitVec.xor_assoc, l2, ser2]; rfl

theorem xor16t_lo (s : St) (x : Bytes) (h2 : x.length < 8) : Spec.xorS (ser s) (padr 16 x) =
    ser { s with x0 := s.x0 ^^^ be64n x ^^^ pad x.length } := by
  have l3 : (padr 8 x).length = 8 := padr_len _ _ (by omega)
  rw [ser2, padr16_lo x h2, xorS_app _ _ _ (by simp only [List.length_append, put_len, l3, List.length_replicate]),
    xorb_append _ _ _ _ (by rw [put_len, l3]), ← be64_tail _ h2, ← put_xor, ← BitVec.xor_assoc,
    xorb_zeros_right _ _ (by rw [put_len]; exact Nat.le_refl _), ser2]; rfl

theorem ser_take8 (s : St) (n : Nat) (h : n ≤ 8) : (ser s).take n = put64n n s.x0 := by
  rw [ser1, List.take_append_of_le_length (by rw [put_len]; exact h), put_take, Nat.min_eq_left h]

theorem ser_take16 (s : St) (n : Nat) (h1 : 8 ≤ n) (h2 : n ≤ 16) : (ser s).take n = be64 s.x0 ++ put64n (n - 8) s.x1 := by
  rw [ser1, List.take_append, List.take_of_length_le (by rw [put_len]; exact h1), put_len]
  unfold rest1
  rw [List.take_append_of_le_length (by rw [put_len]; omega), put_take, Nat.min_eq_left (by omega)]

/-! ### Ascon-128 -/

theorem ad128_blocks (n : Nat) : ∀ (s : St) (x : Bytes), x.length ≤ n →
    (adBlocks128 s x).2.length < 8 ∧ bAd (Spec.P 6) 8 (ser s) x = Spec.xorS (ser (adBlocks128 s x).1) (padr 8 (adBlocks128 s x).2) := by
  induction n using Nat.strongRecOn with
  | ind n ih =>
    intro s x hx
    rw [adBlocks128, bAd]
    by_cases h : 8 ≤ x.length
    · rw [if_pos h, if_pos ⟨by omega, h⟩, xor8 _ _ (by rw [List.length_take]; omega), P6_ser]
      exact ih (x.drop 8).length (by rw [List.length_drop]; omega) _ _ (Nat.le_refl _)
    · rw [if_neg h, if_neg (fun hh => h hh.2)]
      exact ⟨by simp only; omega, rfl⟩

theorem enc128 (n : Nat) : ∀ (s : St) (x : Bytes), x.length ≤ n →
    bEnc (Spec.P 6) 8 (ser s) x = ((encrypt128 s x).1, ser (encrypt128 s x).2) := by
  induction n using Nat.strongRecOn with
  | ind n ih =>
    intro s x hx
    rw [encrypt128, bEnc]
    by_cases h : 8 ≤ x.length
    · rw [if_pos h, if_pos ⟨by omega, h⟩]
      simp only []
      rw [xor8 _ _ (by rw [List.length_take]; omega), P6_ser,
        ih (x.drop 8).length (by rw [List.length_drop]; omega) _ _ (Nat.le_refl _), ser_take8 _ 8 (Nat.le_refl _)]
    · rw [if_neg h, if_neg (fun hh => h hh.2)]
      have hx8 : x.length < 8 := by omega
      have e : (Spec.xorS (ser s) (padr 8 x)).take x.length = put64n x.length (s.x0 ^^^ be64n x) := by
        rw [xorS_take _ _ _ (by rw [padr_len 8 x hx8]; omega) (by rw [padr_len 8 x hx8, ser_len]; omega), take_padr, ser_take8 _ _ (by omega), put_xor]
        have : put64n x.length (be64n x) = x := by
          have := congrArg (List.take x.length) (be64_be64n x (by omega))
          rwa [put_take, Nat.min_eq_left (by omega), List.take_left' rfl] at this
        rw [this]
      rw [e, xor8t s x hx8]

theorem drop_ser (s : St) (c : Bytes) (h : c.length ≤ 8) :
    c ++ (ser s).drop c.length = (c ++ (be64 s.x0).drop c.length) ++ rest1 s := by
  rw [ser1, List.drop_append_of_le_length (by rw [put_len]; exact h), List.append_assoc]

theorem put_n (x : Bytes) (h : x.length ≤ 8) : put64n x.length (be64n x) = x := by
  have := congrArg (List.take x.length) (be64_be64n x h)
  rwa [put_take, Nat.min_eq_left h, List.take_left' rfl] at this

theorem dec128 (n : Nat) : ∀ (s : St) (x : Bytes), x.length ≤ n →
    bDec (Spec.P 6) 8 (ser s) x = ((decrypt128 s x).1, ser (decrypt128 s x).2) := by
  induction n using Nat.strongRecOn with
  | ind n ih =>
    intro s x hx
    rw [decrypt128, bDec]
    by_cases h : 8 ≤ x.length
    · rw [if_pos h, if_pos ⟨by omega, h⟩]
      simp only []
      have l1 : (x.take 8).length = 8 := by rw [List.length_take]; omega
      have e : x.take 8 ++ (ser s).drop 8 = ser { s with x0 := be64n (x.take 8) } := by
        rw [ser1, ser1, List.drop_left' (put_len 8 _), be64_n _ l1]; rfl
      rw [e, P6_ser, ih (x.drop 8).length (by rw [List.length_drop]; omega) _ _ (Nat.le_refl _), ser_take8 _ 8 (Nat.le_refl _), be64_xor_n _ _ l1]
    · rw [if_neg h, if_neg (fun hh => h hh.2)]
      have hx8 : x.length < 8 := by omega
      simp only []
      rw [ser_take8 _ _ (by omega), put_xor, put_n x (by omega), pad_zeros _ hx8, drop_ser s x (by omega), ← be64_mask_or _ _ (by omega),
        xorS_app _ _ _ (by rw [put_len, put_len]), ← put_xor]
      rfl

/-! ### Ascon-128a -/

theorem ad128a_blocks (n : Nat) : ∀ (s : St) (x : Bytes), x.length ≤ n →
    (adBlocks128a s x).2.length < 16 ∧ bAd (Spec.P 8) 16 (ser s) x = Spec.xorS (ser (adBlocks128a s x).1) (padr 16 (adBlocks128a s x).2) := by
  induction n using Nat.strongRecOn with
  | ind n ih =>
    intro s x hx
    rw [adBlocks128a, bAd]
    by_cases h : 16 ≤ x.length
    · rw [if_pos h, if_pos ⟨by omega, h⟩, xor16 _ _ h, P8_ser]
      exact ih (x.drop 16).length (by rw [List.length_drop]; omega) _ _ (Nat.le_refl _)
    · rw [if_neg h, if_neg (fun hh => h hh.2)]
      exact ⟨by simp only; omega, rfl⟩

theorem put_pad (x : W) (n : Nat) (h : n < 8) : put64n n (x ^^^ pad n) = put64n n x := by
  have e : put64n n (pad n) = zs n := by
    have := congrArg (List.take n) (be64_pad n h)
    rwa [put_take, Nat.min_eq_left (by omega), List.take_left' (by simp)] at this
  rw [put_xor, e, xorb_zeros_right _ _ (by rw [put_len]; exact Nat.le_refl _)]

theorem enc128a (n : Nat) : ∀ (s : St) (x : Bytes), x.length ≤ n →
    bEnc (Spec.P 8) 16 (ser s) x = ((encrypt128a s x).1, ser (encrypt128a s x).2) := by
  induction n using Nat.strongRecOn with
  | ind n ih =>
    intro s x hx
    rw [encrypt128a, bEnc]
    by_cases h : 16 ≤ x.length
    · rw [if_pos h, if_pos ⟨by omega, h⟩]
      simp only []
      rw [xor16 _ _ h, P8_ser, ih (x.drop 16).length (by rw [List.length_drop]; omega) _ _ (Nat.le_refl _), ser_take16 _ 16 (by omega) (Nat.le_refl _)]
    · rw [if_neg h, if_neg (fun hh => h hh.2)]
      by_cases h8 : 8 ≤ x.length
      · rw [if_pos h8]
        simp only []
        rw [xor16t_hi s x h8 (by omega), ser_take16 _ _ h8 (by omega)]
      · rw [if_neg h8]
        simp only []
        rw [xor16t_lo s x (by omega), ser_take8 _ _ (by omega), put_pad _ _ (by omega)]

theorem dec128a (n : Nat) : ∀ (s : St) (x : Bytes), x.length ≤ n →
    bDec (Spec.P 8) 16 (ser s) x = ((decrypt128a s x).1, ser (decrypt128a s x).2) := by
  induction n using Nat.strongRecOn with
  | ind n ih =>
    intro s x hx
    rw [decrypt128a, bDec]
    by_cases h : 16 ≤ x.length
    · have l1 : (x.take 8).length = 8 := by rw [List.length_take]; omega
      have l2 : ((x.drop 8).take 8).length = 8 := by rw [List.length_take, List.length_drop]; omega
      rw [if_pos h, if_pos ⟨by omega, h⟩]
      simp only []
      have e : x.take 16 ++ (ser s).drop 16 = ser { s with x0 := be64n (x.take 8), x1 := be64n ((x.drop 8).take 8) } := by
        rw [ser2, ser2, List.drop_left' (by simp only [List.length_append, put_len]), be64_n _ l1, be64_n _ l2, split16 x h]; rfl
      rw [e, P8_ser, ih (x.drop 16).length (by rw [List.length_drop]; omega) _ _ (Nat.le_refl _), ser_take16 _ 16 (by omega) (Nat.le_refl _), split16 x h,
        xorb_append _ _ _ _ (by rw [put_len, l1]), be64_xor_n _ _ l1, be64_xor_n _ _ l2]
    · rw [if_neg h, if_neg (fun hh => h hh.2)]
      by_cases h8 : 8 ≤ x.length
      · have l1 : (x.take 8).length = 8 := by rw [List.length_take]; omega
        have l2 : (x.drop 8).length = x.length - 8 := List.length_drop ..
        have px : put64n (x.length - 8) (be64n (x.drop 8)) = x.drop 8 := by
          have := put_n (x.drop 8) (by omega); rwa [l2] at this
        rw [if_pos h8]
        simp only []
        have e1 : xorb ((ser s).take x.length) x = be64 (s.x0 ^^^ be64n (x.take 8)) ++ put64n (x.length - 8) (s.x1 ^^^ be64n (x.drop 8)) := by
          rw [ser_take16 _ _ h8 (by omega), be64_xor_n _ _ l1, put_xor, px]
          conv => lhs; rw [← List.take_append_drop 8 x]
          rw [xorb_append _ _ _ _ (by rw [put_len, l1]), List.take_append_drop]
        have e2 : x ++ (ser s).drop x.length =
            (x.take 8 ++ (x.drop 8 ++ (be64 s.x1).drop (x.drop 8).length)) ++ rest2 s := by
          have d : (ser s).drop x.length = (be64 s.x1).drop (x.drop 8).length ++ rest2 s := by
            rw [ser2, List.append_assoc, List.drop_append, List.drop_of_length_le (by rw [put_len]; exact h8), put_len, List.nil_append,
              List.drop_append_of_le_length (by rw [put_len]; omega), l2]
          rw [d, ← List.append_assoc, ← List.append_assoc, List.take_append_drop]
        have e3 : padr 16 (zs x.length) = zs 8 ++ be64 (pad (x.length - 8)) := by
          rw [padr16_hi _ (by simpa using h8), ← pad_zeros _ (by omega)]
          simp only [List.take_replicate, List.drop_replicate]
          rw [Nat.min_eq_left h8]
        rw [e1, e2, e3, ← be64_mask_or _ _ (by omega),
          xorS_app _ _ _ (by simp only [List.length_append, put_len, l1, List.length_replicate]),
          xorb_append _ _ _ _ (by rw [l1]; simp), xorb_zeros_right _ _ (by omega), ← put_xor, l2]
        rw [ser2]
        simp only []
        rw [be64_n (x.take 8) l1]
        rfl
      · rw [if_neg h8]
        have hx8 : x.length < 8 := by omega
        simp only []
        have e3 : padr 16 (zs x.length) = be64 (pad x.length) ++ be64 0 := by
          rw [padr16_lo _ (by simpa using hx8), pad_zeros _ hx8, be64_zero]
        have e4 : x ++ (ser s).drop x.length = (be64 (mask s.x0 x.length ||| be64n x) ++ be64 s.x1) ++ rest2 s := by
          rw [drop_ser s x (by omega), ← be64_mask_or _ _ (by omega), List.append_assoc]; rfl
        rw [ser_take8 _ _ (by omega), put_xor, put_n x (by omega), e3, e4,
          xorS_app _ _ _ (by simp only [List.length_append, put_len]), xorb_append _ _ _ _ (by rw [put_len, put_len]), ← put_xor, ← put_xor,
          show s.x1 ^^^ 0 = s.x1 from BitVec.xor_zero, ser2]
        rfl

/-! ### Start and end -/

theorem xz (x : W) : x ^^^ (0 : W) = x := BitVec.xor_zero

theorem xorb_ser (s t : St) : xorb (ser s) (ser t) =
    ser ⟨s.x0 ^^^ t.x0, s.x1 ^^^ t.x1, s.x2 ^^^ t.x2, s.x3 ^^^ t.x3, s.x4 ^^^ t.x4⟩ := by
  unfold ser
  simp only []
  rw [xorb_append _ _ _ _ (by rw [put_len, put_len]), xorb_append _ _ _ _ (by rw [put_len, put_len]), xorb_append _ _ _ _ (by rw [put_len, put_len]),
    xorb_append _ _ _ _ (by rw [put_len, put_len]), ← put_xor, ← put_xor, ← put_xor, ← put_xor, ← put_xor]

theorem halves (K : Bytes) (h : K.length = 16) : K = be64 (be64n (K.take 8)) ++ be64 (be64n ((K.drop 8).take 8)) := by
  have l1 : (K.take 8).length = 8 := by rw [List.length_take]; omega
  have l2 : ((K.drop 8).take 8).length = 8 := by rw [List.length_take, List.length_drop]; omega
  rw [be64_n _ l1, be64_n _ l2, ← split16 K (by omega), List.take_of_length_le (by omega)]

/-- The variant of an object. -/
def var (a : Bool) : Spec.Var := if a then Spec.ascon128a else Spec.ascon128

/-- The object of a key. -/
def obj (a : Bool) (K : Bytes) : Obj := ⟨be64n (K.take 8), be64n ((K.drop 8).take 8), a⟩

theorem initial_eq (a : Bool) (K N : Bytes) (hK : K.length = 16) (hN : N.length = 16) :
    Spec.initial (var a) K N = ser (init (obj a K).iv (obj a K).k0 (obj a K).k1 (be64n (N.take 8)) (be64n ((N.drop 8).take 8))) := by
  have e0 : ([128, BitVec.ofNat 8 (8 * (var a).r), 12, BitVec.ofNat 8 (var a).b, 0, 0, 0, 0] : Bytes) = be64 (obj a K).iv := by
    cases a with
    | false => show ([128, 64, 12, 6, 0, 0, 0, 0] : Bytes) = be64 (0x80400c0600000000 : W); decide
    | true => show ([128, 128, 12, 8, 0, 0, 0, 0] : Bytes) = be64 (0x80800c0800000000 : W); decide
  have e1 : ([128, BitVec.ofNat 8 (8 * (var a).r), 12, BitVec.ofNat 8 (var a).b, 0, 0, 0, 0] ++ K ++ N : Bytes) =
      ser ⟨(obj a K).iv, (obj a K).k0, (obj a K).k1, be64n (N.take 8), be64n ((N.drop 8).take 8)⟩ := by
    rw [e0, List.append_assoc]
    have hk := halves K hK
    have hn := halves N hN
    unfold ser
    simp only [obj]
    rw [← List.append_assoc (be64 (be64n (K.take 8))), ← hk, ← hn]
  have e2 : List.replicate 24 (0 : Byte) ++ K = ser ⟨0, 0, 0, (obj a K).k0, (obj a K).k1⟩ := by
    have hk := halves K hK
    have z : List.replicate 24 (0 : Byte) = be64 0 ++ (be64 0 ++ be64 0) := by decide
    unfold ser
    simp only [obj]
    rw [← hk, z, List.append_assoc, List.append_assoc]
  unfold Spec.initial
  simp only []
  rw [e1, P12_ser, e2, xorb_ser]
  simp only [xz, init]

theorem ad_eq (a : Bool) (K : Bytes) (s : St) (A : Bytes) :
    Spec.assoc (var a) (ser s) A = ser (if (obj a K).a then ad128a s A else ad128 s A) := by
  have e1 : (List.replicate 39 0 ++ [1] : Bytes) = ser ⟨0, 0, 0, 0, 1⟩ := by decide
  have fin : ∀ t : St, xorb (ser t) (List.replicate 39 0 ++ [1]) = ser { t with x4 := t.x4 ^^^ 1 } := by
    intro t
    rw [e1, xorb_ser]
    simp only [xz]
  have hA : A = [] ↔ ¬ 0 < A.length := by cases A <;> simp
  unfold Spec.assoc
  simp only []
  cases a with
  | false =>
    show xorb (if A = [] then ser s else (Mode.chunks 8 (Spec.pad 8 A)).foldl (fun S B => Spec.P 6 (Spec.xorS S B)) (ser s)) _ = ser (ad128 s A)
    unfold ad128
    by_cases h : 0 < A.length
    · obtain ⟨b1, b2⟩ := ad128_blocks _ s A (Nat.le_refl _)
      have := assoc_eq Spec.ascon128 (by decide) _ (ser s) A (Nat.le_refl _)
      simp only [Spec.ascon128] at this
      rw [if_neg (fun h0 => hA.mp h0 h), if_pos h, this, b2, xor8t _ _ b1, P6_ser, fin]
    · rw [if_pos (hA.mpr h), if_neg h, fin]
  | true =>
    show xorb (if A = [] then ser s else (Mode.chunks 16 (Spec.pad 16 A)).foldl (fun S B => Spec.P 8 (Spec.xorS S B)) (ser s)) _ = ser (ad128a s A)
    unfold ad128a
    by_cases h : 0 < A.length
    · obtain ⟨b1, b2⟩ := ad128a_blocks _ s A (Nat.le_refl _)
      have := assoc_eq Spec.ascon128a (by decide) _ (ser s) A (Nat.le_refl _)
      simp only [Spec.ascon128a] at this
      rw [if_neg (fun h0 => hA.mp h0 h), if_pos h, this, b2]
      simp only []
      by_cases h8 : 8 ≤ (adBlocks128a s A).2.length
      · rw [if_pos h8, xor16t_hi _ _ h8 b1, P8_ser, fin]
      · rw [if_neg h8, xor16t_lo _ _ (by omega), P8_ser, fin]
    · rw [if_pos (hA.mpr h), if_neg h, fin]

theorem final_eq (a : Bool) (K : Bytes) (hK : K.length = 16) (s : St) :
    Spec.final (var a) (ser s) K = tag (if a then finalize128a s (obj a K).k0 (obj a K).k1 else finalize128 s (obj a K).k0 (obj a K).k1) := by
  have d : ∀ t : St, xorb ((ser t).drop 24) K = put64n 8 (t.x3 ^^^ (obj a K).k0) ++ put64n 8 (t.x4 ^^^ (obj a K).k1) := by
    intro t
    have : (ser t).drop 24 = be64 t.x3 ++ be64 t.x4 := by
      have e : ser t = (be64 t.x0 ++ be64 t.x1 ++ be64 t.x2) ++ (be64 t.x3 ++ be64 t.x4) := by unfold ser; simp only [List.append_assoc]
      rw [e, List.drop_left' (by simp only [List.length_append, put_len])]
    rw [this]
    have hk := halves K hK
    simp only [obj]
    rw [put_xor, put_xor, ← xorb_append _ _ _ _ (by rw [put_len, put_len]), ← hk]
  unfold Spec.final
  simp only []
  cases a with
  | false =>
    have e : (List.replicate (var false).r (0 : Byte) ++ K ++ List.replicate (24 - (var false).r) 0) = ser ⟨0, (obj false K).k0, (obj false K).k1, 0, 0⟩ := by
      show zs 8 ++ K ++ zs 16 = _
      have hk := halves K hK
      unfold ser
      have z : zs 16 = be64 0 ++ be64 0 := by decide
      simp only [obj]
      rw [← List.append_assoc (be64 (be64n (K.take 8))), ← hk, z, be64_zero, List.append_assoc]
    rw [e, xorb_ser, P12_ser, d]
    simp only [xz, Bool.false_eq_true, if_false, finalize128, tag]
  | true =>
    have e : (List.replicate (var true).r (0 : Byte) ++ K ++ List.replicate (24 - (var true).r) 0) = ser ⟨0, 0, (obj true K).k0, (obj true K).k1, 0⟩ := by
      show zs 16 ++ K ++ zs 8 = _
      have hk := halves K hK
      unfold ser
      have z : zs 16 = be64 0 ++ be64 0 := by decide
      simp only [obj]
      rw [← List.append_assoc (be64 (be64n (K.take 8))), ← hk, z, be64_zero, List.append_assoc, List.append_assoc]
    rw [e, xorb_ser, P12_ser, d]
    simp only [xz, if_true, finalize128a, tag]

theorem P_len (k : Nat) (S : Bytes) : (Spec.P k S).length = 40 := by simp [Spec.P, Spec.bytesOf]

/-- Ciphertext and tag are Ascon's. -/
theorem enc_spec (a : Bool) (K N A M : Bytes) (hK : K.length = 16) (hN : N.length = 16) :
    (encB (obj a K) N A M).1 ++ (encB (obj a K) N A M).2 = Spec.aead (var a) K N A M := by
  unfold Spec.aead
  simp only []
  rw [initial_eq a K N hK hN, ad_eq a K]
  have hr : 0 < (var a).r := by cases a <;> decide
  have hr2 : (var a).r ≤ 40 := by cases a <;> decide
  obtain ⟨d1, d2⟩ := duplex_eq (var a) hr hr2 (fun S _ => P_len _ S) _ (ser (if (obj a K).a then ad128a (init (obj a K).iv (obj a K).k0 (obj a K).k1
    (be64n (N.take 8)) (be64n ((N.drop 8).take 8))) A else ad128 (init (obj a K).iv (obj a K).k0 (obj a K).k1 (be64n (N.take 8)) (be64n ((N.drop 8).take 8))) A))
    M (Nat.le_refl _) (ser_len _)
  rw [d1, d2]
  cases a with
  | false =>
    have := enc128 _ (start (obj false K) N A) M (Nat.le_refl _)
    have e : bEnc (Spec.P (var false).b) (var false).r (ser (start (obj false K) N A)) M = _ := this
    unfold start at e
    simp only [] at e
    rw [e]
    simp only []
    rw [final_eq false K hK]
    rfl
  | true =>
    have := enc128a _ (start (obj true K) N A) M (Nat.le_refl _)
    have e : bEnc (Spec.P (var true).b) (var true).r (ser (start (obj true K) N A)) M = _ := this
    unfold start at e
    simp only [] at e
    rw [e]
    simp only []
    rw [final_eq true K hK]
    rfl

theorem core_good (o : Obj) : (core o).Good := by
  have p40 : ∀ k, ∀ S : Bytes, S.length = 40 → (Spec.P k S).length = 40 := fun k S _ => P_len k S
  have tl : ∀ s, (tag s).length = 16 := by intro s; simp [tag, put_len]
  obtain ⟨k0, k1, a⟩ := o
  cases a with
  | false =>
    have E := fun N A P => enc128 _ (start ⟨k0, k1, false⟩ N A) P (Nat.le_refl _)
    have D := fun N A P => dec128 _ (start ⟨k0, k1, false⟩ N A) P (Nat.le_refl _)
    refine ⟨?_, fun N A P _ => tl _, ?_, ?_, ?_⟩
    · intro N A P _
      have := (enc_len (Spec.P 6) 8 (by decide) (p40 6) (by decide) _ (ser (start ⟨k0, k1, false⟩ N A)) P (Nat.le_refl _) (ser_len _)).1
      rw [E] at this
      exact this
    · intro N A C _
      have := dec_len (Spec.P 6) 8 (by decide) (p40 6) (by decide) _ (ser (start ⟨k0, k1, false⟩ N A)) C (Nat.le_refl _) (ser_len _)
      rw [D] at this
      exact this
    · intro N A P _
      have := dec_enc (Spec.P 6) 8 (by decide) (p40 6) (by decide) _ (ser (start ⟨k0, k1, false⟩ N A)) P (Nat.le_refl _) (ser_len _)
      rw [E, D] at this
      obtain ⟨h1, h2⟩ := Prod.mk.inj this
      have h3 := ser_inj _ _ h2
      show ((decrypt128 (start ⟨k0, k1, false⟩ N A) (encrypt128 (start ⟨k0, k1, false⟩ N A) P).1).1,
        tag (finalize128 (decrypt128 (start ⟨k0, k1, false⟩ N A) (encrypt128 (start ⟨k0, k1, false⟩ N A) P).1).2 k0 k1)) = _
      rw [h3]
      simp only [] at h1
      rw [h1]
      rfl
    · intro N A C _
      have := enc_dec (Spec.P 6) 8 (by decide) (p40 6) (by decide) _ (ser (start ⟨k0, k1, false⟩ N A)) C (Nat.le_refl _) (ser_len _)
      rw [D, E] at this
      obtain ⟨h1, h2⟩ := Prod.mk.inj this
      have h3 := ser_inj _ _ h2
      show ((encrypt128 (start ⟨k0, k1, false⟩ N A) (decrypt128 (start ⟨k0, k1, false⟩ N A) C).1).1,
        tag (finalize128 (encrypt128 (start ⟨k0, k1, false⟩ N A) (decrypt128 (start ⟨k0, k1, false⟩ N A) C).1).2 k0 k1)) = _
      rw [h3]
      simp only [] at h1
      rw [h1]
      rfl
  | true =>
    have E := fun N A P => enc128a _ (start ⟨k0, k1, true⟩ N A) P (Nat.le_refl _)
    have D := fun N A P => dec128a _ (start ⟨k0, k1, true⟩ N A) P (Nat.le_refl _)
    refine ⟨?_, fun N A P _ => tl _, ?_, ?_, ?_⟩
    · intro N A P _
      have := (enc_len (Spec.P 8) 16 (by decide) (p40 8) (by decide) _ (ser (start ⟨k0, k1, true⟩ N A)) P (Nat.le_refl _) (ser_len _)).1
      rw [E] at this
      exact this
    · intro N A C _
      have := dec_len (Spec.P 8) 16 (by decide) (p40 8) (by decide) _ (ser (start ⟨k0, k1, true⟩ N A)) C (Nat.le_refl _) (ser_len _)
      rw [D] at this
      exact this
    · intro N A P _
      have := dec_enc (Spec.P 8) 16 (by decide) (p40 8) (by decide) _ (ser (start ⟨k0, k1, true⟩ N A)) P (Nat.le_refl _) (ser_len _)
      rw [E, D] at this
      obtain ⟨h1, h2⟩ := Prod.mk.inj this
      have h3 := ser_inj _ _ h2
      show ((decrypt128a (start ⟨k0, k1, true⟩ N A) (encrypt128a (start ⟨k0, k1, true⟩ N A) P).1).1,
        tag (finalize128a (decrypt128a (start ⟨k0, k1, true⟩ N A) (encrypt128a (start ⟨k0, k1, true⟩ N A) P).1).2 k0 k1)) = _
      rw [h3]
      simp only [] at h1
      rw [h1]
      rfl
    · intro N A C _
      have := enc_dec (Spec.P 8) 16 (by decide) (p40 8) (by decide) _ (ser (start ⟨k0, k1, true⟩ N A)) C (Nat.le_refl _) (ser_len _)
      rw [D, E] at this
      obtain ⟨h1, h2⟩ := Prod.mk.inj this
      have h3 := ser_inj _ _ h2
      show ((encrypt128a (start ⟨k0, k1, true⟩ N A) (decrypt128a (start ⟨k0, k1, true⟩ N A) C).1).1,
        tag (finalize128a (encrypt128a (start ⟨k0, k1, true⟩ N A) (decrypt128a (start ⟨k0, k1, true⟩ N A) C).1).2 k0 k1)) = _
      rw [h3]
      simp only [] at h1
      rw [h1]
      rfl

end Verif.Ascon
