import Verif.Stream.GrainLemmas
/-
`encrypt`, `decrypt` and the stream cipher of /repo/cipher/grain against the specification.
-/
namespace Verif.Strm.Grain
open Verif.Cipher GrainSpec

variable {key nonce : Bytes}

/-- Word `w` of the key stream is next, and the accumulator and the register hold `A`. -/
structure Good (key nonce : Bytes) (s : State) (w : Nat) (A : D × D) : Prop where
  at' : At key nonce s (384 + 32 * w)
  acc : (s.acc, s.reg) = A

variable (hk : key.length = 16) (hn : nonce.length = 12)

section
include hk hn

theorem kb_lo {s : State} {w : Nat} (h : At key nonce s (384 + 32 * w)) : lo8 (getkb (next s).1) = kbyte key nonce (2 * w) := by
  apply BitVec.eq_of_getLsbD_eq
  intro j hj
  rw [lo8_bit _ _ hj, getkb_bit _ _ (by omega), out_bit hk hn h _ (by omega), kbyte, word_bit]
  simp only [hj, decide_true, Bool.true_and]; congr 1; omega

theorem kb_hi {s : State} {w : Nat} (h : At key nonce s (384 + 32 * w)) : hi8 (getkb (next s).1) = kbyte key nonce (2 * w + 1) := by
  apply BitVec.eq_of_getLsbD_eq
  intro j hj
  rw [hi8_bit _ _ hj, getkb_bit _ _ (by omega), out_bit hk hn h _ (by omega), kbyte, word_bit]
  simp only [hj, decide_true, Bool.true_and]; congr 1; omega

theorem mb_lo {s : State} {w : Nat} (h : At key nonce s (384 + 32 * w)) : lo8 (getmb (next s).1) = mbyte key nonce (2 * w) := by
  apply BitVec.eq_of_getLsbD_eq
  intro j hj
  rw [lo8_bit _ _ hj, getmb_bit _ _ (by omega), out_bit hk hn h _ (by omega), mbyte, word_bit]
  simp only [hj, decide_true, Bool.true_and]; congr 1; omega

theorem mb_hi {s : State} {w : Nat} (h : At key nonce s (384 + 32 * w)) : hi8 (getmb (next s).1) = mbyte key nonce (2 * w + 1) := by
  apply BitVec.eq_of_getLsbD_eq
  intro j hj
  rw [hi8_bit _ _ hj, getmb_bit _ _ (by omega), out_bit hk hn h _ (by omega), mbyte, word_bit]
  simp only [hj, decide_true, Bool.true_and]; congr 1; omega
end

theorem lo8_le16 (a b : Byte) : lo8 (le16 a b) = a := by
  apply BitVec.eq_of_getLsbD_eq
  intro j hj
  rw [lo8_bit _ _ hj, le16, BitVec.getLsbD_append]; simp [hj]

theorem hi8_le16 (a b : Byte) : hi8 (le16 a b) = b := by
  apply BitVec.eq_of_getLsbD_eq
  intro j hj
  rw [hi8_bit _ _ hj, le16, BitVec.getLsbD_append]; simp

theorem lo8_xor (a b : BitVec 16) : lo8 (a ^^^ b) = lo8 a ^^^ lo8 b := by simp [lo8]
theorem hi8_xor (a b : BitVec 16) : hi8 (a ^^^ b) = hi8 a ^^^ hi8 b := by
  apply BitVec.eq_of_getLsbD_eq
  intro j hj
  simp [hi8, hj]

section
include hk hn

/-- A whole word absorbed. -/
theorem step16 {s : State} {w : Nat} {A : D × D} (h : Good key nonce s w A) (pt : BitVec 16) :
    Good key nonce { (next s).2 with reg := (accumulate (next s).2.reg (next s).2.acc (getmb (next s).1) pt).1,
                                     acc := (accumulate (next s).2.reg (next s).2.acc (getmb (next s).1) pt).2 } (w + 1)
      (absorbByte (absorbByte A (lo8 pt) (mbyte key nonce (2 * w))) (hi8 pt) (mbyte key nonce (2 * w + 1))) := by
  have a := next_at hk hn h.at' (by omega)
  refine ⟨?_, ?_⟩
  · rw [show 384 + 32 * (w + 1) = 384 + 32 * w + 32 by omega]; exact ⟨a.l, a.n, a.k⟩
  · rw [← mb_lo hk hn h.at', ← mb_hi hk hn h.at', ← h.acc]
    exact accumulate_spec s.reg s.acc (getmb (next s).1) pt

theorem pairs_good (n : Nat) : ∀ (l : Bytes) (s : State) (w : Nat) (A : D × D), l.length = 2 * n → Good key nonce s w A →
    Good key nonce (pairs s l).1 (w + n) (absorb key nonce A (2 * w) l) ∧ (pairs s l).2 = [] := by
  induction n with
  | zero =>
    intro l s w A hl h
    obtain rfl : l = [] := List.length_eq_zero_iff.1 hl
    exact ⟨h, rfl⟩
  | succ n ih =>
    intro l s w A hl h
    match l, hl with
    | a :: b :: l, hl =>
      have := ih l _ (w + 1) _ (by simp at hl; omega) (step16 hk hn h (le16 a b))
      rw [lo8_le16, hi8_le16] at this
      rw [show w + (n + 1) = w + 1 + n by omega]
      exact this

theorem pairs_good_odd (n : Nat) : ∀ (l : Bytes) (x : Byte) (s : State) (w : Nat) (A : D × D), l.length = 2 * n → Good key nonce s w A →
    Good key nonce (pairs s (l ++ [x])).1 (w + n) (absorb key nonce A (2 * w) l) ∧ (pairs s (l ++ [x])).2 = [x] := by
  induction n with
  | zero =>
    intro l x s w A hl h
    obtain rfl : l = [] := List.length_eq_zero_iff.1 hl
    exact ⟨h, rfl⟩
  | succ n ih =>
    intro l x s w A hl h
    match l, hl with
    | a :: b :: l, hl =>
      have := ih l x _ (w + 1) _ (by simp at hl; omega) (step16 hk hn h (le16 a b))
      rw [lo8_le16, hi8_le16] at this
      rw [show w + (n + 1) = w + 1 + n by omega]
      exact this
end

/-! ### The end of the message -/

theorem absorbBit_fst (a : D × D) (m z z' : Bool) : (absorbBit a m z).1 = (absorbBit a m z').1 := rfl

theorem absorbByte_zero (a : D × D) (z : Byte) : (absorbByte a 0 z).1 = a.1 := by
  have h : ∀ (l : List Nat) (a : D × D), (l.foldl (fun a j => absorbBit a ((0 : Byte).getLsbD j) (z.getLsbD j)) a).1 = a.1 := by
    intro l
    induction l with
    | nil => intro a; rfl
    | cons x l ih => intro a; rw [List.foldl_cons, ih]; simp [absorbBit]
  exact h _ a

theorem absorbByte_one (a : D × D) (z : Byte) : (absorbByte a 1 z).1 = (absorbBit a true false).1 := by
  have h : ∀ (l : List Nat) (a : D × D), (∀ j ∈ l, 0 < j) → (l.foldl (fun a j => absorbBit a ((1 : Byte).getLsbD j) (z.getLsbD j)) a).1 = a.1 := by
    intro l
    induction l with
    | nil => intro a _; rfl
    | cons x l ih =>
      intro a hp
      rw [List.foldl_cons, ih _ (fun j hj => hp j (by simp [hj]))]
      have := hp x (by simp)
      simp [absorbBit, show x ≠ 0 by omega]
  unfold absorbByte
  rw [show List.range 8 = 0 :: [1, 2, 3, 4, 5, 6, 7] from rfl, List.foldl_cons, h _ _ (by decide)]
  rfl

theorem absorb_append (A : D × D) (p : Nat) (l m : Bytes) : absorb key nonce A p (l ++ m) = absorb key nonce (absorb key nonce A p l) (p + l.length) m := by
  induction l generalizing A p with
  | nil => rfl
  | cons b l ih =>
    show absorb key nonce _ (p + 1) (l ++ m) = _
    rw [ih]; congr 1; simp; omega

theorem crypt_nil (p : Nat) : GrainSpec.crypt key nonce p [] = [] := rfl

theorem crypt_cons (p : Nat) (a : Byte) (l : Bytes) : GrainSpec.crypt key nonce p (a :: l) = (a ^^^ kbyte key nonce p) :: GrainSpec.crypt key nonce (p + 1) l := by
  unfold GrainSpec.crypt xorb
  rw [List.length_cons, List.range_succ_eq_map, List.map_cons, List.map_map, List.zipWith_cons_cons]
  have e : (List.range l.length).map ((fun i => kbyte key nonce (p + i)) ∘ Nat.succ) = (List.range l.length).map fun i => kbyte key nonce (p + 1 + i) := by
    apply List.map_congr_left
    intro i _
    rw [Function.comp_apply, show p + Nat.succ i = p + 1 + i by omega]
  rw [e, Nat.add_zero]

theorem crypt_length (p : Nat) (l : Bytes) : (GrainSpec.crypt key nonce p l).length = l.length := by simp [GrainSpec.crypt, xorb]

theorem crypt_crypt (p : Nat) (l : Bytes) : GrainSpec.crypt key nonce p (GrainSpec.crypt key nonce p l) = l := by
  induction l generalizing p with
  | nil => rfl
  | cons a l ih => rw [crypt_cons, crypt_cons, ih, BitVec.xor_assoc, BitVec.xor_self, BitVec.xor_zero]

/-- The plaintext: the input when encrypting, the output when decrypting. -/
def plain (dec : Bool) (inp out : Bytes) : Bytes := if dec then out else inp

theorem plain_cons (dec : Bool) (a c : Byte) (i o : Bytes) : plain dec (a :: i) (c :: o) = auth8 dec a c :: plain dec i o := by cases dec <;> rfl

theorem lo8_pad (x : Byte) : lo8 (0x100 ||| x.setWidth 16) = x := by
  apply BitVec.eq_of_getLsbD_eq
  intro j hj
  rw [lo8_bit _ _ hj, BitVec.getLsbD_or, BitVec.getLsbD_setWidth]
  interval_cases j <;> simp

theorem hi8_pad (x : Byte) : hi8 (0x100 ||| x.setWidth 16) = 1 := by
  apply BitVec.eq_of_getLsbD_eq
  intro j hj
  rw [hi8_bit _ _ hj, BitVec.getLsbD_or, BitVec.getLsbD_setWidth, BitVec.getLsbD_of_ge x _ (by omega)]
  interval_cases j <;> simp

theorem lo8_auth (dec : Bool) (a b : BitVec 16) : lo8 (auth16 dec a b) = auth8 dec (lo8 a) (lo8 b) := by cases dec <;> rfl
theorem hi8_auth (dec : Bool) (a b : BitVec 16) : hi8 (auth16 dec a b) = auth8 dec (hi8 a) (hi8 b) := by cases dec <;> rfl

section
include hk hn

theorem body_good (dec : Bool) (n : Nat) : ∀ (l : Bytes) (s : State) (w : Nat) (A : D × D), l.length ≤ n → Good key nonce s w A →
    (body dec s l).1 = GrainSpec.crypt key nonce (2 * w) l ∧
    (body dec s l).2.acc = (absorbBit (absorb key nonce A (2 * w) (plain dec l (GrainSpec.crypt key nonce (2 * w) l))) true false).1 ∧
    (body dec s l).2.key = setKey key := by
  induction n using Nat.strongRecOn with
  | ind n ih =>
    intro l s w A hl h
    match l, hl with
    | [], _ =>
      have g := step16 hk hn h 0x01
      refine ⟨rfl, ?_, ?_⟩
      · have e := congrArg Prod.fst g.acc
        rw [show lo8 0x01 = 1 from rfl, show hi8 0x01 = 0 from rfl, absorbByte_zero, absorbByte_one] at e
        have hp : plain dec [] (GrainSpec.crypt key nonce (2 * w) []) = [] := by cases dec <;> rfl
        rw [hp]
        exact e
      · exact g.at'.k
    | [a], _ =>
      have hc : lo8 (getkb (next s).1) ^^^ a = a ^^^ kbyte key nonce (2 * w) := by rw [kb_lo hk hn h.at', BitVec.xor_comm]
      have g := step16 hk hn h (0x100 ||| (auth8 dec a (lo8 (getkb (next s).1) ^^^ a)).setWidth 16)
      refine ⟨?_, ?_, ?_⟩
      · rw [crypt_cons, crypt_nil, ← hc]; rfl
      · have e := congrArg Prod.fst g.acc
        rw [lo8_pad, hi8_pad, absorbByte_one, hc] at e
        rw [crypt_cons, crypt_nil, plain_cons]
        have hp : plain dec [] [] = [] := by cases dec <;> rfl
        rw [hp]
        show _ = (absorbBit (absorbByte A _ (mbyte key nonce (2 * w))) true false).1
        rw [← e, ← hc]
        rfl
      · exact g.at'.k
    | a :: b :: l, hl =>
      have hlo : lo8 (getkb (next s).1 ^^^ le16 a b) = a ^^^ kbyte key nonce (2 * w) := by
        rw [lo8_xor, kb_lo hk hn h.at', lo8_le16, BitVec.xor_comm]
      have hhi : hi8 (getkb (next s).1 ^^^ le16 a b) = b ^^^ kbyte key nonce (2 * w + 1) := by
        rw [hi8_xor, kb_hi hk hn h.at', hi8_le16, BitVec.xor_comm]
      have g := step16 hk hn h (auth16 dec (le16 a b) (getkb (next s).1 ^^^ le16 a b))
      rw [lo8_auth, hi8_auth, hlo, hhi, lo8_le16, hi8_le16] at g
      obtain ⟨i1, i2, i3⟩ := ih (n - 2) (by simp at hl; omega) l _ (w + 1) _ (by simp at hl; omega) g
      refine ⟨?_, ?_, i3⟩
      · rw [crypt_cons, crypt_cons, ← hlo, ← hhi]
        rw [show 2 * w + 1 + 1 = 2 * (w + 1) by omega, ← i1]; rfl
      · rw [crypt_cons, crypt_cons, plain_cons, plain_cons]
        rw [show 2 * w + 1 + 1 = 2 * (w + 1) by omega]
        exact i2
end

/-! ### The length of the additional data -/

/-- What `encode` writes: the first byte of the DER form, and then the number of bytes of the length where the length should be. -/
def codeDer (n : Nat) : Bytes :=
  if n < 128 then [BitVec.ofNat 8 n]
  else
    let k := (Nat.log2 n + 8) / 8
    BitVec.ofNat 8 (0x80 + k) :: (List.replicate (k - 1) 0 ++ [BitVec.ofNat 8 k])

/-- The array `encode` makes, from the number of bytes of the length. -/
def encK (k : Nat) : Bytes := encLoop k k ((List.replicate 10 0).set 0 (0x80 ||| BitVec.ofNat 8 k))

theorem encK_spec (k : Nat) (h1 : 1 ≤ k) (h8 : k ≤ 8) :
    (encK k).length = 10 ∧ derLen (encK k) = k + 1 ∧
    (encK k).take (k + 1) = BitVec.ofNat 8 (0x80 + k) :: (List.replicate (k - 1) 0 ++ [BitVec.ofNat 8 k]) := by
  interval_cases k <;> decide

theorem take_set_succ (d : Bytes) (n : Nat) (x : Byte) (h : n < d.length) : (d.set n x).take (n + 1) = d.take n ++ [x] := by
  rw [List.take_succ_eq_append_getElem (by simpa using h)]
  simp [List.take_set_of_le]

theorem split_spec (ad : Bytes) (hl : ad.length < 2 ^ 63) :
    (split ad).1 ++ (split ad).2 = codeDer ad.length ++ ad ∧ (split ad).1.length % 2 = 0 := by
  unfold split
  by_cases h : ad.length ≤ 127
  · rw [if_pos h]
    have hc : codeDer ad.length = [BitVec.ofNat 8 ad.length] := by unfold codeDer; rw [if_pos (by omega)]
    match ad, h, hc with
    | [], _, hc => exact ⟨by rw [hc]; rfl, rfl⟩
    | b :: ad, _, hc => rw [if_pos (by simp), hc]; exact ⟨rfl, by simp⟩
  · rw [if_neg h]
    have hb : bitLen ad.length = Nat.log2 ad.length + 1 := by unfold bitLen; rw [if_neg (by omega)]
    have hlt : Nat.log2 ad.length < 63 := (Nat.log2_lt (by omega)).2 hl
    have he : encode ad.length = encK ((Nat.log2 ad.length + 8) / 8) := by
      unfold encode encK
      rw [hb]
    have hc : codeDer ad.length = BitVec.ofNat 8 (0x80 + (Nat.log2 ad.length + 8) / 8) ::
        (List.replicate ((Nat.log2 ad.length + 8) / 8 - 1) 0 ++ [BitVec.ofNat 8 ((Nat.log2 ad.length + 8) / 8)]) := by
      unfold codeDer; rw [if_neg (by omega)]
    have hk1 : 1 ≤ (Nat.log2 ad.length + 8) / 8 := by omega
    have hk8 : (Nat.log2 ad.length + 8) / 8 ≤ 8 := by omega
    rw [he, hc]
    generalize (Nat.log2 ad.length + 8) / 8 = k at hk1 hk8
    obtain ⟨l1, l2, l3⟩ := encK_spec k hk1 hk8
    simp only
    rw [l2, ← l3]
    have hne : ad ≠ [] := by intro e; rw [e] at h; simp at h
    obtain ⟨b, ad, rfl⟩ := List.exists_cons_of_ne_nil hne
    by_cases ho : (k + 1) % 2 ≠ 0
    · rw [if_pos ho, take_set_succ _ _ _ (by omega)]
      refine ⟨by simp, ?_⟩
      rw [List.length_append, List.length_take, l1, List.length_singleton]; omega
    · rw [if_neg ho]
      refine ⟨rfl, ?_⟩
      rw [List.length_take, l1]; omega

/-! ### `encrypt` and `decrypt` -/

/-- `accumulate8`. -/
def put8 (s : State) (ms pt : Byte) : State := { s with reg := (accumulate8 s.reg s.acc ms pt).1, acc := (accumulate8 s.reg s.acc ms pt).2 }

theorem put8_at {s : State} {T : Nat} (h : At key nonce s T) (ms pt : Byte) : At key nonce (put8 s ms pt) T := ⟨h.l, h.n, h.k⟩

theorem put8_acc {s : State} {A : D × D} (h : (s.acc, s.reg) = A) (ms pt : Byte) :
    ((put8 s ms pt).acc, (put8 s ms pt).reg) = absorbByte A pt ms := by
  rw [← h]; exact accumulate8_spec s.reg s.acc ms pt

/-- `encrypt` and `decrypt` from the point where a byte `x` of the additional data is left. -/
def oddEnd (dec : Bool) (t : State) (x : Byte) : Bytes → Bytes × State
  | [] => body dec (put8 (next t).2 (lo8 (getmb (next t).1)) x) []
  | b :: src =>
    ((hi8 (getkb (next t).1) ^^^ b) ::
      (body dec (put8 (put8 (next t).2 (lo8 (getmb (next t).1)) x) (hi8 (getmb (next t).1)) (auth8 dec b (hi8 (getkb (next t).1) ^^^ b))) src).1,
     (body dec (put8 (put8 (next t).2 (lo8 (getmb (next t).1)) x) (hi8 (getmb (next t).1)) (auth8 dec b (hi8 (getkb (next t).1) ^^^ b))) src).2)

def evenOdd (dec : Bool) (t : State) (src : Bytes) : Bytes → Bytes × State
  | [] => body dec t src
  | x :: _ => oddEnd dec t x src

theorem crypt_eq (dec : Bool) (s : State) (src ad : Bytes) :
    crypt dec s src ad = evenOdd dec (pairs (pairs s (split ad).1).1 (split ad).2).1 src (pairs (pairs s (split ad).1).1 (split ad).2).2 := by
  unfold crypt evenOdd
  simp only
  generalize (pairs (pairs s (split ad).1).1 (split ad).2).2 = rest
  generalize (pairs (pairs s (split ad).1).1 (split ad).2).1 = t
  cases rest with
  | nil => rfl
  | cons x r => cases src <;> rfl

section
include hk hn

theorem oddEnd_spec (dec : Bool) (t : State) (w : Nat) (A : D × D) (x : Byte) (src : Bytes) (g : Good key nonce t w A) :
    (oddEnd dec t x src).1 = GrainSpec.crypt key nonce (2 * w + 1) src ∧
    (oddEnd dec t x src).2.acc =
      (absorbBit (absorb key nonce (absorbByte A x (mbyte key nonce (2 * w))) (2 * w + 1) (plain dec src (GrainSpec.crypt key nonce (2 * w + 1) src))) true false).1 ∧
    (oddEnd dec t x src).2.key = setKey key := by
  have a := next_at hk hn g.at' (by omega)
  rw [show 384 + 32 * w + 32 = 384 + 32 * (w + 1) by omega] at a
  have p1 := put8_at a (lo8 (getmb (next t).1)) x
  have q1 := put8_acc (s := (next t).2) (A := A) g.acc (lo8 (getmb (next t).1)) x
  rw [mb_lo hk hn g.at'] at p1 q1
  cases src with
  | nil =>
    unfold oddEnd
    rw [mb_lo hk hn g.at']
    generalize put8 (next t).2 (mbyte key nonce (2 * w)) x = u at p1 q1 ⊢
    have := body_good hk hn dec 0 [] u (w + 1) _ (Nat.le_refl _) ⟨p1, q1⟩
    have hp : ∀ p, plain dec [] (GrainSpec.crypt key nonce p []) = [] := by intro p; cases dec <;> rfl
    rw [hp, crypt_nil] at this
    rw [hp, crypt_nil]
    exact this
  | cons b src =>
    unfold oddEnd
    simp only
    rw [mb_lo hk hn g.at', mb_hi hk hn g.at', kb_hi hk hn g.at']
    generalize put8 (next t).2 (mbyte key nonce (2 * w)) x = u at p1 q1 ⊢
    rw [BitVec.xor_comm (kbyte key nonce (2 * w + 1)) b]
    have p2 := put8_at p1 (mbyte key nonce (2 * w + 1)) (auth8 dec b (b ^^^ kbyte key nonce (2 * w + 1)))
    have q2 := put8_acc q1 (mbyte key nonce (2 * w + 1)) (auth8 dec b (b ^^^ kbyte key nonce (2 * w + 1)))
    generalize put8 u (mbyte key nonce (2 * w + 1)) (auth8 dec b (b ^^^ kbyte key nonce (2 * w + 1))) = v at p2 q2 ⊢
    obtain ⟨i1, i2, i3⟩ := body_good hk hn dec src.length src v (w + 1) _ (Nat.le_refl _) ⟨p2, q2⟩
    rw [show 2 * (w + 1) = 2 * w + 1 + 1 by omega] at i1 i2
    refine ⟨?_, ?_, i3⟩
    · rw [crypt_cons, i1]
    · rw [crypt_cons, plain_cons]
      exact i2

theorem evenOdd_spec (dec : Bool) (s : State) (w : Nat) (A : D × D) (src ad : Bytes) (h : Good key nonce s w A) :
    (evenOdd dec (pairs s ad).1 src (pairs s ad).2).1 = GrainSpec.crypt key nonce (2 * w + ad.length) src ∧
    (evenOdd dec (pairs s ad).1 src (pairs s ad).2).2.acc =
      (absorbBit (absorb key nonce A (2 * w) (ad ++ plain dec src (GrainSpec.crypt key nonce (2 * w + ad.length) src))) true false).1 ∧
    (evenOdd dec (pairs s ad).1 src (pairs s ad).2).2.key = setKey key := by
  rcases Nat.even_or_odd' ad.length with ⟨n, hl | hl⟩
  · obtain ⟨g, e⟩ := pairs_good hk hn n ad s w A hl h
    rw [e, absorb_append]
    have := body_good hk hn dec src.length src _ _ _ (Nat.le_refl _) g
    rw [show 2 * (w + n) = 2 * w + ad.length by omega] at this
    exact this
  · obtain ⟨l, x, rfl⟩ : ∃ l x, ad = l ++ [x] := by
      rcases List.eq_nil_or_concat ad with e | ⟨l, x, e⟩
      · rw [e] at hl; simp at hl
      · exact ⟨l, x, by simpa using e⟩
    have hl' : l.length = 2 * n := by simp at hl; omega
    obtain ⟨g, e⟩ := pairs_good_odd hk hn n l x s w A hl' h
    rw [e]
    have := oddEnd_spec hk hn dec _ _ _ x src g
    rw [absorb_append, absorb_append, show 2 * w + (l ++ [x]).length = 2 * (w + n) + 1 by simp; omega, show 2 * w + l.length = 2 * (w + n) by omega]
    exact this

/-- `encrypt` and `decrypt` after `init`. -/
theorem crypt_spec (dec : Bool) (s : State) (hkey : s.key = setKey key) (src ad : Bytes) (hl : ad.length < 2 ^ 63) :
    (crypt dec (init s nonce) src ad).1 = GrainSpec.crypt key nonce (codeDer ad.length ++ ad).length src ∧
    tag (crypt dec (init s nonce) src ad).2 =
      GrainSpec.tag key nonce (codeDer ad.length ++ ad ++ plain dec src (GrainSpec.crypt key nonce (codeDer ad.length ++ ad).length src)) ∧
    (crypt dec (init s nonce) src ad).2.key = setKey key := by
  obtain ⟨h1, h2⟩ := split_spec ad hl
  obtain ⟨a1, a2, a3⟩ := init_at hk hn s hkey
  obtain ⟨n, hn2⟩ : ∃ n, (split ad).1.length = 2 * n := ⟨(split ad).1.length / 2, by omega⟩
  obtain ⟨g, _⟩ := pairs_good hk hn n (split ad).1 (init s nonce) 0 _ hn2 ⟨a1, by rw [a2, a3]⟩
  have c := evenOdd_spec hk hn dec _ _ _ src (split ad).2 g
  rw [← crypt_eq] at c
  rw [show 2 * (0 + n) + (split ad).2.length = (codeDer ad.length ++ ad).length by rw [← h1, List.length_append]; omega] at c
  have hab : ∀ A X, absorb key nonce (absorb key nonce A (2 * 0) (split ad).1) (2 * (0 + n)) ((split ad).2 ++ X) = absorb key nonce A 0 (codeDer ad.length ++ ad ++ X) := by
    intro A X
    rw [← h1, List.append_assoc, absorb_append A 0 (split ad).1, hn2]
    simp
  rw [hab] at c
  obtain ⟨c1, c2, c3⟩ := c
  exact ⟨c1, congrArg (fun v : D => leBytes 8 v.toNat) c2, c3⟩
end

end Verif.Strm.Grain
