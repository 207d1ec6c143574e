import Verif.Ber.Spec
import Verif.Ber.Model
/-
Helper lemmas for the properties of /repo/ber.
-/
namespace Verif.Ber
open Verif.Cipher Verif.Pub Verif.Ber.Spec

theorem hx_snoc (n v : Nat) : hx (n + 1) v = hx n (v / 256) ++ [BitVec.ofNat 8 v] := by
  simp [hx, leBytes]

theorem shift_range : ∀ k i : Nat, (List.range k).map (fun j => BitVec.ofNat 8 (i >>> ((k - j - 1) * 8))) = hx k i
  | 0, i => by simp [hx, leBytes]
  | k + 1, i => by
    rw [hx_snoc, ← shift_range k (i / 256), List.range_succ, List.map_append]
    congr 1
    · apply List.map_congr_left
      intro j hj
      rw [List.mem_range] at hj
      have : (k + 1 - j - 1) * 8 = 8 + (k - j - 1) * 8 := by omega
      rw [this, Nat.shiftRight_add, Nat.shiftRight_eq_div_pow i 8]
    · simp

theorem lengthLength_eq (n : Nat) (h : 0 < n) : lengthLength n = byteLen n := by
  induction n using Nat.strongRecOn with
  | _ n ih =>
    rw [lengthLength]
    split
    · rename_i h1
      rw [ih (n / 256) (by omega) (by omega)]
      apply Nat.le_antisymm
      · by_contra hc
        have hlt : byteLen n ≤ byteLen (n / 256) := by omega
        have := byteLen_le.1 hlt
        have hp : 0 < byteLen (n / 256) := byteLen_pos (by omega)
        have h2 : byteLen (n / 256) ≤ byteLen (n / 256) - 1 := by
          rw [byteLen_le]
          have e : byteLen (n / 256) = byteLen (n / 256) - 1 + 1 := by omega
          rw [e, pow_succ] at this
          exact Nat.div_lt_of_lt_mul (by rw [Nat.mul_comm]; exact this)
        omega
      · rw [byteLen_le, pow_succ]
        have := lt_pow_byteLen (n / 256)
        omega
    · apply Nat.le_antisymm
      · have := byteLen_pos h; omega
      · rw [byteLen_le]; omega

theorem or_ofNat : ∀ k : Fin 128, 0x80#8 ||| BitVec.ofNat 8 k.val = BitVec.ofNat 8 (128 + k.val) := by decide +kernel

theorem byteLen_small {n : Nat} (h : n < 2 ^ 64) : byteLen n ≤ 8 := byteLen_le.2 (by norm_num at h ⊢; exact h)

theorem encodeLength_eq {n : Nat} (h : n < 2 ^ 64) : encodeLength n = derLen n := by
  rw [encodeLength, derLen]
  by_cases hn : n < 128
  · rw [if_neg (by omega), if_pos hn]
  · rw [if_pos (by omega), if_neg hn, marshalLongLength, shift_range, lengthLength_eq n (by omega)]
    have := byteLen_small h
    rw [or_ofNat ⟨byteLen n, by omega⟩]

/-! ### Reading identifier and length octets -/

theorem get_drop {ber s : Bytes} {o : Nat} (h : ber.drop o = s) (i : Nat) : ber[o + i]? = s[i]? := by
  rw [← h, List.getElem?_drop]

theorem len_drop {ber s : Bytes} {o : Nat} (h : ber.drop o = s) (hs : s ≠ []) : ber.length = o + s.length := by
  have h1 := congrArg List.length h
  rw [List.length_drop] at h1
  have : 0 < s.length := List.length_pos_iff.2 hs
  omega

theorem drop_append {ber a b : Bytes} {o : Nat} (h : ber.drop o = a ++ b) : ber.drop (o + a.length) = b := by
  rw [← List.drop_drop, h, List.drop_left]

theorem sub_eq {ber a b : Bytes} {o : Nat} (h : ber.drop o = a ++ b) : sub ber o (o + a.length) = a := by
  rw [sub, h, Nat.add_sub_cancel_left, List.take_left]

theorem tagLoop_ok {ber : Bytes} : ∀ (hi : Bytes) (last : Byte) (rest : Bytes) (o f : Nat), ber.drop o = hi ++ (last :: rest) →
    (∀ x ∈ hi, 128 ≤ x.toNat) → last.toNat < 128 → hi.length < f → tagLoop ber f o = .ok (o + hi.length)
  | [], last, rest, o, f + 1, h, _, hl, _ => by
    have h0 := get_drop h 0
    simp only [Nat.add_zero, List.nil_append, List.getElem?_cons_zero] at h0
    rw [tagLoop, h0]
    simp only [List.length_nil, Nat.add_zero]
    rw [if_neg (by omega)]
  | x :: hi, last, rest, o, f + 1, h, hh, hl, hf => by
    have h0 := get_drop h 0
    simp only [Nat.add_zero, List.cons_append, List.getElem?_cons_zero] at h0
    have hlen := len_drop h (by simp)
    have hx1 := hh x (by simp)
    rw [tagLoop, h0]
    simp only
    simp only [List.length_append, List.length_cons] at hlen hf
    rw [if_pos (by omega), if_neg (by omega), tagLoop_ok hi last rest (o + 1) f (drop_append (a := [x]) h) (fun y hy => hh y (by simp [hy])) hl (by omega)]
    simp only [List.length_cons]
    congr 1
    omega

theorem tagEndOf_ok {ber t s : Bytes} {o : Nat} {c : Bool} (h : ber.drop o = t ++ s) (ht : TagOctets c t) :
    ∃ b, ber[o]? = some b ∧ (c = true ↔ b &&& 0x20#8 ≠ 0#8) ∧ tagEndOf ber b (o + 1) = .ok (o + t.length) := by
  obtain ⟨b, rest, rfl, hc, hr⟩ := ht
  have h0 := get_drop h 0
  simp only [Nat.add_zero, List.cons_append, List.getElem?_cons_zero] at h0
  refine ⟨b, h0, hc, ?_⟩
  have hlen := len_drop h (by simp)
  rw [tagEndOf]
  rcases hr with ⟨h1, rfl⟩ | ⟨h1, hi, last, rfl, h2, h3⟩
  · rw [if_neg h1]; rfl
  · rw [if_pos h1]
    have hd : ber.drop (o + 1) = hi ++ (last :: s) := by
      have := drop_append (a := [b]) (b := hi ++ [last] ++ s) h
      simpa using this
    simp only [List.length_append, List.length_cons, List.length_nil] at hlen
    rw [tagLoop_ok hi last s (o + 1) (ber.length + 1) hd h2 h3 (by omega)]
    simp only [Res.bind]
    rw [if_neg (by omega)]
    simp only [List.length_append, List.length_cons, List.length_nil]
    congr 1
    omega

theorem lenLoop_ok {ber : Bytes} : ∀ (l rest : Bytes) (o a : Nat), ber.drop o = l ++ rest →
    lenLoop ber l.length o a = .ok (a * 256 ^ l.length + setBytes l)
  | [], _, _, a, _ => by simp [lenLoop, setBytes, Kdf.Kb.beN, leN]
  | x :: l, rest, o, a, h => by
    have h0 := get_drop h 0
    simp only [Nat.add_zero, List.cons_append, List.getElem?_cons_zero] at h0
    rw [List.length_cons, lenLoop, h0]
    simp only
    rw [lenLoop_ok l rest (o + 1) _ (drop_append (a := [x]) h)]
    have e : setBytes (x :: l) = x.toNat * 256 ^ l.length + setBytes l := by
      have := setBytes_append [x] l
      simp only [List.cons_append, List.nil_append] at this
      rw [this]
      congr 2
    rw [e, pow_succ]
    congr 1
    ring

theorem and_7f : ∀ k : Fin 5, (BitVec.ofNat 8 (128 + k.val) &&& 0x7f#8).toNat = k.val := by decide +kernel

theorem readLen_ok {ber l s : Bytes} {te n : Nat} (h : ber.drop te = l ++ s) (hl : PlainLen n l) :
    readLen ber te = .ok (te + l.length, n, false) := by
  rcases hl with ⟨h1, rfl⟩ | ⟨k, k1, k4, hn, hn2, hn3, rfl⟩
  · have h0 := get_drop h 0
    simp only [Nat.add_zero, List.cons_append, List.getElem?_cons_zero] at h0
    have hlen := len_drop h (by simp)
    have e : (BitVec.ofNat 8 n).toNat = n := by simp; omega
    simp only [List.length_append, List.length_cons, List.length_nil] at hlen
    rw [readLen, h0]
    simp only
    rw [e, if_neg (by omega), if_neg (by omega), if_neg (by omega)]
    rfl
  · have h0 := get_drop h 0
    simp only [Nat.add_zero, List.cons_append, List.getElem?_cons_zero] at h0
    have hd : ber.drop (te + 1) = hx k n ++ s := drop_append (a := [BitVec.ofNat 8 (128 + k)]) h
    have hlen := len_drop h (by simp)
    have e : (BitVec.ofNat 8 (128 + k)).toNat = 128 + k := by simp; omega
    simp only [List.length_append, List.length_cons, hx_length] at hlen
    rw [readLen, h0]
    simp only
    rw [e, if_neg (by omega), if_pos (by omega), and_7f ⟨k, by omega⟩]
    simp only
    rw [if_neg (by omega), if_neg (by omega)]
    have hloop := lenLoop_ok (hx k n) s (te + 1) 0 hd
    rw [hx_length, setBytes_hx k n hn, Nat.zero_mul, Nat.zero_add] at hloop
    have g0 := get_drop hd 0
    have g1 := get_drop hd 1
    have key : ∃ b0, ber[te + 1]? = some b0 ∧ ¬ (k = 4 ∧ 0x7f < b0.toNat) ∧ leadingZero ber (te + 1) k b0 = .ok false := by
      have hk : k = 1 ∨ k = 2 ∨ k = 3 ∨ k = 4 := by omega
      rcases hk with rfl | rfl | rfl | rfl
      · simp only [hx, leBytes, List.reverse_cons, List.reverse_nil, List.nil_append, Nat.add_zero, List.cons_append, List.getElem?_cons_zero] at g0
        refine ⟨_, g0, by omega, ?_⟩
        rw [leadingZero, if_neg]
        simp only [BitVec.toNat_ofNat]; omega
      all_goals
        simp only [hx, leBytes, List.reverse_cons, List.reverse_nil, List.nil_append, Nat.add_zero, List.cons_append, List.getElem?_cons_zero, List.getElem?_cons_succ] at g0 g1
        refine ⟨_, g0, ?_, ?_⟩
        · simp only [BitVec.toNat_ofNat]; omega
        · rw [leadingZero]
          split
          · rename_i hz
            rw [if_neg (by omega), g1]
            simp only
            congr 1
            simp only [BitVec.toNat_ofNat] at hz ⊢
            rw [decide_eq_false_iff_not]
            omega
          · rfl
    obtain ⟨b0, q0, q1, q2⟩ := key
    rw [q0]
    simp only
    rw [if_neg q1, q2]
    simp only [Res.bind]
    rw [hloop]
    simp only [List.length_cons, hx_length, Bool.false_eq_true, if_false]
    congr 2
    omega

theorem PlainLen.ne_nil {n : Nat} {l : Bytes} (h : PlainLen n l) : l ≠ [] := by
  rcases h with ⟨_, rfl⟩ | ⟨_, _, _, _, _, _, rfl⟩ <;> simp

theorem TagOctets.ne_nil {c : Bool} {t : Bytes} (h : TagOctets c t) : t ≠ [] := by
  obtain ⟨b, r, rfl, _⟩ := h; simp

theorem readHeader_ok {ber t l s : Bytes} {o n : Nat} {c : Bool} (h : ber.drop o = t ++ (l ++ s)) (ht : TagOctets c t)
    (hl : PlainLen n l) (hn : n ≤ s.length) :
    readHeader ber o = .ok ⟨o + t.length, o + t.length + l.length, n, false, c⟩ := by
  obtain ⟨b, h0, hc, hte⟩ := tagEndOf_ok h ht
  have hlen := len_drop h (by simp [TagOctets.ne_nil ht])
  have t1 : 0 < t.length := List.length_pos_iff.2 (TagOctets.ne_nil ht)
  have l1 : 0 < l.length := List.length_pos_iff.2 (PlainLen.ne_nil hl)
  simp only [List.length_append] at hlen
  rw [readHeader, if_neg (by omega), h0]
  simp only
  rw [if_neg (by omega), hte]
  simp only [Res.bind]
  rw [readLen_ok (drop_append h) hl]
  simp only
  rw [if_neg (by omega), if_neg (by simp)]
  congr 2
  cases c
  · rw [decide_eq_false_iff_not]; exact fun hh => by simpa using hc.2 hh
  · rw [decide_eq_true_iff]; exact hc.1 rfl

theorem readHeader_indef {ber t s : Bytes} {o : Nat} (h : ber.drop o = t ++ ([0x80#8] ++ s)) (ht : TagOctets true t) :
    readHeader ber o = .ok ⟨o + t.length, o + t.length + 1, 0, true, true⟩ := by
  obtain ⟨b, h0, hc, hte⟩ := tagEndOf_ok h ht
  have hlen := len_drop h (by simp [TagOctets.ne_nil ht])
  have t1 : 0 < t.length := List.length_pos_iff.2 (TagOctets.ne_nil ht)
  simp only [List.length_append, List.length_cons, List.length_nil] at hlen
  have hb := hc.1 rfl
  rw [readHeader, if_neg (by omega), h0]
  simp only
  rw [if_neg (by omega), hte]
  simp only [Res.bind]
  have g := get_drop (drop_append h) 0
  simp only [Nat.add_zero, List.cons_append, List.getElem?_cons_zero] at g
  rw [readLen, g]
  simp only
  rw [if_neg (by omega), if_neg (by decide), if_pos (by decide)]
  simp only
  rw [if_neg (by omega), if_neg (by simp [hb])]
  simp [hb]

/-! ### Reading an encoding -/

mutual
/-- the object the code builds for a tree -/
def toObj : Tree → Obj
  | .prim t c => .prim t c.length c
  | .cons t ks => .cons t (toObjs ks)
def toObjs : List Tree → List Obj
  | [] => []
  | k :: ks => toObj k :: toObjs ks
end

theorem TagOctets.head {c : Bool} {t : Bytes} (h : TagOctets c t) (h0 : t ≠ [0#8]) : ∃ b r, t = b :: r ∧ b ≠ 0#8 := by
  obtain ⟨b, r, rfl, _, hr⟩ := h
  refine ⟨b, r, rfl, ?_⟩
  rintro rfl
  rcases hr with ⟨_, rfl⟩ | ⟨h1, _⟩
  · exact h0 rfl
  · exact absurd h1 (by decide)

theorem Enc.head {e : Prop} {t : Tree} {b : Bytes} (h : Enc PlainLen e t b) (h0 : t.tag ≠ [0#8]) : ∃ x r, b = x :: r ∧ x ≠ 0#8 := by
  cases h with
  | prim ht _ => obtain ⟨x, r, rfl, hx0⟩ := TagOctets.head ht h0; exact ⟨x, _, rfl, hx0⟩
  | cons ht _ _ => obtain ⟨x, r, rfl, hx0⟩ := TagOctets.head ht h0; exact ⟨x, _, rfl, hx0⟩
  | indef ht _ _ _ => obtain ⟨x, r, rfl, hx0⟩ := TagOctets.head ht h0; exact ⟨x, _, rfl, hx0⟩

theorem Enc.two {e : Prop} {t : Tree} {b : Bytes} (h : Enc PlainLen e t b) : 2 ≤ b.length := by
  cases h with
  | prim ht hl => have := List.length_pos_iff.2 (TagOctets.ne_nil ht); have := List.length_pos_iff.2 (PlainLen.ne_nil hl); simp; omega
  | cons ht _ hl => have := List.length_pos_iff.2 (TagOctets.ne_nil ht); have := List.length_pos_iff.2 (PlainLen.ne_nil hl); simp; omega
  | indef ht _ _ _ => have := List.length_pos_iff.2 (TagOctets.ne_nil ht); simp; omega

mutual
theorem readObject_ok {ber post : Bytes} {t : Tree} {b : Bytes} {o f : Nat} (h : Enc PlainLen False t b)
    (hd : ber.drop o = b ++ post) (hf : 2 * b.length ≤ f) : readObject f ber o = .ok (toObj t, o + b.length) := by
  have h2 := Enc.two h
  match h, f, hf with
  | h, 0, hf => omega
  | .prim (t := t) (c := c) (l := l) ht hl, f + 1, hf =>
    rw [List.append_assoc, List.append_assoc] at hd
    rw [readObject, readHeader_ok hd ht hl (by simp)]
    simp only [Res.bind]
    rw [if_pos trivial, sub_eq hd, sub_eq (a := c) (b := post) (drop_append (drop_append hd))]
    simp only [toObj, List.length_append]
    congr 2
    omega
  | .cons (t := t) (ks := ks) (b := b) (l := l) ht hk hl, f + 1, hf =>
    rw [List.append_assoc, List.append_assoc] at hd
    have t1 : 0 < t.length := List.length_pos_iff.2 (TagOctets.ne_nil ht)
    have l1 : 0 < l.length := List.length_pos_iff.2 (PlainLen.ne_nil hl)
    simp only [List.length_append] at hf
    rw [readObject, readHeader_ok hd ht hl (by simp)]
    simp only [Res.bind]
    rw [if_neg (by simp), sub_eq hd, readSubs_ok hk (drop_append (drop_append hd)) (by omega)]
    simp only [toObj, List.length_append]
    congr 2
    simp; omega
  | .indef (t := t) (ks := ks) (b := b) ht hk hz he, f + 1, hf =>
    have hd' : ber.drop o = t ++ ([0x80#8] ++ (b ++ ([0#8, 0#8] ++ post))) := by simpa using hd
    have t1 : 0 < t.length := List.length_pos_iff.2 (TagOctets.ne_nil ht)
    simp only [List.length_append, List.length_cons, List.length_nil] at hf
    rw [readObject, readHeader_indef hd' ht]
    simp only [Res.bind]
    have hd3 : ber.drop (o + t.length + 1) = b ++ ([0#8, 0#8] ++ post) := drop_append (drop_append hd')
    rw [if_neg (by simp), sub_eq hd', readSubs_indef hk hd3 he hz (by omega)]
    simp only [toObj, List.length_append]
    congr 2
    simp; omega
theorem readSubs_ok {ber post : Bytes} {ks : List Tree} {b : Bytes} {o f : Nat} (h : Encs PlainLen False ks b)
    (hd : ber.drop o = b ++ post) (hf : 2 * b.length < f) :
    readSubs f ber o (o + b.length) false = .ok (toObjs ks, o + b.length) := by
  match h, f, hf with
  | h, 0, hf => omega
  | .nil, f + 1, hf => rw [readSubs]; simp [toObjs]
  | .cons (t := t) (b := b) (ts := ts) (bs := bs) ht hts, f + 1, hf =>
    have h2 := Enc.two ht
    rw [List.append_assoc] at hd
    simp only [List.length_append] at hf
    rw [readSubs, if_pos (by simp; omega), readObject_ok ht hd (by omega)]
    simp only [Res.bind]
    rw [if_neg (by simp)]
    have e : o + (b ++ bs).length = o + b.length + bs.length := by simp; omega
    rw [e, readSubs_ok hts (drop_append hd) (by omega)]
    rfl
theorem readSubs_indef {ber post : Bytes} {ks : List Tree} {b : Bytes} {o f ce : Nat} (h : Encs PlainLen False ks b)
    (hd : ber.drop o = b ++ ([0#8, 0#8] ++ post)) (hne : ks = [] → False) (hz : ∀ k ∈ ks, k.tag ≠ [0#8]) (hf : 2 * b.length < f) :
    readSubs f ber o ce true = .ok (toObjs ks, o + b.length) := by
  match h, f, hf with
  | h, 0, hf => omega
  | .nil, f + 1, hf => exact absurd rfl hne
  | .cons (t := t) (b := b) (ts := ts) (bs := bs) ht hts, f + 1, hf =>
    have h2 := Enc.two ht
    rw [List.append_assoc] at hd
    simp only [List.length_append] at hf
    have hd2 := drop_append hd
    have hlen := len_drop hd2 (by simp)
    simp only [List.length_append, List.length_cons, List.length_nil] at hlen
    rw [readSubs, if_pos (by simp), readObject_ok ht hd (by omega)]
    simp only [Res.bind]
    rw [if_pos trivial, if_neg (by omega), hd2]
    match hts with
    | .nil => simp [toObjs]
    | .cons (t := t') (b := b') (ts := ts') (bs := bs') ht' hts' =>
      obtain ⟨x, r, rfl, hx0⟩ := Enc.head ht' (hz t' (by simp))
      rw [if_neg (by simp; intro hh; exact absurd hh hx0), readSubs_indef (.cons ht' hts') hd2 (by simp) (fun k hk => hz k (by simp [hk])) (by omega)]
      simp [toObjs]; omega
end

mutual
theorem encodeTo_toObj : ∀ t : Tree, (der t).length < 2 ^ 63 → encodeTo (toObj t) = der t
  | .prim t c, h => by
    simp only [der, List.length_append] at h
    rw [toObj, encodeTo, der, encodeLength_eq (by omega)]
  | .cons t ks, h => by
    simp only [der, List.length_append] at h
    rw [toObj, encodeTo, der, encodeAll_toObjs ks (by omega), encodeLength_eq (by omega)]
theorem encodeAll_toObjs : ∀ ts : List Tree, (ders ts).length < 2 ^ 63 → encodeAll (toObjs ts) = ders ts
  | [], _ => by simp [toObjs, encodeAll, ders]
  | t :: ts, h => by
    simp only [ders, List.length_append] at h
    rw [toObjs, encodeAll, ders, encodeTo_toObj t (by omega), encodeAll_toObjs ts (by omega)]
end

/-! ### DER is one of the encodings -/

theorem derLen_plain {n : Nat} (h : n < 2 ^ 31) : PlainLen n (derLen n) := by
  rw [derLen]
  split
  · rename_i h1; exact .inl ⟨h1, rfl⟩
  · rename_i h1
    refine .inr ⟨byteLen n, byteLen_pos (by omega), byteLen_le.2 (by omega), lt_pow_byteLen n, h, ?_, rfl⟩
    have hp : 0 < byteLen n := byteLen_pos (by omega)
    by_contra hc
    have : byteLen n ≤ byteLen n - 1 := by
      rw [byteLen_le]
      have e : byteLen n = byteLen n - 1 + 1 := by omega
      rw [e, pow_succ] at hc
      omega
    omega

mutual
theorem der_plain : ∀ t : Tree, Wf t → (der t).length < 2 ^ 31 → Enc PlainLen False t (der t)
  | .prim t c, hw, h => by
    simp only [der, List.length_append] at h
    cases hw with
    | prim ht => rw [der]; exact .prim ht (derLen_plain (by omega))
  | .cons t ks, hw, h => by
    simp only [der, List.length_append] at h
    cases hw with
    | cons ht hk => rw [der]; exact .cons ht (ders_plain ks hk (by omega)) (derLen_plain (by omega))
theorem ders_plain : ∀ ts : List Tree, (∀ k ∈ ts, Wf k) → (ders ts).length < 2 ^ 31 → Encs PlainLen False ts (ders ts)
  | [], _, _ => by rw [ders]; exact .nil
  | t :: ts, hw, h => by
    simp only [ders, List.length_append] at h
    rw [ders]
    exact .cons (der_plain t (hw t (by simp)) (by omega)) (ders_plain ts (fun k hk => hw k (by simp [hk])) (by omega))
end

/-! ### What is read is a tree; reading ends -/

theorem tagLoop_cases (ber : Bytes) : ∀ f o, ber.length < o + f → 0 < f →
    (tagLoop ber f o = .panic) ∨ ∃ hi last, (ber.drop o = hi ++ (last :: ber.drop (o + hi.length + 1)) ∧
      (∀ x ∈ hi, 128 ≤ x.toNat) ∧ last.toNat < 128 ∧ tagLoop ber f o = .ok (o + hi.length) ∧ o + hi.length < ber.length)
  | f + 1, o, hf, _ => by
    rw [tagLoop]
    cases h0 : ber[o]? with
    | none => exact .inl rfl
    | some x =>
      obtain ⟨ho, hx0⟩ := List.getElem?_eq_some_iff.1 h0
      have hd : ber.drop o = x :: ber.drop (o + 1) := by rw [← hx0]; exact List.drop_eq_getElem_cons ho
      simp only
      split
      · rename_i h1
        rw [if_neg (by omega)]
        match f, hf with
        | 0, hf =>
          omega
        | f + 1, hf =>
          rcases tagLoop_cases ber (f + 1) (o + 1) (by omega) (by omega) with h2 | ⟨hi, last, q1, q2, q3, q4, q5⟩
          · exact .inl h2
          · refine .inr ⟨x :: hi, last, ?_, ?_, q3, ?_, ?_⟩
            · rw [hd, q1, List.length_cons]
              have : o + 1 + hi.length + 1 = o + (hi.length + 1) + 1 := by omega
              rw [this]; rfl
            · intro y hy
              rcases List.mem_cons.1 hy with rfl | hy
              · exact h1
              · exact q2 y hy
            · rw [q4, List.length_cons]; congr 1; omega
            · rw [List.length_cons]; omega
      · rename_i h1
        exact .inr ⟨[], x, by simpa using hd, by simp, by omega, rfl, by simpa using ho⟩

theorem tagEndOf_cases {ber : Bytes} {b : Byte} {o : Nat} (hb : ber[o]? = some b) :
    (tagEndOf ber b (o + 1) = .panic ∧ b &&& 0x1f#8 = 0x1f#8) ∨
      ∃ te, tagEndOf ber b (o + 1) = .ok te ∧ o + 1 ≤ te ∧ te ≤ ber.length ∧
        (ber.length ≤ te → b &&& 0x1f#8 = 0x1f#8 ∨ te = o + 1) ∧
        TagOctets (decide (b &&& 0x20#8 ≠ 0#8)) (sub ber o te) := by
  obtain ⟨ho, hx0⟩ := List.getElem?_eq_some_iff.1 hb
  have hd : ber.drop o = b :: ber.drop (o + 1) := by rw [← hx0]; exact List.drop_eq_getElem_cons ho
  rw [tagEndOf]
  split
  · rename_i h1
    rcases tagLoop_cases ber (ber.length + 1) (o + 1) (by omega) (by omega) with h2 | ⟨hi, last, q1, q2, q3, q4, q5⟩
    · rw [h2]; exact .inl ⟨rfl, h1⟩
    · rw [q4]
      simp only [Res.bind]
      rw [if_neg (by omega)]
      refine .inr ⟨_, rfl, by omega, by omega, fun _ => .inl h1, b, hi ++ [last], ?_, by simp, .inr ⟨h1, hi, last, rfl, q2, q3⟩⟩
      have e : ber.drop o = (b :: (hi ++ [last])) ++ ber.drop (o + 1 + hi.length + 1) := by rw [hd, q1]; simp
      have := sub_eq e
      simp only [List.length_cons, List.length_append, List.length_nil] at this
      rw [← this]
      congr 1
      omega
  · rename_i h1
    refine .inr ⟨_, rfl, by omega, by omega, fun _ => .inr rfl, b, [], ?_, by simp, .inl ⟨h1, rfl⟩⟩
    have e : ber.drop o = [b] ++ ber.drop (o + 1) := hd
    exact sub_eq e

theorem lenLoop_cases {ber : Bytes} : ∀ n o a, o + n ≤ ber.length → ∃ v, lenLoop ber n o a = .ok v
  | 0, _, a, _ => ⟨a, rfl⟩
  | n + 1, o, a, h => by
    rw [lenLoop, List.getElem?_eq_getElem (by omega)]
    exact lenLoop_cases n (o + 1) _ (by omega)

theorem gt_7f (l : Byte) (h : 0x80 < l.toNat) : 1 ≤ (l &&& 0x7f#8).toNat := by
  have : ∀ l : Fin 256, 0x80 < l.val → 1 ≤ (BitVec.ofFin (w := 8) l &&& 0x7f#8).toNat := by decide +kernel
  exact this l.toFin h

/-- the three outcomes of reading length octets -/
theorem readLen_cases (ber : Bytes) (te : Nat) :
    (readLen ber te = .panic ∧ ber.length ≤ te) ∨ readLen ber te = .err ∨
      ∃ o n i, readLen ber te = .ok (o, n, i) ∧ te + 1 ≤ o := by
  rw [readLen]
  cases h0 : ber[te]? with
  | none => exact .inl ⟨rfl, by simpa using h0⟩
  | some l =>
    simp only
    by_cases c1 : ber.length < te + 1
    · rw [if_pos c1]; exact .inr (.inl rfl)
    rw [if_neg c1]
    by_cases c2 : 0x80 < l.toNat
    · rw [if_pos c2]
      have := gt_7f l c2
      generalize (l &&& 0x7f#8).toNat = n at *
      by_cases c3 : 4 < n
      · rw [if_pos c3]; exact .inr (.inl rfl)
      rw [if_neg c3]
      by_cases c4 : ber.length < te + 1 + n
      · rw [if_pos c4]; exact .inr (.inl rfl)
      rw [if_neg c4, List.getElem?_eq_getElem (by omega)]
      simp only
      split
      · exact .inr (.inl rfl)
      · have hz : ∃ z, leadingZero ber (te + 1) n (ber[te + 1]'(by omega)) = .ok z := by
          rw [leadingZero]
          split
          · split
            · exact ⟨_, rfl⟩
            · rw [List.getElem?_eq_getElem (by omega)]; exact ⟨_, rfl⟩
          · exact ⟨_, rfl⟩
        obtain ⟨z, hz⟩ := hz
        rw [hz]
        simp only [Res.bind]
        split
        · exact .inr (.inl rfl)
        · obtain ⟨v, hv⟩ := lenLoop_cases (ber := ber) n (te + 1) 0 (by omega)
          rw [hv]
          exact .inr (.inr ⟨_, _, _, rfl, by omega⟩)
    · rw [if_neg c2]
      split
      · exact .inr (.inr ⟨_, _, _, rfl, by omega⟩)
      · exact .inr (.inr ⟨_, _, _, rfl, by omega⟩)

/-- an identifier with the five low bits set occurs -/
def LongTag (ber : Bytes) : Prop := ∃ b ∈ ber, b &&& 0x1f#8 = 0x1f#8

/-- the three outcomes of reading a header -/
theorem readHeader_cases (ber : Bytes) (o : Nat) :
    (readHeader ber o = .panic ∧ LongTag ber) ∨ readHeader ber o = .err ∨
      ∃ h, readHeader ber o = .ok h ∧ o + 2 ≤ h.offset ∧ h.offset + h.length ≤ ber.length ∧
        TagOctets h.constructed (sub ber o h.tagEnd) := by
  rw [readHeader]
  by_cases c1 : ber.length ≤ o
  · rw [if_pos c1]; exact .inr (.inl rfl)
  rw [if_neg c1]
  have h0 : ber[o]? = some (ber[o]'(by omega)) := List.getElem?_eq_getElem (by omega)
  have hmem : ber[o]'(by omega) ∈ ber := List.getElem_mem _
  generalize ber[o]'(by omega) = b at *
  rw [h0]
  simp only
  by_cases c2 : ber.length ≤ o + 1
  · rw [if_pos c2]; exact .inr (.inl rfl)
  rw [if_neg c2]
  rcases tagEndOf_cases h0 with ⟨h1, h2⟩ | ⟨te, h1, h2, h3, h4, h5⟩
  · rw [h1]; exact .inl ⟨rfl, b, hmem, h2⟩
  · rw [h1]
    simp only [Res.bind]
    rcases readLen_cases ber te with ⟨h6, h7⟩ | h6 | ⟨o', n, i, h6, h7⟩
    · rw [h6]
      rcases h4 h7 with h8 | h8
      · exact .inl ⟨rfl, b, hmem, h8⟩
      · omega
    · rw [h6]; exact .inr (.inl rfl)
    · rw [h6]
      simp only
      split
      · exact .inr (.inl rfl)
      · split
        · exact .inr (.inl rfl)
        · exact .inr (.inr ⟨_, rfl, by simp only; omega, by simp only; omega, h5⟩)

/-- the three outcomes of reading an object or the elements of one -/
theorem read_cases (ber : Bytes) : ∀ f : Nat,
    (∀ o, o ≤ ber.length → 2 * (ber.length - o) < f → (readObject f ber o = .panic ∧ LongTag ber) ∨ readObject f ber o = .err ∨
      ∃ t o', readObject f ber o = .ok (toObj t, o') ∧ Wf t ∧ o + 2 ≤ o' ∧ o' ≤ ber.length) ∧
    (∀ o ce i, o ≤ ber.length → 2 * (ber.length - o) + 1 < f → (readSubs f ber o ce i = .panic ∧ LongTag ber) ∨ readSubs f ber o ce i = .err ∨
      ∃ ts o', readSubs f ber o ce i = .ok (toObjs ts, o') ∧ (∀ t ∈ ts, Wf t) ∧ o ≤ o' ∧ o' ≤ ber.length ∧ (i = true → o' + 2 ≤ ber.length))
  | 0 => ⟨fun _ _ h => absurd h (by omega), fun _ _ _ _ h => absurd h (by omega)⟩
  | f + 1 => by
    obtain ⟨ih1, ih2⟩ := read_cases ber f
    constructor
    · intro o ho hf
      rw [readObject]
      rcases readHeader_cases ber o with ⟨h1, h2⟩ | h1 | ⟨h, h1, h2, h3, h4⟩
      · rw [h1]; exact .inl ⟨rfl, h2⟩
      · rw [h1]; exact .inr (.inl rfl)
      · rw [h1]
        simp only [Res.bind]
        split
        · rename_i hc
          refine .inr (.inr ⟨.prim (sub ber o h.tagEnd) (sub ber h.offset (h.offset + h.length)), _, ?_, .prim (hc ▸ h4), by omega, h3⟩)
          have : (sub ber h.offset (h.offset + h.length)).length = h.length := by simp [sub]; omega
          rw [toObj, this]
        · rename_i hc
          rcases ih2 h.offset (h.offset + h.length) h.indef (by omega) (by omega) with ⟨h5, h6⟩ | h5 | ⟨ts, o', h5, h6, h7, h8, h9⟩
          · rw [h5]; exact .inl ⟨rfl, h6⟩
          · rw [h5]; exact .inr (.inl rfl)
          · rw [h5]
            simp only
            have hct : h.constructed = true := by simpa using hc
            refine .inr (.inr ⟨.cons (sub ber o h.tagEnd) ts, _, rfl, .cons (hct ▸ h4) h6, ?_, ?_⟩)
            · split <;> omega
            · split
              · rename_i hi; exact h9 hi
              · exact h3
    · intro o ce i ho hf
      rw [readSubs]
      split
      · rcases ih1 o ho (by omega) with ⟨h5, h6⟩ | h5 | ⟨t, o', h5, h6, h7, h8⟩
        · rw [h5]; exact .inl ⟨rfl, h6⟩
        · rw [h5]; exact .inr (.inl rfl)
        · rw [h5]
          simp only [Res.bind]
          have hrec : (Res.bind (readSubs f ber o' ce i) (fun r => Res.ok (toObj t :: r.1, r.2)) = .panic ∧ LongTag ber) ∨
              Res.bind (readSubs f ber o' ce i) (fun r => Res.ok (toObj t :: r.1, r.2)) = .err ∨
              ∃ ts o'', Res.bind (readSubs f ber o' ce i) (fun r => Res.ok (toObj t :: r.1, r.2)) = .ok (toObjs ts, o'') ∧
                (∀ t ∈ ts, Wf t) ∧ o ≤ o'' ∧ o'' ≤ ber.length ∧ (i = true → o'' + 2 ≤ ber.length) := by
            rcases ih2 o' ce i h8 (by omega) with ⟨g5, g6⟩ | g5 | ⟨ts, o'', g5, g6, g7, g8, g9⟩
            · rw [g5]; exact .inl ⟨rfl, g6⟩
            · rw [g5]; exact .inr (.inl rfl)
            · rw [g5]
              refine .inr (.inr ⟨t :: ts, o'', rfl, ?_, by omega, g8, g9⟩)
              intro x hx1
              rcases List.mem_cons.1 hx1 with rfl | hx1
              · exact h6
              · exact g6 x hx1
          split
          · split
            · exact .inr (.inl rfl)
            · split
              · refine .inr (.inr ⟨[t], o', rfl, ?_, by omega, h8, fun _ => by omega⟩)
                intro x hx1
                rw [List.mem_singleton.1 hx1]; exact h6
              · exact hrec
          · exact hrec
      · rename_i hc
        refine .inr (.inr ⟨[], o, rfl, by simp, by omega, ho, ?_⟩)
        intro hi; exact absurd (.inr hi) hc

end Verif.Ber
