import Verif.Zuc.ZucProps
/-
C140, continued: round trips, 128-EEA3 over words, and the incremental `Zuc` object.
-/
namespace Verif.Zuc
open Verif.Cipher

/-- A second object with the same key words undoes a history when the data is cut in the same way. -/
theorem C140_roundtrip_partial {s t : St} {z : Nat → BitVec 32} (hs : Produces s z) (ht : Produces t z)
    (ins : List Bytes) (outs outs' : List Bytes) (s' t' : St)
    (h : Hist s (ins.map fun i => (List.replicate i.length 0, i)) outs s')
    (h' : Hist t (outs.map fun i => (List.replicate i.length 0, i)) outs' t') : outs' = ins := by
  have e1 := (hs _ _ _ h).1
  have e2 := (ht _ _ _ h').1
  rw [e2, e1]
  have key : ∀ (ins : List Bytes) (q : Nat), expected z q ((expected z q (ins.map fun i => (List.replicate i.length 0, i))).map
      fun i => (List.replicate i.length 0, i)) = ins := by
    intro ins
    induction ins with
    | nil => intro q; rfl
    | cons i r ih =>
      intro q
      have hd : ∀ x : Bytes, (List.replicate x.length (0 : Byte)).drop x.length = [] := by
        intro x; rw [List.drop_of_length_le (by simp)]
      have hl : (xorb i (Spec.keyBytes z q i.length)).length = i.length := by simp [Spec.keyBytes]
      simp only [List.map_cons, expected, hd, List.append_nil, hl, ih]
      rw [xorb_xorb_cancel_right _ _ (by simp [Spec.keyBytes])]
  exact key ins 0

example : ∃ s outs s' outs' t', newCipher (List.replicate 16 3) (List.replicate 16 4) = .ok s ∧
    Hist s (([[1, 2, 3], [4, 5, 6, 7, 8], []] : List Bytes).map fun i => (List.replicate i.length 0, i)) outs s' ∧
    Hist s (outs.map fun i => (List.replicate i.length 0, i)) outs' t' := by
  obtain ⟨s, e, hp⟩ := (C140_zuc128 (List.replicate 16 3) (List.replicate 16 4)).2 rfl rfl
  obtain ⟨outs, s', h⟩ := hist_exists hp (([[1, 2, 3], [4, 5, 6, 7, 8], []] : List Bytes).map fun i => (List.replicate i.length 0, i))
    (by simp)
  obtain ⟨outs', t', h'⟩ := hist_exists hp (outs.map fun i => (List.replicate i.length 0, i)) (by simp)
  exact ⟨s, outs, s', outs', t', e, h, h'⟩

/-! ### 128-EEA3 over words -/

/-- Word `i` of a slice. -/
def wd (l : List W) (i : Nat) : W := l.getD i 0

theorem mask_bit (x : W) (r j : Nat) (hr : r < 32) (hr0 : 0 < r) (hj : j < 32) :
    (x &&& (0xffffffff#32 <<< (32 - r))).getLsbD (31 - j) = (x.getLsbD (31 - j) && decide (j < r)) := by
  rw [BitVec.getLsbD_and, BitVec.getLsbD_shiftLeft]
  by_cases h : j < r
  · have e : (0xffffffff#32).getLsbD (31 - j - (32 - r)) = true := by
      have : ∀ k : Fin 32, (0xffffffff#32).getLsbD k = true := by decide
      exact this ⟨31 - j - (32 - r), by omega⟩
    have h1 : ¬ 31 - j < 32 - r := by omega
    have h2 : 31 - j < 32 := by omega
    rw [e]
    simp [h, h1, h2]
  · have h1 : 31 - j < 32 - r := by omega
    simp [h, h1]

theorem zip_get (z : Nat → W) (src : List W) (n i : Nat) (hs : n ≤ src.length) (hi : i < n) :
    (List.zipWith (· ^^^ ·) ((List.range n).map z) (src.take n)).getD i 0 = wd src i ^^^ z i := by
  rw [List.getD_eq_getElem?_getD, List.getElem?_eq_getElem (by simp; omega), List.getElem_zipWith]
  simp only [List.getElem_map, List.getElem_range, List.getElem_take, Option.getD_some, wd]
  rw [List.getD_eq_getElem?_getD, List.getElem?_eq_getElem (by omega), Option.getD_some, BitVec.xor_comm]

/-- The result of `EeaEncrypt`, from the key words. -/
theorem eea_words (inp out : List W) (nbits : Nat) (key : Bytes) (count bearer direction : W) (l : List W)
    (e : setEeaKey key count bearer direction = .ok (start l)) (hi : (nbits + 31) / 32 ≤ inp.length)
    (ho : (nbits + 31) / 32 ≤ out.length) (same : Bool) :
    ∃ o, eeaEncrypt inp out same nbits key count bearer direction = .ok o ∧ o.length = out.length ∧
      (∀ i, i < 32 * ((nbits + 31) / 32) → Spec.bitOf (wd o) i =
        (decide (i < nbits) && ((if same then Spec.bitOf (wordAt (start l)) i else Spec.bitOf (wd inp) i) ^^
          Spec.bitOf (wordAt (start l)) i))) ∧
      (∀ w, (nbits + 31) / 32 ≤ w → wd o w = wd out w) := by
  unfold eeaEncrypt
  rw [e]
  simp only [Res.bind]
  rw [if_neg (by omega)]
  have hk : (keywords ((nbits + 31) / 32) (start l)).1 = (List.range ((nbits + 31) / 32)).map (wordAt (start l)) := by
    have := keywords_spec (start l) ((nbits + 31) / 32) 0
    rw [show Strm.iterate workRound 0 (start l) = start l from rfl] at this
    rw [this]
    simp
  rw [hk]
  generalize wordAt (start l) = z
  generalize hn : (nbits + 31) / 32 = n at *
  -- the source words
  have hsrc : ∃ sw : List W, (if same = true then (List.range n).map z else inp.take n) = sw.take n ∧ n ≤ sw.length ∧
      ∀ i, i < n → wd sw i = if same then z i else wd inp i := by
    cases same
    · exact ⟨inp, rfl, hi, fun i _ => rfl⟩
    · refine ⟨(List.range n).map z, ?_, by simp, fun i h => ?_⟩
      · rw [if_pos rfl, List.take_of_length_le (by simp)]
      · unfold wd
        rw [List.getD_eq_getElem?_getD, List.getElem?_map, List.getElem?_range h]
        rfl
  obtain ⟨sw, es, hsl, hsw⟩ := hsrc
  rw [es]
  have hg := fun i (h : i < n) => zip_get z sw n i hsl h
  have hzl : (List.zipWith (· ^^^ ·) ((List.range n).map z) (sw.take n)).length = n := by simp; omega
  generalize List.zipWith (· ^^^ ·) ((List.range n).map z) (sw.take n) = o at *
  refine ⟨_, rfl, ?_, ?_, ?_⟩
  · have : (if nbits % 32 ≠ 0 then o.set (n - 1) (at' o (n - 1) &&& 0xffffffff#32 <<< (32 - nbits % 32)) else o).length = n := by
      split <;> simp [hzl]
    rw [List.length_append, List.length_drop]
    erw [this]
    omega
  · intro i hi'
    have hin : i / 32 < n := by omega
    have hm : i % 32 < 32 := Nat.mod_lt _ (by omega)
    unfold Spec.bitOf wd
    have key : ∀ (o' : List W), o'.length = n → ((o' ++ out.drop n).getD (i / 32) 0) = o'.getD (i / 32) 0 := by
      intro o' ho'
      rw [List.getD_eq_getElem?_getD, List.getElem?_append_left (by omega), List.getD_eq_getElem?_getD]
    have fin : ∀ b, (if same = true then (z (i / 32)).getLsbD b else (inp.getD (i / 32) 0).getLsbD b) =
        (wd sw (i / 32)).getLsbD b := by
      intro b
      rw [hsw _ hin]
      cases same <;> rfl
    by_cases hr : nbits % 32 ≠ 0
    · rw [if_pos hr, key _ (by simp [hzl])]
      by_cases hl : i / 32 = n - 1
      · have e2 : (o.set (n - 1) (at' o (n - 1) &&& 4294967295 <<< (32 - nbits % 32))).getD (i / 32) 0 =
            at' o (n - 1) &&& 0xffffffff#32 <<< (32 - nbits % 32) := by
          rw [List.getD_eq_getElem?_getD, hl, List.getElem?_set_self (by omega)]
          rfl
        rw [e2, mask_bit _ _ _ (Nat.mod_lt _ (by omega)) (by omega) hm]
        have e3 : at' o (n - 1) = wd sw (i / 32) ^^^ z (i / 32) := by rw [← hg _ hin, hl]; rfl
        rw [e3, BitVec.getLsbD_xor, fin, Bool.and_comm]
        congr 1
        have : i % 32 < nbits % 32 ↔ i < nbits := by omega
        simp only [this]
      · have e2 : (o.set (n - 1) (at' o (n - 1) &&& 4294967295 <<< (32 - nbits % 32))).getD (i / 32) 0 = o.getD (i / 32) 0 := by
          rw [List.getD_eq_getElem?_getD, List.getElem?_set_ne (by omega), List.getD_eq_getElem?_getD]
        rw [e2, hg _ hin, BitVec.getLsbD_xor, fin]
        have : i < nbits := by omega
        simp [this]
    · rw [if_neg hr, key _ hzl, hg _ hin, BitVec.getLsbD_xor, fin]
      have : i < nbits := by omega
      simp [this]
  · intro w hw
    unfold wd
    have key : ∀ (o' : List W), o'.length = n → ((o' ++ out.drop n).getD w 0) = out.getD w 0 := by
      intro o' ho'
      rw [List.getD_eq_getElem?_getD, List.getElem?_append_right (by omega), List.getElem?_drop, List.getD_eq_getElem?_getD, ho',
        show n + (w - n) = w by omega]
    by_cases hr : nbits % 32 ≠ 0
    · rw [if_pos hr, key _ (by simp [hzl])]
    · rw [if_neg hr, key _ hzl]

/-- `EeaEncrypt` with separate slices is 128-EEA3 for every bit length: each of the first `nbits` bits is XORed with
the key stream bit, the rest of the last word is cleared, and the words of `out` after it are unchanged. -/
theorem C140_eea3 (inp out : List W) (nbits : Nat) (key : Bytes) (count bearer direction : W) (hk : key.length = 16)
    (hb : bearer.toNat < 32) (hd : direction.toNat < 2) (hi : (nbits + 31) / 32 ≤ inp.length)
    (ho : (nbits + 31) / 32 ≤ out.length) :
    ∃ o, eeaEncrypt inp out false nbits key count bearer direction = .ok o ∧ o.length = out.length ∧
      (∀ i, i < 32 * ((nbits + 31) / 32) → Spec.bitOf (wd o) i = (decide (i < nbits) && (Spec.bitOf (wd inp) i ^^
        Spec.bitOf (Spec.word (Spec.load128 key (Spec.eea3IV count.toNat bearer.toNat direction.toNat))) i))) ∧
      (∀ w, (nbits + 31) / 32 ≤ w → wd o w = wd out w) := by
  obtain ⟨l, e, hl⟩ := setEeaKey_ok key count bearer direction hk hb hd
  have : Spec.word (Spec.load128 key (Spec.eea3IV count.toNat bearer.toNat direction.toNat)) = wordAt (start l) := by
    funext i; exact (start_word hl i).symm
  rw [this]
  exact eea_words inp out nbits key count bearer direction l e hi ho false

/-- Decrypting is encrypting again, up to the bits after the message. -/
theorem C140_eea3_roundtrip (inp out out' : List W) (nbits : Nat) (key : Bytes) (count bearer direction : W) (hk : key.length = 16)
    (hb : bearer.toNat < 32) (hd : direction.toNat < 2) (hi : (nbits + 31) / 32 ≤ inp.length)
    (ho : (nbits + 31) / 32 ≤ out.length) (ho' : (nbits + 31) / 32 ≤ out'.length) :
    ∃ c p, eeaEncrypt inp out false nbits key count bearer direction = .ok c ∧
      eeaEncrypt c out' false nbits key count bearer direction = .ok p ∧
      ∀ i, i < 32 * ((nbits + 31) / 32) → Spec.bitOf (wd p) i = (decide (i < nbits) && Spec.bitOf (wd inp) i) := by
  obtain ⟨c, e1, l1, f1, _⟩ := C140_eea3 inp out nbits key count bearer direction hk hb hd hi ho
  obtain ⟨p, e2, _, f2, _⟩ := C140_eea3 c out' nbits key count bearer direction hk hb hd (by omega) ho'
  refine ⟨c, p, e1, e2, fun i h => ?_⟩
  rw [f2 i h, f1 i h]
  generalize Spec.bitOf (wd inp) i = a
  generalize Spec.bitOf (Spec.word _) i = b
  cases a <;> cases b <;> cases decide (i < nbits) <;> rfl

example : ∃ c p, eeaEncrypt [0x12345678, 0x9abcdef0] [0, 0] false 37 (List.replicate 16 9) 5 3 1 = .ok c ∧
    eeaEncrypt c [1, 2, 3] false 37 (List.replicate 16 9) 5 3 1 = .ok p ∧ True := by
  obtain ⟨c, p, h1, h2, _⟩ := C140_eea3_roundtrip [0x12345678, 0x9abcdef0] [0, 0] [1, 2, 3] 37 (List.replicate 16 9) 5 3 1
    rfl (by decide) (by decide) (by decide) (by decide) (by decide)
  exact ⟨c, p, h1, h2, trivial⟩

/-- In place (`in` and `out` the same slice) `EeaEncrypt` destroys the message: whatever the message, key and count, every
bit of the words it covers becomes 0. -/
theorem C140_eea3_in_place_violated (inp : List W) (nbits : Nat) (key : Bytes) (count bearer direction : W) (hk : key.length = 16)
    (hb : bearer.toNat < 32) (hd : direction.toNat < 2) (hi : (nbits + 31) / 32 ≤ inp.length) :
    ∃ o, eeaEncrypt inp inp true nbits key count bearer direction = .ok o ∧ o.length = inp.length ∧
      (∀ i, i < 32 * ((nbits + 31) / 32) → Spec.bitOf (wd o) i = false) := by
  obtain ⟨l, e, hl⟩ := setEeaKey_ok key count bearer direction hk hb hd
  obtain ⟨o, h1, h2, h3, _⟩ := eea_words inp inp nbits key count bearer direction l e hi hi true
  exact ⟨o, h1, h2, fun i h => by rw [h3 i h]; simp⟩

example : ∃ o, eeaEncrypt [0x12345678, 0x9abcdef0] [0x12345678, 0x9abcdef0] true 64 (List.replicate 16 9) 5 3 1 = .ok o ∧ o.length = 2 := by
  obtain ⟨o, h1, h2, _⟩ := C140_eea3_in_place_violated [0x12345678, 0x9abcdef0] 64 (List.replicate 16 9) 5 3 1
    rfl (by decide) (by decide) (by decide)
  exact ⟨o, h1, h2⟩

/-- A slice too short for the bit length panics. -/
theorem C140_eea3_short (inp out : List W) (same : Bool) (nbits : Nat) (key : Bytes) (count bearer direction : W)
    (h : inp.length < (nbits + 31) / 32 ∨ out.length < (nbits + 31) / 32) :
    eeaEncrypt inp out same nbits key count bearer direction = .panic := by
  unfold eeaEncrypt setEeaKey init
  by_cases hk : key.length < 16 ∨ (eeaIV count bearer direction).length < 16
  · rw [if_pos hk]; rfl
  · rw [if_neg hk]
    simp only [Res.bind]
    rw [if_pos (by omega)]

/-! ### The incremental object -/

/-- A history of successful `Write(in, out)` calls: input, the bytes of `out` the whole words of data so far fill, and
the object after it. -/
inductive Writes : Obj → List Bytes → List Bytes → Obj → Prop
  | nil (z) : Writes z [] [] z
  | cons {z z1 z2 inp out out' ins outs} : objWrite z inp out = .ok (out', z1) → Writes z1 ins outs z2 →
      Writes z (inp :: ins) (out'.take (4 * ((z.pend.length + inp.length) / 4)) :: outs) z2

theorem objRest_spec (s : St) (q : Nat) (done inp out : Bytes) : objRest (Strm.iterate workRound q s) done inp out =
    if 4 * (inp.length / 4) ≤ out.length then
      .ok (done ++ xorb (inp.take (4 * (inp.length / 4))) (Spec.keyBytes (wordAt s) q (4 * (inp.length / 4))) ++
        out.drop (4 * (inp.length / 4)), ⟨Strm.iterate workRound (q + inp.length / 4) s, inp.drop (4 * (inp.length / 4))⟩)
    else .panic := by
  unfold objRest
  by_cases h : 4 ≤ inp.length
  · rw [if_pos h]
    simp only []
    rw [encrypt_spec, show inp.length / 4 * 4 = 4 * (inp.length / 4) by omega]
    have hl : (inp.take (4 * (inp.length / 4))).length = 4 * (inp.length / 4) := by
      rw [List.length_take]; omega
    rw [hl]
    by_cases h2 : 4 * (inp.length / 4) ≤ out.length
    · rw [if_pos h2, if_pos h2]
      simp only [Res.bind]
      rw [show (4 * (inp.length / 4) + 3) / 4 = inp.length / 4 by omega, List.append_assoc]
    · rw [if_neg h2, if_neg h2]; rfl
  · have e : inp.length / 4 = 0 := by omega
    rw [if_neg h, e, if_pos (by omega)]
    simp [xorb]

theorem objWrite_spec (s : St) (q : Nat) (pend inp out : Bytes) (hlt : pend.length < 4) :
    objWrite ⟨Strm.iterate workRound q s, pend⟩ inp out =
      if 4 * ((pend ++ inp).length / 4) ≤ out.length then
        .ok (xorb ((pend ++ inp).take (4 * ((pend ++ inp).length / 4))) (Spec.keyBytes (wordAt s) q (4 * ((pend ++ inp).length / 4))) ++
          out.drop (4 * ((pend ++ inp).length / 4)),
          ⟨Strm.iterate workRound (q + (pend ++ inp).length / 4) s, (pend ++ inp).drop (4 * ((pend ++ inp).length / 4))⟩)
      else .panic := by
  unfold objWrite
  simp only []
  rw [if_neg (by omega)]
  have hT : (pend ++ inp).length = pend.length + inp.length := List.length_append
  by_cases h0 : 0 < pend.length
  · rw [if_pos h0]
    by_cases h1 : inp.length < 4 - pend.length
    · have e0 : (pend ++ inp).length / 4 = 0 := by omega
      rw [if_pos h1, e0, if_pos (by omega)]
      simp [xorb]
    · rw [if_neg h1, encrypt_spec]
      have hb : (pend ++ inp.take (4 - pend.length)).length = 4 := by
        rw [List.length_append, List.length_take]; omega
      have e : pend ++ inp = (pend ++ inp.take (4 - pend.length)) ++ inp.drop (4 - pend.length) := by
        rw [List.append_assoc, List.take_append_drop]
      rw [e]
      generalize pend ++ inp.take (4 - pend.length) = blk at *
      generalize inp.drop (4 - pend.length) = rest at *
      have hq : (blk ++ rest).length / 4 = 1 + rest.length / 4 := by rw [List.length_append]; omega
      rw [hq]
      by_cases h4 : blk.length ≤ out.length
      · rw [if_pos h4]
        simp only [Res.bind]
        have hx : (xorb blk (ksFrom (wordAt s) q blk.length)).length = 4 := by
          simp [Spec.keyBytes]; omega
        generalize hX : xorb blk (ksFrom (wordAt s) q blk.length) = X at *
        have e1 : (X ++ out.drop blk.length).take 4 = X := by
          rw [List.take_append, hx, List.take_of_length_le (by omega)]; simp
        have e2 : (X ++ out.drop blk.length).drop 4 = out.drop 4 := by
          rw [List.drop_append, hx, List.drop_of_length_le (by omega), hb]; simp
        rw [e1, e2, show q + (blk.length + 3) / 4 = q + 1 by omega, objRest_spec, List.length_drop]
        have hc : 4 * (rest.length / 4) ≤ out.length - 4 ↔ 4 * (1 + rest.length / 4) ≤ out.length := by omega
        simp only [hc]
        by_cases hl : 4 * (1 + rest.length / 4) ≤ out.length
        · rw [if_pos hl, if_pos hl]
          have t1 : (blk ++ rest).take (4 * (1 + rest.length / 4)) = blk ++ rest.take (4 * (rest.length / 4)) := by
            rw [List.take_append, List.take_of_length_le (by omega), show 4 * (1 + rest.length / 4) - blk.length = 4 * (rest.length / 4) by omega]
          have t2 : (blk ++ rest).drop (4 * (1 + rest.length / 4)) = rest.drop (4 * (rest.length / 4)) := by
            rw [List.drop_append, List.drop_of_length_le (by omega), show 4 * (1 + rest.length / 4) - blk.length = 4 * (rest.length / 4) by omega,
              List.nil_append]
          rw [t1, t2, show 4 * (1 + rest.length / 4) = 4 + 4 * (rest.length / 4) by omega, keyBytes_split _ _ 4 _ (by omega),
            xorb_append _ _ _ _ (by rw [hb]; simp [Spec.keyBytes]), List.drop_drop, show q + 1 + rest.length / 4 = q + (1 + rest.length / 4) by omega,
            show 4 / 4 = 1 from rfl, ← hX, hb]
        · rw [if_neg hl, if_neg hl]
      · rw [if_neg h4, if_neg (by omega)]
        rfl
  · have hp0 : pend = [] := List.length_eq_zero_iff.1 (by omega)
    subst hp0
    rw [if_neg h0, objRest_spec]
    simp

theorem fin_writes (s : St) (z : Nat → W) (q m : Nat) (a r : Bytes) (ha : a.length = 4 * m) :
    xorb a (Spec.keyBytes z q (4 * m)) ++ xorb (r.take (4 * (r.length / 4))) (Spec.keyBytes z (q + m) (4 * (r.length / 4))) =
      xorb ((a ++ r).take (4 * (m + r.length / 4))) (Spec.keyBytes z q (4 * (m + r.length / 4))) ∧
    (⟨Strm.iterate workRound (q + m + r.length / 4) s, r.drop (4 * (r.length / 4))⟩ : Obj) =
      ⟨Strm.iterate workRound (q + (m + r.length / 4)) s, (a ++ r).drop (4 * (m + r.length / 4))⟩ := by
  have e : 4 * (m + r.length / 4) - a.length = 4 * (r.length / 4) := by omega
  refine ⟨?_, ?_⟩
  · have t : a.take (4 * (m + r.length / 4)) = a := List.take_of_length_le (by omega)
    rw [List.take_append, e, t, show 4 * (m + r.length / 4) = 4 * m + 4 * (r.length / 4) by omega,
      keyBytes_split _ _ (4 * m) _ (by omega), xorb_append _ _ _ _ (by rw [ha]; simp [Spec.keyBytes]), show 4 * m / 4 = m by omega]
  · rw [List.drop_append, List.drop_of_length_le (show a.length ≤ _ by omega), e, List.nil_append, Nat.add_assoc]

theorem writes_spec (s : St) : ∀ {z ins outs z'}, Writes z ins outs z' → ∀ q, z.s = Strm.iterate workRound q s → z.pend.length < 4 →
    outs.flatten = xorb ((z.pend ++ ins.flatten).take (4 * ((z.pend ++ ins.flatten).length / 4)))
      (Spec.keyBytes (wordAt s) q (4 * ((z.pend ++ ins.flatten).length / 4))) ∧
    z' = ⟨Strm.iterate workRound (q + (z.pend ++ ins.flatten).length / 4) s,
      (z.pend ++ ins.flatten).drop (4 * ((z.pend ++ ins.flatten).length / 4))⟩ := by
  intro z ins outs z' h
  induction h with
  | nil z =>
    intro q hs hp
    have e0 : (z.pend ++ ([] : List Bytes).flatten).length / 4 = 0 := by simp; omega
    rw [e0]
    refine ⟨by simp [xorb], ?_⟩
    cases z
    simp at hs ⊢
    exact hs
  | @cons z z1 z2 inp out out' ins outs he _ ih =>
    intro q hs hp
    obtain ⟨zs, pend⟩ := z
    simp only at hs hp
    subst hs
    rw [objWrite_spec s q pend inp out hp] at he
    have hT : pend.length + inp.length = (pend ++ inp).length := by rw [List.length_append]
    simp only [hT, List.flatten_cons]
    rw [← List.append_assoc]
    generalize pend ++ inp = d at *
    by_cases hl : 4 * (d.length / 4) ≤ out.length
    · rw [if_pos hl] at he
      obtain ⟨rfl, rfl⟩ := Prod.mk.inj (Res.ok.inj he)
      obtain ⟨f1, f2⟩ := ih (q + d.length / 4) rfl (by rw [List.length_drop]; omega)
      simp only at f1 f2
      have hxl : (xorb (d.take (4 * (d.length / 4))) (Spec.keyBytes (wordAt s) q (4 * (d.length / 4)))).length = 4 * (d.length / 4) := by
        simp [Spec.keyBytes]; omega
      have hq : (d ++ ins.flatten).length / 4 = d.length / 4 + (d.drop (4 * (d.length / 4)) ++ ins.flatten).length / 4 := by
        rw [List.length_append, List.length_append, List.length_drop]; omega
      have hsp : d ++ ins.flatten = d.take (4 * (d.length / 4)) ++ (d.drop (4 * (d.length / 4)) ++ ins.flatten) := by
        rw [← List.append_assoc, List.take_append_drop]
      have hdl : (d.take (4 * (d.length / 4))).length = 4 * (d.length / 4) := by rw [List.length_take]; omega
      rw [hq, f1, f2, hsp, List.take_append, hxl, List.take_of_length_le (by omega), Nat.sub_self, List.take_zero, List.append_nil]
      exact fin_writes _ _ _ _ _ _ hdl
    · rw [if_neg hl] at he
      exact absurd he (by simp)

theorem newZuc_ok (key iv : Bytes) (hk : key.length = 16) (hv : iv.length = 16) :
    ∃ l, newZuc key iv = .ok ⟨start l, []⟩ ∧ Spec.word (Spec.load128 key iv) = wordAt (start l) := by
  refine ⟨_, ?_, (funext fun i => (start_word (load128_rel key iv) i).symm)⟩
  unfold newZuc newState init
  rw [if_neg (by omega), if_neg (by omega), if_neg (by omega)]
  rfl

theorem fin_sum (z : Nat → W) (d : Bytes) :
    xorb (d.take (4 * (d.length / 4))) (Spec.keyBytes z 0 (4 * (d.length / 4))) ++ ([] ++
      (xorb (d.drop (4 * (d.length / 4))) (Spec.keyBytes z (d.length / 4) (d.drop (4 * (d.length / 4))).length) ++ [])) =
      xorb d (Spec.keyBytes z 0 d.length) := by
  have e1 : d.length = 4 * (d.length / 4) + (d.drop (4 * (d.length / 4))).length := by rw [List.length_drop]; omega
  have e2 : Spec.keyBytes z 0 d.length = Spec.keyBytes z 0 (4 * (d.length / 4)) ++
      Spec.keyBytes z (d.length / 4) (d.drop (4 * (d.length / 4))).length := by
    conv => lhs; rw [e1]
    rw [keyBytes_split _ _ _ _ (by omega), Nat.zero_add, show 4 * (d.length / 4) / 4 = d.length / 4 by omega]
  rw [e2, List.nil_append, List.append_nil]
  conv => rhs; rw [← List.take_append_drop (4 * (d.length / 4)) d]
  rw [List.take_append_drop]
  generalize hk : Spec.keyBytes z (d.length / 4) (d.drop (4 * (d.length / 4))).length = k2
  rw [← xorb_append _ _ _ _ (by simp [Spec.keyBytes]; omega), List.take_append_drop]

/-- `NewZuc` objects: however the message is cut into `Write` calls (each with an `out` long enough for the whole words
of data available), the bytes written, followed by `Sum(nil)`, are the message XOR the ZUC key stream. -/
theorem C140_object (key iv : Bytes) (hk : key.length = 16) (hv : iv.length = 16) :
    ∃ z, newZuc key iv = .ok z ∧ ∀ ins outs z', Writes z ins outs z' →
      ∃ tail z'', objSum z' [] = .ok (tail, z'') ∧
        outs.flatten ++ tail = xorb ins.flatten (Spec.keyBytes (Spec.word (Spec.load128 key iv)) 0 ins.flatten.length) := by
  obtain ⟨l, e, hw⟩ := newZuc_ok key iv hk hv
  rw [hw]
  refine ⟨_, e, fun ins outs z' h => ?_⟩
  obtain ⟨h1, h2⟩ := writes_spec (start l) h 0 rfl (by simp)
  simp only [List.nil_append, Nat.zero_add] at h1 h2
  subst h2
  generalize ins.flatten = d at *
  unfold objSum
  have hl : (d.drop (4 * (d.length / 4))).length < 4 := by rw [List.length_drop]; omega
  rw [if_neg (by simp only []; omega)]
  simp only []
  rw [encrypt_spec, if_pos (by simp)]
  refine ⟨_, _, rfl, ?_⟩
  have hz : ∀ x : Bytes, (List.replicate x.length (0 : Byte)).drop x.length = [] := by
    intro x; rw [List.drop_of_length_le (by simp)]
  rw [hz, h1]
  exact fin_sum _ d

/-- `Write` succeeds exactly when `out` has room for the whole words of data available. -/
theorem C140_object_room (key iv : Bytes) (hk : key.length = 16) (hv : iv.length = 16) :
    ∃ z, newZuc key iv = .ok z ∧ ∀ ins outs z', Writes z ins outs z' → ∀ inp out,
      (objWrite z' inp out = .panic ↔ out.length < 4 * ((ins.flatten.length % 4 + inp.length) / 4)) ∧
      (4 * ((ins.flatten.length % 4 + inp.length) / 4) ≤ out.length → ∃ r, objWrite z' inp out = .ok r) := by
  obtain ⟨l, e, hw⟩ := newZuc_ok key iv hk hv
  refine ⟨_, e, fun ins outs z' h inp out => ?_⟩
  obtain ⟨h1, h2⟩ := writes_spec (start l) h 0 rfl (by simp)
  simp only [List.nil_append, Nat.zero_add] at h1 h2
  subst h2
  generalize ins.flatten = d at *
  have hl : (d.drop (4 * (d.length / 4))).length = d.length % 4 := by rw [List.length_drop]; omega
  rw [objWrite_spec _ _ _ _ _ (by omega), List.length_append, hl]
  by_cases hc : 4 * ((d.length % 4 + inp.length) / 4) ≤ out.length
  · rw [if_pos hc]
    exact ⟨⟨fun h => absurd h (by simp), fun h => by omega⟩, fun _ => ⟨_, rfl⟩⟩
  · rw [if_neg hc]
    exact ⟨⟨fun _ => by omega, fun _ => rfl⟩, fun h => absurd h hc⟩

/-- Non-vacuity: a message of six bytes in three writes. -/
example : ∃ z outs z', newZuc (List.replicate 16 1) (List.replicate 16 2) = .ok z ∧
    Writes z [[1, 2, 3], [4], [5, 6]] outs z' := by
  obtain ⟨z, e, h⟩ := C140_object_room (List.replicate 16 1) (List.replicate 16 2) rfl rfl
  obtain ⟨r1, e1⟩ := (h [] [] z (.nil z) [1, 2, 3] []).2 (by decide)
  have w1 : Writes z [[1, 2, 3]] _ r1.2 := .cons e1 (.nil _)
  obtain ⟨r2, e2⟩ := (h _ _ _ w1 [4] [0, 0, 0, 0]).2 (by decide)
  have w2 : Writes z [[1, 2, 3], [4]] _ r2.2 := .cons e1 (.cons e2 (.nil _))
  obtain ⟨r3, e3⟩ := (h _ _ _ w2 [5, 6] []).2 (by decide)
  exact ⟨z, _, _, e, .cons e1 (.cons e2 (.cons e3 (.nil _)))⟩

end Verif.Zuc
