import Verif.Pub.Big
/-
The part of Go's `encoding/asn1` that the packages of /repo use on signatures and ciphertexts: elements with one-byte
tags, INTEGER as `*big.Int`, OCTET STRING as `[]byte`, and structs of these.  The library is not part of /repo; this is written
from its source (Go 1.2x, `encoding/asn1/asn1.go`: `parseTagAndLength`, `checkInteger`, `parseBigInt`, `parseField`;
`marshal.go`: `appendLength`, `makeBigInt`).

Used by gm/sm2/marshal.go, pubkey/dsa/dsa.go and others.
-/
namespace Verif.Asn1
open Verif.Cipher Verif.Kdf Verif.Pub

/-- `parseTagAndLength`: the loop over the bytes of a long length. -/
def lenLoop : Nat → Nat → Bytes → Option (Nat × Bytes)
  | 0, l, b => some (l, b)
  | _ + 1, _, [] => none
  | n + 1, l, b :: r => if l ≥ 2 ^ 23 then none else if l * 256 + b.toNat = 0 then none else lenLoop n (l * 256 + b.toNat) r

/-- `parseTagAndLength`: the length; the indefinite form and lengths that could be written shorter are refused. -/
def parseLen : Bytes → Option (Nat × Bytes)
  | [] => none
  | b :: r =>
    if b.toNat < 128 then some (b.toNat, r) else
    if b.toNat - 128 = 0 then none else
    match lenLoop (b.toNat - 128) 0 r with
    | none => none
    | some (l, r') => if l < 128 then none else some (l, r')

/-- One element with the given first byte (class, constructed bit and tag): its content and what follows it. -/
def element (tag : Byte) : Bytes → Option (Bytes × Bytes)
  | [] => none
  | t :: r =>
    if t ≠ tag then none else
    match parseLen r with
    | none => none
    | some (l, r') => if r'.length < l then none else some (r'.take l, r'.drop l)

/-- `parseBigInt` with `checkInteger`. -/
def parseInt : Bytes → Option Int
  | [] => none
  | [b] => some b.toInt
  | b0 :: b1 :: r =>
    if (b0 = 0#8 ∧ b1.toNat < 128) ∨ (b0 = 255#8 ∧ 128 ≤ b1.toNat) then none else
    if 128 ≤ b0.toNat then some ((setBytes (b0 :: b1 :: r) : Int) - 256 ^ (r.length + 2)) else some (setBytes (b0 :: b1 :: r))

/-- A field of type `*big.Int`. -/
def intField (b : Bytes) : Option (Int × Bytes) :=
  match element 0x02#8 b with
  | none => none
  | some (c, r) => match parseInt c with
    | none => none
    | some v => some (v, r)

/-- A field of type `[]byte`. -/
def octField (b : Bytes) : Option (Bytes × Bytes) := element 0x04#8 b

/-- `appendLength` and the header: an element in the definite form. -/
def encLen (n : Nat) : Bytes := if n < 128 then [BitVec.ofNat 8 n] else BitVec.ofNat 8 (128 + byteLen n) :: hx (byteLen n) n

def tlv (tag : Byte) (c : Bytes) : Bytes := tag :: (encLen c.length ++ c)

/-- `makeBigInt` for a number that is not negative. -/
def intBytes (v : Nat) : Bytes :=
  match natBytes v with
  | [] => [0#8]
  | b :: r => if 128 ≤ b.toNat then 0#8 :: b :: r else b :: r

def encInt (v : Nat) : Bytes := tlv 0x02#8 (intBytes v)
def encOct (c : Bytes) : Bytes := tlv 0x04#8 c
def encSeq (c : Bytes) : Bytes := tlv 0x30#8 c

/-! ### Lemmas -/

theorem lenLoop_hx : ∀ (n : Nat) (m v l : Nat) (r : Bytes), v < 256 ^ n → 0 < l ∨ 256 ^ (n - 1) ≤ v → l * 256 ^ n + v < 2 ^ 31 →
    lenLoop n l (hx n v ++ r) = some (l * 256 ^ n + v, r) := by
  intro n
  induction n with
  | zero =>
    intro _ v l r hv _ _
    have h0 : v = 0 := by simpa using hv
    subst h0
    rw [lenLoop, pow_zero, Nat.mul_one, Nat.add_zero]
    rfl
  | succ n ih =>
    intro m v l r hv h0 hl
    have hlow : v % 256 ^ n < 256 ^ n := Nat.mod_lt _ (Nat.pow_pos (by decide))
    have hdm : v / 256 ^ n * 256 ^ n + v % 256 ^ n = v := Nat.div_add_mod' v _
    have htop : v / 256 ^ n < 256 := by rw [Nat.div_lt_iff_lt_mul (Nat.pow_pos (by decide))]; rw [pow_succ] at hv; omega
    have hs : hx (n + 1) v = BitVec.ofNat 8 (v / 256 ^ n) :: hx n (v % 256 ^ n) := by
      have h1 : setBytes (BitVec.ofNat 8 (v / 256 ^ n) :: hx n (v % 256 ^ n)) = v := by
        have := setBytes_append [BitVec.ofNat 8 (v / 256 ^ n)] (hx n (v % 256 ^ n))
        rw [List.singleton_append] at this
        rw [this, setBytes_hx _ _ hlow, hx_length]
        have : setBytes [BitVec.ofNat 8 (v / 256 ^ n)] = v / 256 ^ n := by
          simp only [setBytes, Kb.beN, List.reverse_singleton, leN, BitVec.toNat_ofNat, Nat.mul_zero, Nat.add_zero]
          exact Nat.mod_eq_of_lt htop
        rw [this, hdm]
      have h2 := hx_setBytes (BitVec.ofNat 8 (v / 256 ^ n) :: hx n (v % 256 ^ n))
      rw [h1] at h2
      simpa [hx_length] using h2
    have hle : (l * 256 + v / 256 ^ n) * 256 ^ n + v % 256 ^ n = l * 256 ^ (n + 1) + v := by
      rw [pow_succ]
      generalize 256 ^ n = q at *
      calc _ = l * 256 * q + (v / q * q + v % q) := by ring
        _ = _ := by rw [hdm]; ring
    rw [hs, List.cons_append, lenLoop, BitVec.toNat_ofNat, Nat.mod_eq_of_lt htop]
    have hl23 : ¬ l ≥ 2 ^ 23 := by
      intro h
      have : l * 256 ≤ l * 256 ^ (n + 1) := Nat.mul_le_mul_left _ (by rw [pow_succ]; exact Nat.le_mul_of_pos_left _ (Nat.pow_pos (by decide)))
      omega
    have hnz : 0 < l * 256 + v / 256 ^ n := by
      rcases h0 with h0 | h0
      · exact Nat.add_pos_left (Nat.mul_pos h0 (by decide)) _
      · exact Nat.add_pos_right _ (Nat.div_pos (by simpa using h0) (Nat.pow_pos (by decide)))
    rw [if_neg hl23, if_neg (Nat.pos_iff_ne_zero.1 hnz), ih m _ _ _ hlow (.inl hnz) (by rw [hle]; exact hl), hle]

theorem pow_byteLen_le {n : Nat} (h : 0 < n) : 256 ^ (byteLen n - 1) ≤ n := by
  by_contra hc
  have := (byteLen_le (v := n) (k := byteLen n - 1)).2 (by omega)
  have hp := byteLen_pos h
  omega

theorem byteLen_le4 {n : Nat} (h : n < 2 ^ 31) : byteLen n ≤ 4 := byteLen_le.2 (by omega)

theorem parseLen_encLen (n : Nat) (h : n < 2 ^ 31) (r : Bytes) : parseLen (encLen n ++ r) = some (n, r) := by
  rw [encLen]
  by_cases hn : n < 128
  · rw [if_pos hn, List.singleton_append, parseLen, BitVec.toNat_ofNat, Nat.mod_eq_of_lt (by omega), if_pos hn]
  · rw [if_neg hn, List.cons_append, parseLen]
    have h4 := byteLen_le4 h
    have h1 : 0 < byteLen n := byteLen_pos (by omega)
    rw [BitVec.toNat_ofNat, Nat.mod_eq_of_lt (by omega), if_neg (by omega), if_neg (by omega),
      show 128 + byteLen n - 128 = byteLen n by omega, lenLoop_hx (byteLen n) 0 n 0 r (lt_pow_byteLen n) (.inr (pow_byteLen_le (by omega))) (by omega)]
    simp only [Nat.zero_mul, Nat.zero_add]
    rw [if_neg hn]

theorem element_tlv (tag : Byte) (c r : Bytes) (h : c.length < 2 ^ 31) : element tag (tlv tag c ++ r) = some (c, r) := by
  rw [tlv, List.cons_append, element, if_neg (fun h => h rfl), List.append_assoc, parseLen_encLen _ h]
  simp

theorem lenLoop_some : ∀ (n l : Nat) (b : Bytes) (L : Nat) (r : Bytes), lenLoop n l b = some (L, r) →
    (∃ d : Bytes, d.length = n ∧ b = d ++ r ∧ L = l * 256 ^ n + setBytes d) ∧ (0 < n → L < 2 ^ 31) ∧ (0 < n → l = 0 → 256 ^ (n - 1) ≤ L) := by
  intro n
  induction n with
  | zero => intro l b L r h; simp [lenLoop] at h; exact ⟨⟨[], rfl, by simp [h.2], by simp [h.1, setBytes, Kb.beN, leN]⟩, by omega, by omega⟩
  | succ n ih =>
    intro l b L r h
    cases b with
    | nil => cases h
    | cons b t =>
      rw [lenLoop] at h
      split at h
      · cases h
      · rename_i h23
        split at h
        · cases h
        · rename_i h0
          obtain ⟨⟨d, hd, rfl, hL⟩, h31, hlow⟩ := ih _ _ _ _ h
          have hb : setBytes (b :: d) = b.toNat * 256 ^ n + setBytes d := by
            have := setBytes_append [b] d
            rw [List.singleton_append, hd] at this
            rw [this]; simp [setBytes, Kb.beN, leN]
          refine ⟨⟨b :: d, by simp [hd], rfl, ?_⟩, fun _ => ?_, fun _ hl => ?_⟩
          · rw [hb, hL, pow_succ]; ring
          · cases n with
            | zero =>
              have : d = [] := List.length_eq_zero_iff.1 hd
              subst this
              have := b.isLt
              simp [setBytes, Kb.beN, leN] at hL
              omega
            | succ n => exact h31 (by omega)
          · subst hl
            rw [hL, Nat.add_sub_cancel]
            have : 1 * 256 ^ n ≤ (0 * 256 + b.toNat) * 256 ^ n := Nat.mul_le_mul_right _ (by omega)
            omega

theorem parseLen_some {b r : Bytes} {n : Nat} (h : parseLen b = some (n, r)) : b = encLen n ++ r ∧ n < 2 ^ 31 := by
  cases b with
  | nil => cases h
  | cons b t =>
    rw [parseLen] at h
    by_cases hb : b.toNat < 128
    · rw [if_pos hb, Option.some.injEq, Prod.mk.injEq] at h
      obtain ⟨rfl, rfl⟩ := h
      rw [encLen, if_pos hb]
      exact ⟨by simp, by omega⟩
    · rw [if_neg hb] at h
      by_cases h0 : b.toNat - 128 = 0
      · rw [if_pos h0] at h; cases h
      · rw [if_neg h0] at h
        cases hl : lenLoop (b.toNat - 128) 0 t with
        | none => rw [hl] at h; cases h
        | some x =>
          obtain ⟨L, r'⟩ := x
          rw [hl] at h
          simp only at h
          by_cases h128 : L < 128
          · rw [if_pos h128] at h; cases h
          · rw [if_neg h128, Option.some.injEq, Prod.mk.injEq] at h
            obtain ⟨rfl, rfl⟩ := h
            obtain ⟨⟨d, hd, rfl, hL⟩, h31, hlow⟩ := lenLoop_some _ _ _ _ _ hl
            rw [Nat.zero_mul, Nat.zero_add] at hL
            have hlt := setBytes_lt d
            have hlo := hlow (by omega) rfl
            have hlen : byteLen L = d.length := by
              refine Nat.le_antisymm (byteLen_le.2 (by rw [hL]; exact hlt)) ?_
              by_contra hc
              have : L < 256 ^ (d.length - 1) := byteLen_le.1 (by omega)
              rw [hd] at this
              omega
            refine ⟨?_, h31 (by omega)⟩
            have e1 : BitVec.ofNat 8 (128 + d.length) = b := by
              apply BitVec.eq_of_toNat_eq
              have := b.isLt
              rw [BitVec.toNat_ofNat, Nat.mod_eq_of_lt (by omega)]; omega
            have e2 : hx d.length L = d := by rw [hL, hx_setBytes]
            rw [encLen, if_neg h128, hlen, List.cons_append, e1, e2]

theorem element_some {tag : Byte} {b c r : Bytes} (h : element tag b = some (c, r)) : b = tlv tag c ++ r ∧ c.length < 2 ^ 31 := by
  cases b with
  | nil => cases h
  | cons t u =>
    rw [element] at h
    split at h
    · cases h
    · rename_i ht
      rw [ne_eq, not_not] at ht
      subst ht
      cases hp : parseLen u with
      | none => rw [hp] at h; cases h
      | some x =>
        obtain ⟨l, r'⟩ := x
        rw [hp] at h
        simp only at h
        split at h
        · cases h
        · rename_i hl
          rw [Option.some.injEq, Prod.mk.injEq] at h
          obtain ⟨rfl, rfl⟩ := h
          obtain ⟨rfl, h31⟩ := parseLen_some hp
          have : (r'.take l).length = l := by rw [List.length_take]; omega
          rw [tlv, this]
          exact ⟨by simp, h31⟩

theorem parseInt_intBytes (v : Nat) : parseInt (intBytes v) = some (v : Int) := by
  rw [intBytes]
  have hs := setBytes_natBytes v
  cases hb : natBytes v with
  | nil =>
    rw [hb] at hs
    simp [setBytes, Kb.beN, leN] at hs
    simp [parseInt, ← hs]
  | cons b r =>
    rw [hb] at hs
    have hb0 : b.toNat ≠ 0 := by
      intro h0
      have h1 := setBytes_append [b] r
      rw [List.singleton_append, hs] at h1
      have h2 : v = setBytes r := by rw [h1]; simp [setBytes, Kb.beN, leN, h0]
      have h3 : byteLen v ≤ r.length := byteLen_le.2 (by rw [h2]; exact setBytes_lt r)
      have h4 : (natBytes v).length = byteLen v := hx_length _ _
      rw [hb] at h4
      simp at h4; omega
    simp only
    by_cases h : 128 ≤ b.toNat
    · rw [if_pos h, parseInt, if_neg (by simp; omega), if_neg (by simp)]
      have := setBytes_append [0#8] (b :: r)
      rw [List.singleton_append, hs] at this
      rw [this]; simp [setBytes, Kb.beN, leN]
    · rw [if_neg h]
      cases r with
      | nil =>
        rw [parseInt, BitVec.toInt_eq_toNat_of_lt (by omega)]
        rw [← hs]; simp [setBytes, Kb.beN, leN]
      | cons b1 r =>
        rw [parseInt, if_neg, if_neg h, hs]
        rintro (⟨h1, _⟩ | ⟨h1, _⟩)
        · subst h1; exact hb0 rfl
        · subst h1; exact h (by decide)

theorem parseInt_some {c : Bytes} {v : Nat} (h : parseInt c = some (v : Int)) : c = intBytes v := by
  cases c with
  | nil => cases h
  | cons b0 r =>
    cases r with
    | nil =>
      rw [parseInt, Option.some.injEq] at h
      have : ∀ b : BitVec 8, 0 ≤ b.toInt → [b] = intBytes b.toInt.toNat := by decide +kernel
      have := this b0 (by rw [h]; omega)
      rw [h, Int.toNat_natCast] at this
      exact this
    | cons b1 r =>
      rw [parseInt] at h
      split at h
      · cases h
      · rename_i hm
        split at h
        · rename_i hneg
          rw [Option.some.injEq] at h
          have := setBytes_lt (b0 :: b1 :: r)
          simp only [List.length_cons] at this
          have : (setBytes (b0 :: b1 :: r) : Int) < 256 ^ (r.length + 2) := by exact_mod_cast this
          omega
        · rename_i hpos
          rw [Option.some.injEq, Int.natCast_inj] at h
          by_cases h0 : b0 = 0#8
          · subst h0
            have hb1 : 128 ≤ b1.toNat := by
              by_contra hc
              exact hm (.inl ⟨rfl, by omega⟩)
            have h1 := setBytes_append [0#8] (b1 :: r)
            rw [List.singleton_append, h] at h1
            have h2 : v = setBytes (b1 :: r) := by rw [h1]; simp [setBytes, Kb.beN, leN]
            have h3 : natBytes v = b1 :: r := by
              rw [natBytes, h2]
              have : byteLen (setBytes (b1 :: r)) = (b1 :: r).length := by
                refine Nat.le_antisymm (byteLen_le.2 (setBytes_lt _)) ?_
                by_contra hc
                have h5 : setBytes (b1 :: r) < 256 ^ r.length := byteLen_le.1 (by simp at hc; omega)
                have h6 := setBytes_append [b1] r
                rw [List.singleton_append] at h6
                have h7 : setBytes [b1] = b1.toNat := by simp [setBytes, Kb.beN, leN]
                have : 1 * 256 ^ r.length ≤ b1.toNat * 256 ^ r.length := Nat.mul_le_mul_right _ (by omega)
                rw [h7] at h6
                omega
              rw [this, hx_setBytes]
            rw [intBytes, h3]
            simp only
            rw [if_pos hb1]
          · have hn : 0 < b0.toNat := by
              rcases Nat.eq_zero_or_pos b0.toNat with h | h
              · exact absurd (BitVec.eq_of_toNat_eq h) h0
              · exact h
            have h3 : natBytes v = b0 :: b1 :: r := by
              rw [natBytes, ← h]
              have : byteLen (setBytes (b0 :: b1 :: r)) = (b0 :: b1 :: r).length := by
                refine Nat.le_antisymm (byteLen_le.2 (setBytes_lt _)) ?_
                by_contra hc
                have h5 : setBytes (b0 :: b1 :: r) < 256 ^ (b1 :: r).length := byteLen_le.1 (by simp at hc ⊢; omega)
                have h6 := setBytes_append [b0] (b1 :: r)
                rw [List.singleton_append] at h6
                have h7 : setBytes [b0] = b0.toNat := by simp [setBytes, Kb.beN, leN]
                have : 1 * 256 ^ (b1 :: r).length ≤ b0.toNat * 256 ^ (b1 :: r).length := Nat.mul_le_mul_right _ (by omega)
                rw [h7] at h6
                omega
              rw [this, hx_setBytes]
            rw [intBytes, h3]
            simp only
            rw [if_neg hpos]

theorem intField_encInt (v : Nat) (r : Bytes) (h : (intBytes v).length < 2 ^ 31) : intField (encInt v ++ r) = some ((v : Int), r) := by
  rw [intField, encInt, element_tlv _ _ _ h]
  simp only
  rw [parseInt_intBytes]

theorem intField_some {b r : Bytes} {v : Nat} (h : intField b = some ((v : Int), r)) : b = encInt v ++ r := by
  rw [intField] at h
  cases he : element 0x02#8 b with
  | none => rw [he] at h; cases h
  | some x =>
    obtain ⟨c, r'⟩ := x
    rw [he] at h
    simp only at h
    cases hp : parseInt c with
    | none => rw [hp] at h; cases h
    | some w =>
      rw [hp] at h
      simp only [Option.some.injEq, Prod.mk.injEq] at h
      obtain ⟨rfl, rfl⟩ := h
      rw [encInt, ← parseInt_some hp]
      exact (element_some he).1

theorem octField_encOct (c r : Bytes) (h : c.length < 2 ^ 31) : octField (encOct c ++ r) = some (c, r) := element_tlv _ _ _ h

theorem intBytes_length_le {v n : Nat} (h : v < 256 ^ n) : (intBytes v).length ≤ n + 1 := by
  have h1 : byteLen v ≤ n := byteLen_le.2 h
  have h2 : (natBytes v).length = byteLen v := hx_length _ _
  rw [intBytes]
  cases hb : natBytes v with
  | nil => simp
  | cons b r =>
    rw [hb] at h2
    simp only [List.length_cons] at h2
    simp only
    split <;> simp only [List.length_cons] <;> omega

theorem encLen_length {n : Nat} (h : n < 2 ^ 31) : (encLen n).length ≤ 5 := by
  rw [encLen]
  split
  · simp
  · have := byteLen_le4 h
    simp [hx_length]; omega

theorem tlv_length {tag : Byte} {c : Bytes} (h : c.length < 2 ^ 31) : (tlv tag c).length ≤ c.length + 6 := by
  have := encLen_length h
  simp [tlv]; omega

end Verif.Asn1
