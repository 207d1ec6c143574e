import Verif.Asn1.Der
/-
More of Go's `encoding/asn1`, on top of Asn1/Der.lean: OBJECT IDENTIFIER, fields of type `int`, raw values (written from the source of Go 1.2x: `parseBase128Int`,
`parseObjectIdentifier`, `parseInt64`, `parseTagAndLength`, `appendBase128Int`, `makeObjectIdentifier`).
-/
namespace Verif.Pkcs
open Verif.Asn1 Verif.Pub

/-- `parseBase128Int`: `k` bytes may still come; `acc` is what the earlier ones said. -/
def p128 : Nat → Bool → Nat → Bytes → Option (Nat × Bytes)
  | 0, _, _, _ => none
  | _ + 1, _, _, [] => none
  | k + 1, first, acc, b :: r =>
    if first = true ∧ b = 0x80#8 then none
    else if b.toNat < 128 then
      if acc * 128 + b.toNat < 2 ^ 31 then some (acc * 128 + b.toNat, r) else none
    else p128 k false (acc * 128 + (b.toNat - 128)) r

def parse128 (b : Bytes) : Option (Nat × Bytes) := p128 5 true 0 b

/-- The loop of `parseObjectIdentifier` after the first number. -/
def oidRest : Nat → Bytes → Option (List Nat)
  | _, [] => some []
  | 0, _ :: _ => none
  | n + 1, b =>
    match parse128 b with
    | none => none
    | some (v, r) => (oidRest n r).map (v :: ·)

/-- `parseObjectIdentifier`. -/
def parseOID (b : Bytes) : Option (List Nat) :=
  match parse128 b with
  | none => none
  | some (v, r) => (oidRest r.length r).map fun t => (if v < 80 then [v / 40, v % 40] else [2, v - 80]) ++ t

/-- A field of type `asn1.ObjectIdentifier`. -/
def oidField (b : Bytes) : Option (List Nat × Bytes) :=
  match element 0x06#8 b with
  | none => none
  | some (c, r) => (parseOID c).map fun o => (o, r)

/-- A field of type `int` on a 64-bit machine. -/
def int64Field (b : Bytes) : Option (Int × Bytes) :=
  match intField b with
  | none => none
  | some (v, r) => if -(2 ^ 63) ≤ v ∧ v < 2 ^ 63 then some (v, r) else none

/-- A field of type `asn1.RawValue`: the whole element, and what follows it. -/
def rawField (b : Bytes) : Option (Bytes × Bytes) :=
  match b with
  | [] => none
  | t :: r =>
    let afterTag : Option Bytes := if t &&& 0x1f#8 = 0x1f#8 then
        (match parse128 r with
         | none => none
         | some (n, r') => if n < 31 then none else some r')
      else some r
    match afterTag with
    | none => none
    | some r' =>
      match parseLen r' with
      | none => none
      | some (l, c) => if c.length < l then none else some (b.take (b.length - c.length + l), c.drop l)

/-- `appendBase128Int`: all but the last group of seven bits. -/
def hi128 : Nat → Nat → Bytes
  | 0, _ => []
  | f + 1, n => if n = 0 then [] else hi128 f (n / 128) ++ [BitVec.ofNat 8 (128 + n % 128)]

def enc128 (n : Nat) : Bytes := hi128 5 (n / 128) ++ [BitVec.ofNat 8 (n % 128)]

/-- `makeObjectIdentifier` (for identifiers it accepts). -/
def oidBytes : List Nat → Bytes
  | a :: b :: t => enc128 (a * 40 + b) ++ t.flatMap enc128
  | _ => []

def encOID (o : List Nat) : Bytes := tlv 0x06#8 (oidBytes o)

/-! ### Lemmas -/

theorem hi128_succ : ∀ (f n : Nat), n < 128 ^ f → hi128 (f + 1) n = hi128 f n
  | 0, n, h => by simp at h; simp [hi128, h]
  | f + 1, n, h => by
    by_cases h0 : n = 0
    · subst h0; rfl
    · have e1 : hi128 (f + 1 + 1) n = hi128 (f + 1) (n / 128) ++ [BitVec.ofNat 8 (128 + n % 128)] := by rw [hi128, if_neg h0]
      have e2 : hi128 (f + 1) n = hi128 f (n / 128) ++ [BitVec.ofNat 8 (128 + n % 128)] := by rw [hi128, if_neg h0]
      rw [e1, e2, hi128_succ f (n / 128) (by rw [Nat.pow_succ] at h; omega)]

theorem p128_some : ∀ (k : Nat) (first : Bool) (acc : Nat) (b r : Bytes) (v : Nat), k ≤ 5 → (first = true → acc = 0) → (first = false → 0 < acc) → acc < 128 ^ (5 - k) →
    p128 k first acc b = some (v, r) → ∃ m, b = m ++ r ∧ hi128 5 acc ++ m = enc128 v ∧ v < 2 ^ 31
  | 0, _, _, _, _, _, _, _, _, _, h => by simp [p128] at h
  | k + 1, _, _, [], _, _, _, _, _, _, h => by simp [p128] at h
  | k + 1, first, acc, x :: b, r, v, hk, h1, h2, ha, h => by
    rw [p128] at h
    split at h
    · simp at h
    · rename_i hx
      have hlt := x.isLt
      split at h
      · rename_i hs
        split at h
        · rename_i hv
          simp only [Option.some.injEq, Prod.mk.injEq] at h
          obtain ⟨rfl, rfl⟩ := h
          refine ⟨[x], rfl, ?_, hv⟩
          rw [enc128, show (acc * 128 + x.toNat) / 128 = acc by omega, show (acc * 128 + x.toNat) % 128 = x.toNat by omega, BitVec.ofNat_toNat, BitVec.setWidth_eq]
        · simp at h
      · rename_i hs
        have hpos : 0 < acc * 128 + (x.toNat - 128) := by
          cases first with
          | false => have := h2 rfl; omega
          | true =>
            have : x.toNat ≠ 128 := by
              intro e
              exact hx ⟨rfl, BitVec.eq_of_toNat_eq e⟩
            omega
        cases k with
        | zero => simp [p128] at h
        | succ k =>
          have hb : acc * 128 + (x.toNat - 128) < 128 ^ (5 - (k + 1)) := by
            have : 5 - (k + 1) = (5 - (k + 1 + 1)) + 1 := by omega
            rw [this, Nat.pow_succ]; omega
          obtain ⟨m, e1, e2, e3⟩ := p128_some (k + 1) false _ b r v (by omega) (by simp) (fun _ => hpos) hb h
          refine ⟨x :: m, by rw [e1]; rfl, ?_, e3⟩
          have ha4 : acc < 128 ^ 4 := Nat.lt_of_lt_of_le ha (Nat.pow_le_pow_right (by decide) (by omega))
          rw [hi128, if_neg (by omega), show (acc * 128 + (x.toNat - 128)) / 128 = acc by omega,
            show 128 + (acc * 128 + (x.toNat - 128)) % 128 = x.toNat by omega, BitVec.ofNat_toNat, BitVec.setWidth_eq, ← hi128_succ 4 acc ha4] at e2
          rw [← e2]; simp

theorem parse128_some {b r : Bytes} {v : Nat} (h : parse128 b = some (v, r)) : b = enc128 v ++ r ∧ v < 2 ^ 31 := by
  obtain ⟨m, e1, e2, e3⟩ := p128_some 5 true 0 b r v (by omega) (by simp) (by simp) (by decide) h
  simp only [hi128, if_true, List.nil_append] at e2
  exact ⟨by rw [e1, e2], e3⟩

theorem oidRest_some : ∀ (n : Nat) (b : Bytes) (t : List Nat), oidRest n b = some t → b = t.flatMap enc128
  | n, [], t, h => by cases n <;> (simp [oidRest] at h; subst h; rfl)
  | 0, _ :: _, t, h => by simp [oidRest] at h
  | n + 1, x :: b, t, h => by
    rw [oidRest] at h
    · cases hp : parse128 (x :: b) with
      | none => rw [hp] at h; simp at h
      | some p =>
        obtain ⟨v, r⟩ := p
        rw [hp] at h
        simp only [Option.map_eq_some_iff] at h
        obtain ⟨t', h', rfl⟩ := h
        rw [(parse128_some hp).1, oidRest_some n r t' h']; rfl
    · simp

/-- What `parseObjectIdentifier` accepts is the encoding of what it returns: no identifier has a second encoding. -/
theorem parseOID_some {b : Bytes} {o : List Nat} (h : parseOID b = some o) : b = oidBytes o := by
  rw [parseOID] at h
  cases hp : parse128 b with
  | none => rw [hp] at h; simp at h
  | some p =>
    obtain ⟨v, r⟩ := p
    rw [hp] at h
    simp only [Option.map_eq_some_iff] at h
    obtain ⟨t, h', rfl⟩ := h
    rw [(parse128_some hp).1, oidRest_some _ r t h']
    split
    · simp only [List.cons_append, List.nil_append, oidBytes]
      rw [show v / 40 * 40 + v % 40 = v by omega]
    · simp only [List.cons_append, List.nil_append, oidBytes]
      rw [show 2 * 40 + (v - 80) = v by omega]

theorem oidField_some {b r : Bytes} {o : List Nat} (h : oidField b = some (o, r)) : b = encOID o ++ r := by
  rw [oidField] at h
  cases he : element 0x06#8 b with
  | none => rw [he] at h; simp at h
  | some p =>
    obtain ⟨c, r'⟩ := p
    rw [he] at h
    simp only [Option.map_eq_some_iff, Prod.mk.injEq] at h
    obtain ⟨o', h', rfl, rfl⟩ := h
    rw [(element_some he).1, parseOID_some h', encOID]

theorem oidField_enc (o : List Nat) (r : Bytes) (h : parseOID (oidBytes o) = some o) (hl : (oidBytes o).length < 2 ^ 31) : oidField (encOID o ++ r) = some (o, r) := by
  rw [oidField, encOID, element_tlv _ _ _ hl]
  simp [h]

/-- A raw value with a one-byte tag. -/
theorem rawField_tlv (tag : Byte) (c r : Bytes) (ht : tag &&& 0x1f#8 ≠ 0x1f#8) (h : c.length < 2 ^ 31) : rawField (tlv tag c ++ r) = some (tlv tag c, r) := by
  have e : tlv tag c ++ r = tag :: (encLen c.length ++ (c ++ r)) := by simp [tlv]
  rw [e, rawField, if_neg ht]
  simp only
  rw [parseLen_encLen c.length h]
  simp only [List.length_append, List.length_cons]
  rw [if_neg (by omega), List.drop_left]
  have e2 : tag :: (encLen c.length ++ (c ++ r)) = tlv tag c ++ r := e.symm
  have e3 : (encLen c.length).length + (c.length + r.length) + 1 - (c.length + r.length) + c.length = (tlv tag c).length := by simp [tlv]; omega
  rw [e2, e3, List.take_left]

theorem int64Field_enc (v : Nat) (r : Bytes) (h : v < 2 ^ 63) : int64Field (encInt v ++ r) = some ((v : Int), r) := by
  have hl : (intBytes v).length < 2 ^ 31 := by
    have := intBytes_length_le (v := v) (n := 8) (by omega)
    omega
  rw [int64Field, intField_encInt v r hl]
  simp only
  rw [if_pos (by omega)]

/-- What the field accepts: minimal two's complement in at most 8 bytes. -/
theorem int64Field_some {b r : Bytes} {v : Int} (h : int64Field b = some (v, r)) :
    ∃ c, b = tlv 0x02#8 c ++ r ∧ parseInt c = some v ∧ -(2 ^ 63) ≤ v ∧ v < 2 ^ 63 := by
  rw [int64Field] at h
  cases hi : intField b with
  | none => rw [hi] at h; simp at h
  | some p =>
    obtain ⟨w, r'⟩ := p
    rw [hi] at h
    simp only at h
    split at h
    · rename_i hb
      simp only [Option.some.injEq, Prod.mk.injEq] at h
      obtain ⟨rfl, rfl⟩ := h
      rw [intField] at hi
      cases he : element 0x02#8 b with
      | none => rw [he] at hi; simp at hi
      | some q =>
        obtain ⟨c, r''⟩ := q
        rw [he] at hi
        simp only at hi
        cases hp : parseInt c with
        | none => rw [hp] at hi; simp at hi
        | some u =>
          rw [hp] at hi
          simp only [Option.some.injEq, Prod.mk.injEq] at hi
          obtain ⟨rfl, rfl⟩ := hi
          exact ⟨c, (element_some he).1, hp, hb.1, hb.2⟩
    · simp at h

theorem int64Field_tlv (c r : Bytes) (v : Int) (hc : c.length < 2 ^ 31) (h : parseInt c = some v) (h1 : -(2 ^ 63) ≤ v) (h2 : v < 2 ^ 63) :
    int64Field (tlv 0x02#8 c ++ r) = some (v, r) := by
  rw [int64Field, intField, element_tlv _ _ _ hc]
  simp only [h]
  rw [if_pos ⟨h1, h2⟩]

end Verif.Pkcs
