import Verif.Kdf.Common
import Verif.Kdf.Kb
import Verif.Kdf.KbLemmas
import Mathlib.Algebra.Field.ZMod
import Mathlib.FieldTheory.Finite.Basic
import Mathlib.Tactic.Ring
/-
What the public-key packages are built on: Go's `math/big` (not part of /repo; stated here as functions of numbers) and
the random sources they are handed.

A `*big.Int` that the code never makes negative is a `Nat`; one that comes from a parsed signature is an `Int`.  The
random source (`io.Reader`) is the list of bytes it will deliver: reading past the end of it is the reader's error.
-/
namespace Verif.Pub
open Verif.Cipher Verif.Kdf

/-- `(*big.Int).BitLen`. -/
def bitLen (n : Nat) : Nat := if n = 0 then 0 else n.log2 + 1

/-- `(n.BitLen() + 7) / 8`: the number of bytes of `n`. -/
def byteLen (n : Nat) : Nat := (bitLen n + 7) / 8

/-- `new(big.Int).SetBytes(b)`: the big-endian number. -/
def setBytes (b : Bytes) : Nat := Kb.beN b

/-- `(*big.Int).FillBytes(buf)` with `len(buf) = len`: big-endian with leading zeros; panics ("buffer too small") when
the number does not fit. -/
def fillBytes (len v : Nat) : Res Bytes := if v < 256 ^ len then .ok (hx len v) else .panic

/-- `(*big.Int).Bytes()`: big-endian without leading zeros. -/
def natBytes (v : Nat) : Bytes := hx (byteLen v) v

/-- `new(big.Int).ModInverse(a, n)`: the inverse in `[0, n)`, `nil` when there is none. -/
def modInv (a n : Nat) : Option Nat := (List.range n).find? fun x => a * x % n == 1 % n

/-- `new(big.Int).Exp(a, e, n)` for `n > 0` and `e ≥ 0`. -/
def expMod (a e n : Nat) : Nat := a ^ e % n

/-- `fermatInverse(a, N)`: `a^(N-2) mod N`.  The same function in each of pubkey/ecgdsa/ecgdsa.go:432-436,
pubkey/eckcdsa/eckcdsa.go:528-532. -/
def fermatInverse (a N : Nat) : Nat := expMod a (N - 2) N

/-- `randFieldElement(rand, c)` for a curve of order `N`: reads `(N.BitLen()+7)/8` bytes, drops the excess high bits, and
draws again while the number is zero or not below `N`.  The same function in each of
pubkey/ecgdsa/ecgdsa.go:413-430, pubkey/eckcdsa/eckcdsa.go:504-521, pubkey/ecsdsa/ecsdsa.go:453-470,
pubkey/ecosdsa/ecosdsa.go:448-465, pubkey/ecfsdsa/ecfsdsa.go:425-442, pubkey/ecrdsa/ecrdsa.go:421-438.
Shifting the first byte right by `excess` equals shifting the whole number: both keep the top bits of the first byte
only, so this is written with the bytes as in the code. -/
def randField (N : Nat) : Nat → Bytes → Res (Nat × Bytes)
  | 0, _ => .hang
  | fuel + 1, rd =>
    let w := byteLen N
    if rd.length < w then .err else
    let b := rd.take w
    let excess := w * 8 - bitLen N
    let b := match b with
      | [] => []
      | x :: t => (x >>> excess) :: t
    let k := setBytes b
    if k ≠ 0 ∧ k < N then .ok (k, rd.drop w) else randField N fuel (rd.drop w)

/-- `randFieldElement` with the bytes the reader has left. -/
def randFieldElement (N : Nat) (rd : Bytes) : Res (Nat × Bytes) := randField N (rd.length + 1) rd

theorem byteLen_pos {N : Nat} (h : 0 < N) : 0 < byteLen N := by
  unfold byteLen bitLen; rw [if_neg (by omega)]; omega

theorem lt_pow_bitLen (n : Nat) : n < 2 ^ bitLen n := by
  unfold bitLen; split
  · subst n; decide
  · exact Nat.lt_log2_self

theorem lt_pow_byteLen (n : Nat) : n < 256 ^ byteLen n := by
  refine Nat.lt_of_lt_of_le (lt_pow_bitLen n) ?_
  rw [show (256 : Nat) = 2 ^ 8 from rfl, ← Nat.pow_mul]
  exact Nat.pow_le_pow_right (by decide) (by unfold byteLen; omega)

theorem setBytes_hx (n v : Nat) (h : v < 256 ^ n) : setBytes (hx n v) = v := by
  rw [setBytes, Kb.beN_hx, Nat.mod_eq_of_lt h]

theorem setBytes_lt (b : Bytes) : setBytes b < 256 ^ b.length := by
  have := leN_lt b.reverse
  rwa [List.length_reverse] at this

theorem hx_setBytes (b : Bytes) : hx b.length (setBytes b) = b := by
  have := leBytes_leN b.reverse
  rw [List.length_reverse] at this
  rw [hx, setBytes, Kb.beN, this, List.reverse_reverse]

theorem setBytes_append (a b : Bytes) : setBytes (a ++ b) = setBytes a * 256 ^ b.length + setBytes b := by
  have aux : ∀ a b : Bytes, leN (a ++ b) = leN a + 256 ^ a.length * leN b := by
    intro a b
    induction a with
    | nil => simp [leN]
    | cons x t ih => rw [List.cons_append, leN, leN, ih, List.length_cons, Nat.pow_succ]; ring
  rw [setBytes, setBytes, setBytes, Kb.beN, Kb.beN, Kb.beN, List.reverse_append, aux, List.length_reverse]; ring

theorem setBytes_shift (a b : Bytes) : setBytes (a ++ b) >>> (b.length * 8) = setBytes a := by
  rw [setBytes_append, Nat.shiftRight_eq_div_pow, Nat.mul_comm b.length, Nat.pow_mul, show (2 : Nat) ^ 8 = 256 from rfl, Nat.mul_comm,
    Nat.mul_add_div (Nat.pow_pos (by decide)), Nat.div_eq_of_lt (setBytes_lt _), Nat.add_zero]

theorem leN_xor : ∀ a b : Bytes, a.length = b.length → leN (xorb a b) = leN a ^^^ leN b
  | [], [], _ => rfl
  | x :: a, y :: b, h => by
    have ih := leN_xor a b (by simpa using h)
    rw [show xorb (x :: a) (y :: b) = (x ^^^ y) :: xorb a b from rfl, leN, leN, leN, ih, BitVec.toNat_xor]
    have hx := x.isLt
    have hy := y.isLt
    have e1 : (x.toNat + 256 * leN a ^^^ (y.toNat + 256 * leN b)) % 2 ^ 8 = (x.toNat ^^^ y.toNat) := by
      rw [Nat.xor_mod_two_pow]; congr 1 <;> omega
    have e2 : (x.toNat + 256 * leN a ^^^ (y.toNat + 256 * leN b)) / 2 ^ 8 = (leN a ^^^ leN b) := by
      rw [Nat.xor_div_two_pow]; congr 1 <;> omega
    omega

theorem xorb_reverse (a b : Bytes) (h : a.length = b.length) : (xorb a b).reverse = xorb a.reverse b.reverse := by
  unfold xorb; exact List.reverse_zipWith h

theorem setBytes_xor (a b : Bytes) (h : a.length = b.length) : setBytes (xorb a b) = setBytes a ^^^ setBytes b := by
  rw [setBytes, setBytes, setBytes, Kb.beN, Kb.beN, Kb.beN, xorb_reverse a b h, leN_xor _ _ (by simpa using h)]

/-- Reduction modulo a power of 256 keeps the last bytes. -/
theorem setBytes_mod (b : Bytes) (w : Nat) (h : w ≤ b.length) : setBytes b % 256 ^ w = setBytes (b.drop (b.length - w)) := by
  have e := setBytes_append (b.take (b.length - w)) (b.drop (b.length - w))
  have hl : (b.drop (b.length - w)).length = w := by rw [List.length_drop]; omega
  have hlt := setBytes_lt (b.drop (b.length - w))
  rw [List.take_append_drop, hl] at e
  rw [hl] at hlt
  rw [e, Nat.mul_add_mod_self_right, Nat.mod_eq_of_lt hlt]

theorem setBytes_inj {a b : Bytes} (hl : a.length = b.length) (h : setBytes a = setBytes b) : a = b := by
  rw [← hx_setBytes a, ← hx_setBytes b, h, hl]

theorem byteLen_le {v k : Nat} : byteLen v ≤ k ↔ v < 256 ^ k := by
  rw [show (256 : Nat) = 2 ^ 8 from rfl, ← Nat.pow_mul]
  unfold byteLen bitLen
  split
  · subst v; simp
  · rename_i h
    rw [← Nat.log2_lt h]; omega

theorem setBytes_natBytes (v : Nat) : setBytes (natBytes v) = v := setBytes_hx _ _ (lt_pow_byteLen v)

@[simp] theorem hx_length (n v : Nat) : (hx n v).length = n := by simp [hx]

theorem fillBytes_ok {len v : Nat} (h : v < 256 ^ len) : fillBytes len v = .ok (hx len v) := if_pos h
theorem fillBytes_panic {len v : Nat} (h : ¬v < 256 ^ len) : fillBytes len v = .panic := if_neg h

theorem randField_spec (N : Nat) (hN : 0 < N) : ∀ fuel rd, rd.length < fuel →
    match randField N fuel rd with
    | .ok (k, rd') => 1 ≤ k ∧ k < N ∧ rd'.length < rd.length
    | .err => True
    | _ => False
  | 0, rd, h => by omega
  | fuel + 1, rd, h => by
    have hw := byteLen_pos hN
    simp only [randField]
    by_cases hl : rd.length < byteLen N
    · simp [hl]
    rw [if_neg hl]
    generalize hk : setBytes _ = k
    by_cases hc : k ≠ 0 ∧ k < N
    · rw [if_pos hc]
      refine ⟨by omega, hc.2, ?_⟩
      simp; omega
    · rw [if_neg hc]
      have hlen : (rd.drop (byteLen N)).length < rd.length := by simp; omega
      have ih := randField_spec N hN fuel (rd.drop (byteLen N)) (by omega)
      revert ih
      generalize randField N fuel (rd.drop (byteLen N)) = x
      rcases x with ⟨k', rd'⟩ | _ | _ | _ <;> simp
      intro a b c
      exact ⟨a, b, by omega⟩

/-- What a draw delivers: an error of the reader, or a number in `[1, N-1]` and a shorter rest. -/
theorem randFieldElement_cases (N : Nat) (hN : 0 < N) (rd : Bytes) :
    randFieldElement N rd = .err ∨ ∃ k rd', randFieldElement N rd = .ok (k, rd') ∧ 1 ≤ k ∧ k < N ∧ rd'.length < rd.length := by
  have := randField_spec N hN (rd.length + 1) rd (by omega)
  rw [randFieldElement]
  revert this
  generalize randField N _ rd = x
  rcases x with ⟨k', rd'⟩ | _ | _ | _ <;> simp

theorem modInv_some {a n x : Nat} (h : modInv a n = some x) : x < n ∧ a * x % n = 1 % n := by
  have h1 := List.find?_some h
  have h2 := List.mem_of_find?_eq_some h
  simp at h1 h2
  exact ⟨h2, h1⟩

theorem modInv_prime {a n : Nat} (hn : n.Prime) (h : ¬ n ∣ a) : ∃ x, modInv a n = some x ∧ x < n ∧ (a : ZMod n) * x = 1 := by
  have : Fact n.Prime := ⟨hn⟩
  have ha : (a : ZMod n) ≠ 0 := by
    rwa [Ne, ZMod.natCast_eq_zero_iff]
  have hs : (modInv a n).isSome := by
    rw [modInv, List.find?_isSome]
    refine ⟨((a : ZMod n)⁻¹).val, by simpa using ZMod.val_lt _, ?_⟩
    rw [beq_iff_eq]
    have : ((a * ((a : ZMod n)⁻¹).val : Nat) : ZMod n) = ((1 : Nat) : ZMod n) := by
      rw [Nat.cast_mul, ZMod.natCast_zmod_val, mul_inv_cancel₀ ha, Nat.cast_one]
    exact (ZMod.natCast_eq_natCast_iff' _ _ _).mp this
  obtain ⟨x, hx⟩ := Option.isSome_iff_exists.mp hs
  have ⟨h1, h2⟩ := modInv_some hx
  refine ⟨x, hx, h1, ?_⟩
  have := (ZMod.natCast_eq_natCast_iff' (a * x) 1 n).mpr h2
  simpa using this

theorem modInv_none {a n : Nat} (hn : 1 < n) (h : n ∣ a) : modInv a n = none := by
  rw [modInv, List.find?_eq_none]
  intro x _
  rw [beq_iff_eq, Nat.mod_eq_zero_of_dvd (Dvd.dvd.mul_right h x), Nat.mod_eq_of_lt hn]
  decide

theorem fermat_mul {a N : Nat} (hN : N.Prime) (h : ¬ N ∣ a) : (a : ZMod N) * (fermatInverse a N : Nat) = 1 := by
  have : Fact N.Prime := ⟨hN⟩
  have ha : (a : ZMod N) ≠ 0 := by rwa [Ne, ZMod.natCast_eq_zero_iff]
  rw [fermatInverse, expMod, ZMod.natCast_mod, Nat.cast_pow, ← pow_succ']
  have := ZMod.pow_card_sub_one_eq_one ha
  have h2 := hN.two_le
  rwa [show N - 2 + 1 = N - 1 by omega]

end Verif.Pub
