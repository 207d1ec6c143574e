import Verif.Hash.RabinLemmas
/-
C163: the Rabin fingerprints of hash/rabin.
-/
namespace Verif.Rabin
open Polynomial Verif.Gf2

/-- C163. For every polynomial of degree at least 8 and every window size there is a table; for others NewTable panics. -/
theorem C163_table (p : BitVec 64) (window : Int) : (256 ≤ p.toNat → ∃ t, newTable p window = .ok t) ∧ (p.toNat < 256 → newTable p window = .panic) := by
  have key : bitLen p.toNat < 9 ↔ p.toNat < 256 := by
    unfold bitLen
    by_cases h : p.toNat = 0
    · simp [h]
    · rw [if_neg h]
      have := Nat.log2_lt (k := 8) h
      omega
  unfold newTable
  refine ⟨fun h => ⟨_, if_neg (fun hc => ?_)⟩, fun h => if_pos (key.mpr h)⟩
  have := key.mp hc
  omega

/-- C163. The rolling hash. After every history of Write and Reset calls on a new object with a window, however the data was cut up, Sum64 is the remainder of the last
`window` bytes (all, if there are fewer) since the last Reset, as a polynomial over GF(2), modulo the polynomial of the table. -/
theorem C163_window (p : BitVec 64) (window : Int) (hw : 0 < window) (t : Table) (ht : newTable p window = .ok t) (ops : List Op) :
    IsHash p.toNat (lastN window.toNat (since [] ops)) (sum64 (ops.foldl act (new t))).toNat := by
  obtain ⟨tf, tw, tp⟩ := table_for p window t ht
  have h0 : Holds p.toNat (bitLen p.toNat - 1) window.toNat t (new t) [] := holds_new (by omega) (by rw [tw]; omega)
  have h := (holds_acts tf (by omega) (tp hw) ops h0).good
  rw [lastN_zeros] at h
  have g : Good p.toNat (bitLen p.toNat - 1) (ops.foldl act (new t)).hash (lastN window.toNat (since [] ops)) := ⟨h.1, by rw [← num_zeros]; exact h.2⟩
  exact good_isHash tf g

/-- C163. Without a window, it is the remainder of all bytes since the last Reset. -/
theorem C163_plain (p : BitVec 64) (window : Int) (hw : window ≤ 0) (t : Table) (ht : newTable p window = .ok t) (ops : List Op) :
    IsHash p.toNat (since [] ops) (sum64 (ops.foldl act (new t))).toNat := by
  obtain ⟨tf, tw, _⟩ := table_for p window t ht
  have h2 : (new t).msg = none := by unfold new; rw [tw]; simp; omega
  exact good_isHash tf (plain_acts tf ops (hist := []) rfl h2 good_nil).2

/-- C163. The remainder is determined by the polynomial: there is just one number that is the hash of a message, so equal windows have equal hashes whatever came before. -/
theorem C163_unique (P : Nat) (m : Bytes) (h h' : Nat) (h1 : IsHash P m h) (h2 : IsHash P m h') : h = h' :=
  poly_injective (h1.trans h2.symm)

/-- C163. Two messages have the same hash exactly if the polynomial divides their difference. -/
theorem C163_collision (P : Nat) (hP : P ≠ 0) (m m' : Bytes) (h h' : Nat) (h1 : IsHash P m h) (h2 : IsHash P m' h') : h = h' ↔ poly P ∣ poly (num m) - poly (num m') := by
  obtain ⟨d, hd⟩ : ∃ d, bitLen P = d + 1 := ⟨bitLen P - 1, by unfold bitLen; rw [if_neg hP]; omega⟩
  obtain ⟨l1, l2⟩ := bitLen_spec hd
  obtain ⟨hm, _⟩ := monic l1 l2
  have key : poly h = poly h' ↔ poly P ∣ poly (num m) - poly (num m') := by
    rw [h1, h2, ← Polynomial.modByMonic_eq_zero_iff_dvd hm, Polynomial.sub_modByMonic, sub_eq_zero]
  exact ⟨fun e => key.mp (by rw [e]), fun e => poly_injective (key.mpr e)⟩

/-- C163. Sum gives all of the hash, the least significant byte first: no bit is lost. -/
theorem C163_sum (p : BitVec 64) (window : Int) (t : Table) (ht : newTable p window = .ok t) (ops : List Op) :
    (sum (ops.foldl act (new t))).length = (t.degree + 8) / 8 ∧
      num (sum (ops.foldl act (new t))).reverse = (sum64 (ops.foldl act (new t))).toNat := by
  obtain ⟨tf, tw, tp⟩ := table_for p window t ht
  have hh : (ops.foldl act (new t)).tab = t ∧ (ops.foldl act (new t)).hash.toNat < 2 ^ (bitLen p.toNat - 1) := by
    by_cases hw : 0 < window
    · have h0 : Holds p.toNat (bitLen p.toNat - 1) window.toNat t (new t) [] := holds_new (by omega) (by rw [tw]; omega)
      have h := holds_acts tf (by omega) (tp hw) ops h0
      exact ⟨h.tab, h.good.1⟩
    · have h2 : (new t).msg = none := by unfold new; rw [tw]; simp; omega
      have h := plain_acts tf ops (hist := []) rfl h2 good_nil
      exact ⟨h.1, h.2.1⟩
  have hd := tf.deg
  have hlo := tf.lo
  have hhi := tf.hi
  generalize ops.foldl act (new t) = o at hh
  obtain ⟨ho, hlt⟩ := hh
  rw [← hd] at hlt hlo hhi
  have key : ∀ k, num (((List.range k).map fun i => (o.hash >>> (i * 8)).setWidth 8).reverse) = o.hash.toNat % 256 ^ k := by
    intro k
    induction k with
    | zero => simp [num, Nat.mod_one]
    | succ k ih =>
      rw [List.range_succ, List.map_append, List.map_singleton, List.reverse_append, List.reverse_singleton, List.singleton_append, num_cons, ih]
      simp only [List.length_reverse, List.length_map, List.length_range, BitVec.toNat_setWidth, BitVec.toNat_ushiftRight, Nat.shiftRight_eq_div_pow]
      rw [show (2 : Nat) ^ (k * 8) = 256 ^ k from by rw [Nat.mul_comm, pow_mul]; rfl, show (2 : Nat) ^ 8 = 256 from rfl, Nat.mod_pow_succ (b := 256)]
      ring
  have hsz : size o = (t.degree + 8) / 8 := by unfold size; rw [ho]
  unfold sum sum64
  rw [← List.map_take, List.take_range, hsz, Nat.min_eq_left (by omega)]
  refine ⟨by simp, ?_⟩
  rw [key]
  apply Nat.mod_eq_of_lt
  refine Nat.lt_of_lt_of_le hlt ?_
  rw [show (256 : Nat) = 2 ^ 8 from rfl, ← pow_mul]
  exact Nat.pow_le_pow_right (by decide) (by omega)

/-- C163, fails: "the number of bits in the resulting hash values will be the same as the number of bits in polynomial". The hash has one bit less, so that Poly64 gives
63 bits, not 64. -/
theorem C163_bits_violated (p : BitVec 64) (window : Int) (t : Table) (ht : newTable p window = .ok t) (ops : List Op) :
    2 * (sum64 (ops.foldl act (new t))).toNat < 2 ^ bitLen p.toNat := by
  obtain ⟨tf, tw, tp⟩ := table_for p window t ht
  have hh : (ops.foldl act (new t)).hash.toNat < 2 ^ (bitLen p.toNat - 1) := by
    by_cases hw : 0 < window
    · have h0 : Holds p.toNat (bitLen p.toNat - 1) window.toNat t (new t) [] := holds_new (by omega) (by rw [tw]; omega)
      exact (holds_acts tf (by omega) (tp hw) ops h0).good.1
    · have h2 : (new t).msg = none := by unfold new; rw [tw]; simp; omega
      exact (plain_acts tf ops (hist := []) rfl h2 good_nil).2.1
  have hl := tf.len
  unfold sum64
  rw [hl, pow_succ]
  omega

/-- `Sum64` after `ops`. -/
def run (p : BitVec 64) (window : Int) (ops : List Op) : Res (BitVec 64) :=
  match newTable p window with
  | .ok t => .ok (sum64 (ops.foldl act (new t)))
  | .err => .err
  | .panic => .panic
  | .hang => .hang

-- x^16 + x^8 mod x^8 + x^4 + x^3 + x^2 + 1, and three ways to write the bytes 1 1 0 through a window of two bytes, that leave the hash of 1 0.
example : run 0x11d 0 [.write [1, 1, 0]] = .ok (0x4c ^^^ 0x1d) := by decide +kernel
example : run 0x11d 2 [.write [1, 1, 0]] = .ok 0x1d ∧ run 0x11d 2 [.write [1], .write [1], .write [0]] = .ok 0x1d ∧
    run 0x11d 2 [.write [7, 9], .reset, .write [1], .write [0]] = .ok 0x1d := by decide +kernel
-- The polynomial of the package, degree 63.
example : run 0xbfe6b8a5bf378d83 0 [.write [1, 0, 0, 0, 0, 0, 0, 0, 0]] = .ok ((0xbfe6b8a5bf378d83 : BitVec 64) <<< 1) := by decide +kernel

end Verif.Rabin
