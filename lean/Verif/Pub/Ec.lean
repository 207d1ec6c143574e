import Verif.Pub.Big
import Mathlib.Tactic.LinearCombination
import Mathlib.Tactic.FieldSimp
import Mathlib.Tactic.NormNum.Prime
/-
The elliptic curves the signature packages are handed (`elliptic.Curve`, an interface of Go's standard library): an
additive commutative group with a base point of prime order and the affine coordinates of its elements.

Simplifications.  A point is an element of the group, not a pair of numbers; the coordinates of the neutral element are
whatever `x` and `y` say (Go: `(0, 0)`).  `ScalarMult`, `ScalarBaseMult` and `Add` are the operations of the group:
that the curve implementations compute them is not shown here (C95 shows it for the curve arithmetic of pubkey/gost).
`IsOnCurve` rejects the neutral element and accepts every other one: keys whose coordinates are not a point at all are
rejected by the same test and are not represented.  Scalars are passed as `k.Bytes()`, which is read back as `k`
(`setBytes_natBytes`).
-/
namespace Verif.Pub
open Verif.Cipher Verif.Kdf

/-- A curve: `Params().N`, `Params().P`, `Params().BitSize`, the base point, the coordinates and the test `IsOnCurve` on
pairs of numbers. -/
structure Curve where
  α : Type
  [grp : AddCommGroup α]
  [dec : DecidableEq α]
  G : α
  N : Nat
  P : Nat
  bitSize : Nat
  x : α → Nat
  y : α → Nat
  isOn : Nat → Nat → Bool
  prime : N.Prime
  order : ∀ k : Nat, k • G = 0 ↔ N ∣ k
  x_lt : ∀ a, x a < P
  y_lt : ∀ a, y a < P
  size : P < 2 ^ bitSize
  isOn_coord : ∀ a, isOn (x a) (y a) = decide (a ≠ 0)

attribute [instance] Curve.grp Curve.dec

namespace Curve
variable (c : Curve)

/-- `curve.IsOnCurve` on a point of the group. -/
def onCurve (Q : c.α) : Bool := decide (Q ≠ 0)

/-- `curve.ScalarBaseMult(k.Bytes())`. -/
def baseMult (k : Nat) : c.α := setBytes (natBytes k) • c.G

/-- `curve.ScalarMult(Q.X, Q.Y, k.Bytes())`. -/
def mult (Q : c.α) (k : Nat) : c.α := setBytes (natBytes k) • Q

/-- `(curve.Params().BitSize + 7) / 8`. -/
def plen : Nat := (c.bitSize + 7) / 8

@[simp] theorem baseMult_eq (k : Nat) : c.baseMult k = k • c.G := by rw [baseMult, setBytes_natBytes]
@[simp] theorem mult_eq (Q : c.α) (k : Nat) : c.mult Q k = k • Q := by rw [mult, setBytes_natBytes]

instance : Fact c.N.Prime := ⟨c.prime⟩

instance : NeZero c.N := ⟨c.prime.ne_zero⟩

theorem two_le : 2 ≤ c.N := c.prime.two_le
theorem N_pos : 0 < c.N := c.prime.pos
theorem one_lt : 1 < c.N := c.prime.one_lt

/-- Multiples of the base point depend on the scalar modulo the order only. -/
theorem smul_congr {a b : Nat} (h : (a : ZMod c.N) = b) : a • c.G = b • c.G := by
  have h := (ZMod.natCast_eq_natCast_iff' a b c.N).mp h
  have e (k : Nat) : k • c.G = (k % c.N) • c.G := by
    conv_lhs => rw [← Nat.mod_add_div k c.N, add_smul, mul_comm, mul_smul, (c.order c.N).mpr (dvd_refl _), smul_zero, add_zero]
  rw [e a, h, ← e b]

theorem smul_inj {a b : Nat} (h : a • c.G = b • c.G) : (a : ZMod c.N) = b := by
  wlog hab : a ≤ b
  · exact (this c h.symm (by omega)).symm
  obtain ⟨d, rfl⟩ := Nat.exists_eq_add_of_le hab
  rw [add_smul] at h
  have h0 : d • c.G = 0 := left_eq_add.mp h
  have := (c.order d).mp h0
  rw [← ZMod.natCast_eq_zero_iff] at this
  rw [Nat.cast_add, this, add_zero]

theorem smul_ne_zero {a : Nat} (h : ¬ c.N ∣ a) : a • c.G ≠ 0 := fun e => h ((c.order a).mp e)

theorem not_dvd {k : Nat} (h1 : 1 ≤ k) (h2 : k < c.N) : ¬ c.N ∣ k := Nat.not_dvd_of_pos_of_lt h1 h2

theorem cast_ne_zero {k : Nat} (h : ¬ c.N ∣ k) : (k : ZMod c.N) ≠ 0 := by rwa [Ne, ZMod.natCast_eq_zero_iff]

theorem P_le : c.P ≤ 256 ^ c.plen := by
  have : c.P < 2 ^ c.bitSize := c.size
  have h : 2 ^ c.bitSize ≤ 256 ^ c.plen := by
    rw [show (256 : Nat) = 2 ^ 8 from rfl, ← Nat.pow_mul]
    exact Nat.pow_le_pow_right (by decide) (by unfold plen; omega)
  omega

end Curve

/-- A private key: the number `D` and the point of the embedded `PublicKey`. -/
structure EcKey (c : Curve) where
  d : Nat
  Q : c.α
  deriving DecidableEq

/-- A key pair of the schemes whose public key is `d·G`. -/
def IsKeyPair (c : Curve) (d : Nat) (Q : c.α) : Prop := 1 ≤ d ∧ d < c.N ∧ Q = d • c.G

theorem IsKeyPair.ne_zero {c : Curve} {d : Nat} {Q : c.α} (h : IsKeyPair c d Q) : Q ≠ 0 := by
  rw [h.2.2]; exact c.smul_ne_zero (c.not_dvd h.1 h.2.1)

/-- `GenerateKey`: pubkey/ecsdsa/ecsdsa.go:108-120, pubkey/ecosdsa/ecosdsa.go:108-120, pubkey/ecfsdsa/ecfsdsa.go:110-122,
pubkey/ecrdsa/ecrdsa.go:113-125 (the same function). -/
def genKey (c : Curve) (rd : Bytes) : Res (EcKey c) :=
  match randFieldElement c.N rd with
  | .ok (d, _) => .ok ⟨d, c.baseMult d⟩
  | .err => .err
  | .panic => .panic
  | .hang => .hang

/-- `NewPrivateKey`: pubkey/ecsdsa/ecsdsa.go:123-137, pubkey/ecosdsa/ecosdsa.go:123-137, pubkey/ecfsdsa/ecfsdsa.go:125-139,
pubkey/ecrdsa/ecrdsa.go:128-142 (the same function). -/
def newKey (c : Curve) (k : Bytes) : Res (EcKey c) :=
  let d := setBytes k
  if c.N - 1 ≤ d then .err else .ok ⟨d, c.baseMult d⟩

/-- `PrivateKeyTo`: pubkey/ecsdsa/ecsdsa.go:140-143, pubkey/ecosdsa/ecosdsa.go:141-144, pubkey/ecfsdsa/ecfsdsa.go:143-146,
pubkey/ecrdsa/ecrdsa.go:146-149 (the same function). -/
def keyTo {c : Curve} (key : EcKey c) : Res Bytes := fillBytes (byteLen c.N) key.d

theorem exists_nat {n : Nat} [NeZero n] (z : ZMod n) : ∃ u : Nat, (u : ZMod n) = z := ⟨z.val, ZMod.natCast_zmod_val z⟩

/-- `−a mod n` in `[0, n)`, for `a` already reduced: `e.Mod(e.Neg(e), n)`. -/
def negMod (a n : Nat) : Nat := (n - a % n) % n

theorem cast_negMod (a n : Nat) (hn : 0 < n) : ((negMod a n : Nat) : ZMod n) = -(a : ZMod n) := by
  have h : a % n < n := Nat.mod_lt _ hn
  rw [negMod, ZMod.natCast_mod, Nat.cast_sub (by omega), ZMod.natCast_mod, ZMod.natCast_self, zero_sub]

theorem negMod_lt (a n : Nat) (hn : 0 < n) : negMod a n < n := Nat.mod_lt _ hn

/-- A small curve to test statements on: seven points, over a field of eleven elements.  (Not an actual curve equation:
the group is `ZMod 7`, with coordinates chosen so that opposite points share `x` and have `y` summing to 11.) -/
def toy : Curve where
  α := ZMod 7
  G := 1
  N := 7
  P := 11
  bitSize := 4
  x a := [0, 3, 5, 2, 2, 5, 3].getD a.val 0
  y a := [0, 4, 2, 6, 5, 9, 7].getD a.val 0
  isOn u v := [(3, 4), (5, 2), (2, 6), (2, 5), (5, 9), (3, 7)].elem (u, v)
  prime := by decide
  order k := by
    rw [nsmul_one, ZMod.natCast_eq_zero_iff]
  x_lt := by decide
  y_lt := by decide
  size := by decide
  isOn_coord := by decide

/-- A small hash function to test statements on: the sum of the bytes, in one byte. -/
def toyHash : HashFn where
  f m := [m.foldl (fun a b => a * 3 + b) 5#8]
  size := 1
  block := 4
  pos := by decide
  len _ := rfl

/-- A second small curve, with more points (257) than its field has elements (251). -/
def toyBig : Curve where
  α := ZMod 257
  G := 1
  N := 257
  P := 251
  bitSize := 8
  x a := min a.val (257 - a.val)
  y a := if a.val = 0 then 0 else if a.val < 129 then a.val else 251 - (257 - a.val)
  isOn u v := decide (0 < u) && decide (u < 129) && (v == u || v == 251 - u)
  prime := by norm_num
  order k := by
    rw [nsmul_one, ZMod.natCast_eq_zero_iff]
  x_lt a := by
    have : a.val < 257 := ZMod.val_lt a
    omega
  y_lt a := by
    have : a.val < 257 := ZMod.val_lt a
    split
    · decide
    · split <;> omega
  size := by decide
  isOn_coord a := by
    have : a.val < 257 := ZMod.val_lt a
    by_cases h : a = 0
    · subst h; decide
    · have hv : a.val ≠ 0 := fun e => h ((ZMod.val_eq_zero a).mp e)
      have : decide (a ≠ 0) = true := by simp [h]
      rw [this, if_neg hv]
      generalize ZMod.val a = w at *
      split
      · rw [Nat.min_eq_left (by omega)]; simp only [Bool.and_eq_true, decide_eq_true_eq, Bool.or_eq_true, beq_iff_eq, true_or, or_true, and_true]; omega
      · rw [Nat.min_eq_right (by omega)]; simp only [Bool.and_eq_true, decide_eq_true_eq, Bool.or_eq_true, beq_iff_eq, true_or, or_true, and_true]; omega

end Verif.Pub
