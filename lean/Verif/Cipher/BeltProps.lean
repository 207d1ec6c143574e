import Verif.Cipher.Belt
import Verif.Hash.BeltLemmas
/-
C172: belt (cipher/belt).  The specification is STB 34.101.31 as `Verif.Hash.Belt.Spec` writes it for belt-hash (`cycle` and `F`), and the key expansion of
section 6.1.2 below.
-/
namespace Verif.Cipher.Belt
set_option maxRecDepth 100000

namespace Spec

/-- The key words `θ1 … θ8` as bytes: a key of 128 bits is taken twice, one of 192 bits is followed by `θ1 ⊕ θ2 ⊕ θ3` and `θ4 ⊕ θ5 ⊕ θ6`. -/
def theta (k : Bytes) : Bytes :=
  let t (i : Nat) : Bytes := (k.drop (4 * (i - 1))).take 4
  if k.length = 16 then k ++ k
  else if k.length = 24 then k ++ xorb (xorb (t 1) (t 2)) (t 3) ++ xorb (xorb (t 4) (t 5)) (t 6)
  else k

/-- The block cipher of the standard for a key of any of the three sizes. -/
def encrypt (k X : Bytes) : Bytes := Verif.Hash.Belt.Spec.F (theta k) X

/-- `G_r` with the rotation to the right: the only difference of the package in the rounds. -/
def GrRight (r : Nat) (u : BitVec 32) : BitVec 32 :=
  let H := Verif.Hash.Belt.Spec.Hs
  rotl ((H ((u >>> 24).setWidth 8)).setWidth 32 <<< 24 ||| (H ((u >>> 16).setWidth 8)).setWidth 32 <<< 16 |||
    (H ((u >>> 8).setWidth 8)).setWidth 32 <<< 8 ||| (H ((u >>> 0).setWidth 8)).setWidth 32 <<< 0) (32 - r)

/-- The cycle of the standard over any function in place of `G_r`. -/
def cycleG (Gr : Nat → BitVec 32 → BitVec 32) (θ : Bytes) (i : Nat) :
    BitVec 32 × BitVec 32 × BitVec 32 × BitVec 32 → BitVec 32 × BitVec 32 × BitVec 32 × BitVec 32
  | (a, b, c, d) =>
    let K := Verif.Hash.Belt.Spec.K θ
    let b := b ^^^ Gr 5 (a + K (7 * i - 6))
    let c := c ^^^ Gr 21 (d + K (7 * i - 5))
    let a := a - Gr 13 (b + K (7 * i - 4))
    let e := Gr 21 (b + c + K (7 * i - 3)) ^^^ BitVec.ofNat 32 i
    let b := b + e
    let c := c - e
    let d := d + Gr 13 (c + K (7 * i - 2))
    let b := b ^^^ Gr 21 (a + K (7 * i - 1))
    let c := c ^^^ Gr 5 (d + K (7 * i))
    (b, d, a, c)

/-- The block cipher of the standard over any function in place of `G_r`. -/
def FG (Gr : Nat → BitVec 32 → BitVec 32) (θ X : Bytes) : Bytes :=
  let v := [1, 2, 3, 4, 5, 6, 7, 8].foldl (fun v i => cycleG Gr θ i v)
    (Verif.Hash.Belt.Spec.word X 0, Verif.Hash.Belt.Spec.word X 1, Verif.Hash.Belt.Spec.word X 2, Verif.Hash.Belt.Spec.word X 3)
  stLE 4 [v.2.1, v.2.2.2, v.1, v.2.2.1]

end Spec

/-- The general form is the standard for its own `G_r`. -/
theorem FG_standard (θ X : Bytes) : Spec.FG Verif.Hash.Belt.Spec.Gr θ X = Verif.Hash.Belt.Spec.F θ X := rfl

/-- C172. `NewCipher` takes keys of 16, 24 and 32 bytes; the value is a block cipher with blocks of 16 bytes, and `Decrypt` inverts `Encrypt`. -/
theorem C172_block_cipher : Implements newCipher (fun n => n = 16 ∨ n = 24 ∨ n = 32) 16 := implements

theorem S_eq : S = Verif.Hash.Belt.S := rfl

theorem G_eq (x : W) (r : Nat) : G x r = Spec.GrRight r x := rfl

theorem turn_eq (θ : Bytes) (h : θ.length = 32) (v : V) : ∀ i < 8, turn θ v i = Spec.cycleG Spec.GrRight θ (i + 1) v := by
  have hk : ∀ i, i < 8 → ∀ j, j < 7 → key θ i j = Verif.Hash.Belt.Spec.K θ (7 * (i + 1) - (6 - j)) := by
    intro i hi j hj
    have h8 : (KIdx.getD i []).getD j 0 = (7 * (i + 1) - (6 - j) - 1) % 8 := by
      have : ∀ i < 8, ∀ j < 7, (KIdx.getD i []).getD j 0 = (7 * (i + 1) - (6 - j) - 1) % 8 := by decide
      exact this i hi j hj
    rw [key, h8, Verif.Hash.Belt.Spec.K, Verif.Hash.Belt.word_eq _ _ (by omega)]
    rfl
  intro i hi
  obtain ⟨a, b, c, d⟩ := v
  have h0 := hk i hi 0 (by omega)
  have h1 := hk i hi 1 (by omega)
  have h2 := hk i hi 2 (by omega)
  have h3 := hk i hi 3 (by omega)
  have h4 := hk i hi 4 (by omega)
  have h5 := hk i hi 5 (by omega)
  have h6 := hk i hi 6 (by omega)
  simp only [turn, core, Spec.cycleG, G_eq, h0, h1, h2, h3, h4, h5, h6, BitVec.ofNat_add]
  rfl

theorem expandKey_length {k : Bytes} (h : k.length = 16 ∨ k.length = 24 ∨ k.length = 32) : (expandKey k).length = 32 := by
  rw [expandKey]
  rcases h with h | h | h <;> simp [h]

/-- C172, what `Encrypt` computes for every key and block: the cycles of the standard with `G_r` rotating to the right. Missing: the standard rotates to the
left and expands keys of 192 bits otherwise, see the next theorems. -/
theorem C172_rounds_partial {k X : Bytes} (hk : k.length = 16 ∨ k.length = 24 ∨ k.length = 32) (hX : X.length = 16) :
    encB k X = Spec.FG Spec.GrRight (expandKey k) X := by
  have h := expandKey_length hk
  have w (j : Nat) (hj : j < 4) : (ldLE 32 4 4 X).getD j 0 = Verif.Hash.Belt.Spec.word X j := by
    rw [Verif.Hash.Belt.Spec.word, hX]
  have e : ld4LE 32 4 X = (Verif.Hash.Belt.Spec.word X 0, Verif.Hash.Belt.Spec.word X 1, Verif.Hash.Belt.Spec.word X 2, Verif.Hash.Belt.Spec.word X 3) := by
    rw [← w 0 (by decide), ← w 1 (by decide), ← w 2 (by decide), ← w 3 (by decide)]
    rfl
  rw [encB, enc4LE, e, encrypt, Spec.FG, show List.range 8 = [0, 1, 2, 3, 4, 5, 6, 7] from rfl]
  simp only [List.foldl_cons, List.foldl_nil]
  rw [turn_eq _ h _ 0 (by decide), turn_eq _ h _ 1 (by decide), turn_eq _ h _ 2 (by decide), turn_eq _ h _ 3 (by decide),
    turn_eq _ h _ 4 (by decide), turn_eq _ h _ 5 (by decide), turn_eq _ h _ 6 (by decide), turn_eq _ h _ 7 (by decide)]
  simp only [Nat.reduceAdd]
  generalize Spec.cycleG Spec.GrRight (expandKey k) 8 _ = v
  obtain ⟨a, b, c, d⟩ := v
  rfl

/-- C172: keys of 16 and 32 bytes are expanded as in the standard. Missing: keys of 24 bytes. -/
theorem C172_expand_partial {k : Bytes} (hk : k.length = 16 ∨ k.length = 32) : expandKey k = Spec.theta k := by
  rw [expandKey, Spec.theta]
  rcases hk with h | h <;> simp [h]

/-- C172, violated: with the key and the block of table A.1 of the standard `Encrypt` does not give the block the standard gives, which is also the one
this repository's own belt-hash computes with. -/
theorem C172_rotation_violated :
    kat newCipher (hx 32 0xe9dee72c8f0c0fa62ddb49f46f73964706075316ed247a3739cba38303a98bf6) (hx 16 0xb194bac80a08f53b366d008e584a5de4) =
      .ok (hx 16 0x2e5f26bc9d96af3239cd7a0fbf578f16) ∧
    Spec.encrypt (hx 32 0xe9dee72c8f0c0fa62ddb49f46f73964706075316ed247a3739cba38303a98bf6) (hx 16 0xb194bac80a08f53b366d008e584a5de4) =
      hx 16 0x69cca1c93557c9e3d66bc3e0fa88fa6e ∧
    Verif.Hash.Belt.encrypt (hx 16 0xb194bac80a08f53b366d008e584a5de4) (hx 32 0xe9dee72c8f0c0fa62ddb49f46f73964706075316ed247a3739cba38303a98bf6) =
      hx 16 0x69cca1c93557c9e3d66bc3e0fa88fa6e := by decide +kernel

/-- C172, violated: a key of 192 bits is not expanded as in the standard. The last word is `θ2 ⊕ θ3 ⊕ θ4` and should be `θ4 ⊕ θ5 ⊕ θ6`, so for every key the
expansion is wrong unless `θ2 ⊕ θ3 = θ5 ⊕ θ6`. -/
theorem C172_key192_violated (t1 t2 t3 t4 t5 t6 : Bytes) (h1 : t1.length = 4) (h2 : t2.length = 4) (h3 : t3.length = 4) (h4 : t4.length = 4)
    (h5 : t5.length = 4) (h6 : t6.length = 4) :
    (expandKey (t1 ++ t2 ++ t3 ++ t4 ++ t5 ++ t6)).drop 28 = xorb (xorb t2 t3) t4 ∧
    (Spec.theta (t1 ++ t2 ++ t3 ++ t4 ++ t5 ++ t6)).drop 28 = xorb (xorb t4 t5) t6 ∧
    (expandKey (t1 ++ t2 ++ t3 ++ t4 ++ t5 ++ t6) = Spec.theta (t1 ++ t2 ++ t3 ++ t4 ++ t5 ++ t6) ↔ xorb t2 t3 = xorb t5 t6) := by
  match t1, t2, t3, t4, t5, t6, h1, h2, h3, h4, h5, h6 with
  | [_, _, _, _], [b0, b1, b2, b3], [c0, c1, c2, c3], [d0, d1, d2, d3], [e0, e1, e2, e3], [f0, f1, f2, f3], _, _, _, _, _, _ =>
    refine ⟨rfl, rfl, ?_⟩
    have hc (b c d e f : Byte) : b ^^^ c ^^^ d = d ^^^ e ^^^ f ↔ b ^^^ c = e ^^^ f := by
      rw [BitVec.xor_assoc d e f, BitVec.xor_comm (b ^^^ c) d]
      exact ⟨fun h => by simpa [← BitVec.xor_assoc] using congrArg (d ^^^ ·) h, fun h => by rw [h]⟩
    simp [expandKey, Spec.theta, xorb, List.range, List.range.loop, hc]

/-- The vectors of belt_test.go. -/
example : kat newCipher (hx 32 0x2342bb9efa38542cbed0ac83940ac2988d7c47ce264908461cc1b5137ae6b604) (hx 16 0xbdf4e311) =
    .ok (hx 16 0x74bc468e2d40f5839633370e7d67bd23) := by decide +kernel
example : kat newCipher (hx 24 0x2342bb9efa38542cbed0ac83940ac298bac77a7717942863) (hx 16 0xde255aff) = .ok (hx 16 0x312de1e84c285f8a4c3ee45de9a8bacc) := by
  decide +kernel
example : kat newCipher (hx 16 0x2342bb9efa38542c0af75647f29f615d) (hx 16 0x0c9b2807) = .ok (hx 16 0xc362d0c8e930486e00df76023439047d) := by decide +kernel
example : xorb (hx 4 0x940ac298) (hx 4 1) ≠ xorb (hx 4 5) (hx 4 6) := by decide

end Verif.Cipher.Belt
