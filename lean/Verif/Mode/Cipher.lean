import Verif.Go.Mem
/-
Block ciphers as the modes of operation see them (`crypto/cipher.Block`).
-/
namespace Verif

/-- A keyed block cipher: a length-preserving map on blocks of `bs` bytes with an inverse.
The modes are proved for every such cipher. -/
structure BlockCipher where
  bs : Nat
  E : Bytes → Bytes
  D : Bytes → Bytes
  bs_pos : 0 < bs
  lenE : ∀ b, b.length = bs → (E b).length = bs
  lenD : ∀ b, b.length = bs → (D b).length = bs
  DE : ∀ b, b.length = bs → D (E b) = b

/-- `b.Encrypt(dst, src)` on memory: reads the `bs` bytes at `s`, writes `bs` bytes at `d`.
(Callers only pass equal or disjoint ranges.) -/
def BlockCipher.encM (c : BlockCipher) (m : Mem) (d s : Nat) : Mem := m.write d (c.E (m.read s c.bs))

/-- `b.Decrypt(dst, src)` on memory. -/
def BlockCipher.decM (c : BlockCipher) (m : Mem) (d s : Nat) : Mem := m.write d (c.D (m.read s c.bs))

/-- A small concrete cipher used to show that hypotheses are satisfiable: reverse the block and add 1
to every byte. -/
def toyCipher (bs : Nat) (h : 0 < bs) : BlockCipher where
  bs := bs
  E b := b.reverse.map (· + 1)
  D b := (b.map (· - 1)).reverse
  bs_pos := h
  lenE := by intro b hb; simp [hb]
  lenD := by intro b hb; simp [hb]
  DE := by
    intro b _
    have : ((fun x : Byte => x - 1) ∘ fun x : Byte => x + 1) = id := by
      funext x; exact BitVec.add_sub_cancel x 1
    simp only [List.map_map, this, List.map_id, List.reverse_reverse]

/-- A small keyed family: XOR with a key of the block length. -/
def xorCipher (k : Bytes) (h : 0 < k.length) : BlockCipher where
  bs := k.length
  E b := xorb b k
  D b := xorb b k
  bs_pos := h
  lenE := by intro b hb; simp [hb]
  lenD := by intro b hb; simp [hb]
  DE := by intro b hb; rw [xorb_xorb_cancel_right b k (by omega)]

/-- A constructor of ciphers from keys that accepts keys of exactly `n` bytes. -/
def toyKeyed (n : Nat) (k : Bytes) : Option BlockCipher :=
  if h : k.length = n ∧ 0 < n then some (xorCipher k (by omega)) else none

end Verif
