import Verif.Aead.Ocb3Lemmas
import Mathlib.Data.Fintype.EquivFin
/-
A length-preserving map on blocks with a left inverse has it as a right inverse too.
-/
namespace Verif
open Verif.Mode.Spec (natBe beNat)

theorem BlockCipher.ED (c : BlockCipher) (b : Bytes) (hb : b.length = c.bs) : c.E (c.D b) = b := by
  have pos : 0 < 256 ^ c.bs := Nat.pow_pos (by decide)
  have lt : ∀ x : Bytes, x.length = c.bs → beNat x < 256 ^ c.bs := fun x hx => by
    have := Aead.beNat_lt x; rwa [hx] at this
  have back : ∀ x : Bytes, x.length = c.bs → natBe c.bs (beNat x) = x := fun x hx => by
    rw [← hx]; exact Mode.natBe_beNat x
  have ln : ∀ v, (natBe c.bs v).length = c.bs := fun v => Mode.natBe_len _ _
  let F : Fin (256 ^ c.bs) → Fin (256 ^ c.bs) := fun i => ⟨beNat (c.E (natBe c.bs i.val)), lt _ (c.lenE _ (ln _))⟩
  have inj : Function.Injective F := by
    intro i j hij
    have h1 : beNat (c.E (natBe c.bs i.val)) = beNat (c.E (natBe c.bs j.val)) := congrArg Fin.val hij
    have h2 : c.E (natBe c.bs i.val) = c.E (natBe c.bs j.val) := by
      rw [← back _ (c.lenE _ (ln i.val)), h1, back _ (c.lenE _ (ln j.val))]
    have h3 : natBe c.bs i.val = natBe c.bs j.val := by
      rw [← c.DE _ (ln i.val), h2, c.DE _ (ln j.val)]
    apply Fin.ext
    rw [← Aead.beNat_natBe c.bs i.val i.isLt, h3, Aead.beNat_natBe c.bs j.val j.isLt]
  obtain ⟨i, hi⟩ := Finite.surjective_of_injective inj ⟨beNat b, lt b hb⟩
  have h1 : beNat (c.E (natBe c.bs i.val)) = beNat b := congrArg Fin.val hi
  have h2 : c.E (natBe c.bs i.val) = b := by
    rw [← back _ (c.lenE _ (ln i.val)), h1, back _ hb]
  rw [← h2, c.DE _ (ln _)]

end Verif
