import Verif.Zuc.Zuc
import Verif.Zuc.ZucSpec
/-
ZUC: the code's S-box tables are the ones of the standard.
-/
namespace Verif.Zuc

/-- The code's tables are the S-boxes of the standard. -/
theorem s0_eq : ∀ x : BitVec 8, S0 (x.setWidth 32) = Spec.s0 x := by decide +kernel
theorem s1_eq : ∀ x : BitVec 8, S1 (x.setWidth 32) = Spec.s1 x := by decide +kernel

/-- The inverses, entry 0 in the most significant digits. -/
def invN : Nat :=
  0x0001c586a7fb43b1966fb891e4f09dd04bc9f2fc5cd48d5072cd78258bf668b6e0eba1cf791b7e522e4e6ac2839a284f3981a3473c54d7a580307bee34555b4c70bdb0069565a233f975c8103f5a292f178c277f353d61d884634d3e14d5e2b5d95685599445e6cb1eb72ac3aebb970940bc18ccf84977761a24ef3ae8c7265338319b2c586203c48fddf71c5116dc88b90bffed6444086edaab2d82d10ed2bece224632d637fa04dfc0db99f5b36cba4207f4ade35f1f690a90af6d71419fd3a9de2b6b8702e97d4a11e7677319a0230f9c9ebf155da436576098aa8e89c1a820ea5eb40cf166ca7cc6e121fe933b7a0de512fdb2ac1d8a7448a60513f3ec92

theorem s1_algebra' : ∀ x : BitVec 8, (if x = 0 then BitVec.ofNat 8 (invN >>> (8 * (255 - x.toNat))) = 0 else
    Spec.mul x (BitVec.ofNat 8 (invN >>> (8 * (255 - x.toNat)))) = 1) ∧
    Spec.s1 x = Spec.lin (BitVec.ofNat 8 (invN >>> (8 * (255 - x.toNat)))) ^^^ 0x55 := by decide +kernel

theorem s1_algebra : Spec.S1Algebra := fun x => ⟨_, s1_algebra' x⟩

end Verif.Zuc
