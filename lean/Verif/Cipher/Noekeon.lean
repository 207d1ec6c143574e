import Verif.Cipher.Common2
/-
Model of cipher/noekeon (noekeon.go, utils.go).
-/
namespace Verif.Cipher.Noekeon

abbrev W := BitVec 32
abbrev St := W × W × W × W

/-- utils.go:56-62 -/
def RC : List W := [0x00000080, 0x0000001b, 0x00000036, 0x0000006c, 0x000000d8, 0x000000ab, 0x0000004d, 0x0000009a, 0x0000002f, 0x0000005e, 0x000000bc, 0x00000063, 0x000000c6, 0x00000097, 0x00000035, 0x0000006a, 0x000000d4]

/-- utils.go:68, 74, 84, 90: `temp ^ ROLc(temp, 8) ^ RORc(temp, 8)`; `RORc(x, n) = ROLc(x, 32 - n)` (utils.go:48-54). -/
def L (t : W) : W := t ^^^ rotl t 8 ^^^ rotl t (32 - 8)
/-- utils.go:64-78 -/
def kTheta (s : St) : St :=
  let (a, b, c, d) := s
  let t := L (a ^^^ c)
  let b := b ^^^ t
  let d := d ^^^ t
  let t := L (b ^^^ d)
  (a ^^^ t, b, c ^^^ t, d)
/-- utils.go:80-94 -/
def theta (k s : St) : St :=
  let (a, b, c, d) := s
  let t := L (a ^^^ c)
  let b := b ^^^ (t ^^^ k.2.1)
  let d := d ^^^ (t ^^^ k.2.2.2)
  let t := L (b ^^^ d)
  (a ^^^ (t ^^^ k.1), b, c ^^^ (t ^^^ k.2.2.1), d)
/-- utils.go:96-105 -/
def gamma (s : St) : St :=
  let (a, b, c, d) := s
  let b := b ^^^ ~~~(d ||| c)
  let a := a ^^^ (c &&& b)
  let (d, a) := (a, d)
  let c := c ^^^ (a ^^^ b ^^^ d)
  let b := b ^^^ ~~~(d ||| c)
  let a := a ^^^ (c &&& b)
  (a, b, c, d)
/-- utils.go:107-111 -/
def p1 (s : St) : St := (s.1, rotl s.2.1 1, rotl s.2.2.1 5, rotl s.2.2.2 2)
/-- utils.go:113-117 -/
def p2 (s : St) : St := (s.1, rotl s.2.1 (32 - 1), rotl s.2.2.1 (32 - 5), rotl s.2.2.2 (32 - 2))
def addRC (i : Nat) (s : St) : St := (s.1 ^^^ RC.getD i 0, s.2)

/-- noekeon.go:100-108 -/
def encRound (K : St) (s : St) (i : Nat) : St := p2 (gamma (p1 (theta K (addRC i s))))
/-- noekeon.go:110-131 -/
def enc (K : St) (s : St) : St := theta K (addRC 16 ((List.range 16).foldl (encRound K) s))
/-- noekeon.go:133-141 -/
def decRound (dK : St) (s : St) (i : Nat) : St := p2 (gamma (p1 (addRC i (theta dK s))))
/-- noekeon.go:143-164 -/
def dec (dK : St) (s : St) : St := addRC 0 (theta dK (((List.range 16).reverse.map (· + 1)).foldl (decRound dK) s))

/-- noekeon.go:86-98 -/
def encrypt (key : Bytes) : Bytes → Bytes := enc4BE 32 4 (enc (ld4BE 32 4 key))
def decrypt (key : Bytes) : Bytes → Bytes := enc4BE 32 4 (dec (kTheta (ld4BE 32 4 key)))

/-- noekeon.go:23-84 -/
def newCipher (key : Bytes) : Res Obj :=
  if key.length = 16 then .ok ⟨16, spill 4 16 (encrypt key), spill 4 16 (decrypt key)⟩ else .err

theorem L_xor (x y : W) : L (x ^^^ y) = L x ^^^ L y := by
  simp only [L, rotl_xor]
  ac_rfl

theorem theta_theta (k s : St) : theta (kTheta k) (theta k s) = s := by
  obtain ⟨a, b, c, d⟩ := s
  obtain ⟨k0, k1, k2, k3⟩ := k
  have e1 : b ^^^ (L (a ^^^ c) ^^^ k1) ^^^ (L (a ^^^ (L (b ^^^ (L (a ^^^ c) ^^^ k1) ^^^ (d ^^^ (L (a ^^^ c) ^^^ k3))) ^^^ k0) ^^^
      (c ^^^ (L (b ^^^ (L (a ^^^ c) ^^^ k1) ^^^ (d ^^^ (L (a ^^^ c) ^^^ k3))) ^^^ k2))) ^^^ (k1 ^^^ L (k0 ^^^ k2))) = b := by
    generalize L (b ^^^ (L (a ^^^ c) ^^^ k1) ^^^ (d ^^^ (L (a ^^^ c) ^^^ k3))) = T
    rw [show a ^^^ (T ^^^ k0) ^^^ (c ^^^ (T ^^^ k2)) = (T ^^^ T) ^^^ ((a ^^^ c) ^^^ (k0 ^^^ k2)) by ac_rfl, BitVec.xor_self, BitVec.zero_xor, L_xor (a ^^^ c)]
    rw [show b ^^^ (L (a ^^^ c) ^^^ k1) ^^^ (L (a ^^^ c) ^^^ L (k0 ^^^ k2) ^^^ (k1 ^^^ L (k0 ^^^ k2))) =
      b ^^^ (L (a ^^^ c) ^^^ L (a ^^^ c)) ^^^ (k1 ^^^ k1) ^^^ (L (k0 ^^^ k2) ^^^ L (k0 ^^^ k2)) by ac_rfl]
    simp only [BitVec.xor_self, BitVec.xor_zero]
  have e2 : d ^^^ (L (a ^^^ c) ^^^ k3) ^^^ (L (a ^^^ (L (b ^^^ (L (a ^^^ c) ^^^ k1) ^^^ (d ^^^ (L (a ^^^ c) ^^^ k3))) ^^^ k0) ^^^
      (c ^^^ (L (b ^^^ (L (a ^^^ c) ^^^ k1) ^^^ (d ^^^ (L (a ^^^ c) ^^^ k3))) ^^^ k2))) ^^^ (k3 ^^^ L (k0 ^^^ k2))) = d := by
    generalize L (b ^^^ (L (a ^^^ c) ^^^ k1) ^^^ (d ^^^ (L (a ^^^ c) ^^^ k3))) = T
    rw [show a ^^^ (T ^^^ k0) ^^^ (c ^^^ (T ^^^ k2)) = (T ^^^ T) ^^^ ((a ^^^ c) ^^^ (k0 ^^^ k2)) by ac_rfl, BitVec.xor_self, BitVec.zero_xor, L_xor (a ^^^ c)]
    rw [show d ^^^ (L (a ^^^ c) ^^^ k3) ^^^ (L (a ^^^ c) ^^^ L (k0 ^^^ k2) ^^^ (k3 ^^^ L (k0 ^^^ k2))) =
      d ^^^ (L (a ^^^ c) ^^^ L (a ^^^ c)) ^^^ (k3 ^^^ k3) ^^^ (L (k0 ^^^ k2) ^^^ L (k0 ^^^ k2)) by ac_rfl]
    simp only [BitVec.xor_self, BitVec.xor_zero]
  have e3 : ∀ x k : W, x ^^^ (L (b ^^^ (L (a ^^^ c) ^^^ k1) ^^^ (d ^^^ (L (a ^^^ c) ^^^ k3))) ^^^ k) ^^^
      (L (b ^^^ d) ^^^ (k ^^^ L (k1 ^^^ L (k0 ^^^ k2) ^^^ (k3 ^^^ L (k0 ^^^ k2))))) = x := by
    intro x k
    generalize L (a ^^^ c) = P
    generalize L (k0 ^^^ k2) = Q
    rw [show b ^^^ (P ^^^ k1) ^^^ (d ^^^ (P ^^^ k3)) = (P ^^^ P) ^^^ ((b ^^^ d) ^^^ (k1 ^^^ k3)) by ac_rfl,
      show k1 ^^^ Q ^^^ (k3 ^^^ Q) = (Q ^^^ Q) ^^^ (k1 ^^^ k3) by ac_rfl]
    rw [BitVec.xor_self, BitVec.zero_xor, BitVec.xor_self, BitVec.zero_xor, L_xor (b ^^^ d)]
    rw [show x ^^^ (L (b ^^^ d) ^^^ L (k1 ^^^ k3) ^^^ k) ^^^ (L (b ^^^ d) ^^^ (k ^^^ L (k1 ^^^ k3))) =
      x ^^^ (L (b ^^^ d) ^^^ L (b ^^^ d)) ^^^ (k ^^^ k) ^^^ (L (k1 ^^^ k3) ^^^ L (k1 ^^^ k3)) by ac_rfl]
    simp only [BitVec.xor_self, BitVec.xor_zero]
  simp only [theta, kTheta, e1, e2, e3]

theorem gamma_bit : ∀ a b c d : Bool,
    let b1 := b ^^ !(d || c)
    let a1 := a ^^ (c && b1)
    let c1 := c ^^ (d ^^ b1 ^^ a1)
    let b2 := b1 ^^ !(a1 || c1)
    let a2 := d ^^ (c1 && b2)
    let b3 := b2 ^^ !(a1 || c1)
    let a3 := a2 ^^ (c1 && b3)
    let c3 := c1 ^^ (a1 ^^ b3 ^^ a3)
    let b4 := b3 ^^ !(a3 || c3)
    let a4 := a1 ^^ (c3 && b4)
    a4 = a ∧ b4 = b ∧ c3 = c ∧ a3 = d := by decide

theorem gamma_gamma (s : St) : gamma (gamma s) = s := by
  obtain ⟨a, b, c, d⟩ := s
  simp only [gamma]
  have h := fun i => gamma_bit (a.getLsbD i) (b.getLsbD i) (c.getLsbD i) (d.getLsbD i)
  refine Prod.ext ?_ (Prod.ext ?_ (Prod.ext ?_ ?_))
  · apply BitVec.eq_of_getLsbD_eq; intro i hi
    simpa [hi] using (h i).1
  · apply BitVec.eq_of_getLsbD_eq; intro i hi
    simpa [hi] using (h i).2.1
  · apply BitVec.eq_of_getLsbD_eq; intro i hi
    simpa [hi] using (h i).2.2.1
  · apply BitVec.eq_of_getLsbD_eq; intro i hi
    simpa [hi] using (h i).2.2.2

theorem p1_p2 (s : St) : p1 (p2 s) = s := by
  simp only [p1, p2]
  rw [rotl_rotl (w := 32) _ (32 - 1) 1 (by decide), rotl_rotl (w := 32) _ (32 - 5) 5 (by decide), rotl_rotl (w := 32) _ (32 - 2) 2 (by decide)]
theorem p2_p1 (s : St) : p2 (p1 s) = s := by
  simp only [p1, p2]
  rw [rotl_rotl (w := 32) _ 1 (32 - 1) (by decide), rotl_rotl (w := 32) _ 5 (32 - 5) (by decide), rotl_rotl (w := 32) _ 2 (32 - 2) (by decide)]
theorem addRC_addRC (i : Nat) (s : St) : addRC i (addRC i s) = s := by simp only [addRC, xor_self_right]

theorem dec_enc (K s : St) : dec (kTheta K) (enc K s) = s :=
  sandwich (fun i s => theta K (addRC i s)) (fun i s => addRC i (theta (kTheta K) s)) (fun s => p2 (gamma (p1 s))) (fun s => p2 (gamma (p1 s)))
    (fun s => by rw [p1_p2, gamma_gamma, p2_p1]) (fun i s => by rw [theta_theta, addRC_addRC]) 16 s

theorem implements : ImplementsSpill newCipher (fun n => n = 16) 16 4 :=
  implementsSpill_of (ok := fun n => n = 16) fun key _ => blockFn_4BE (w := 32) (sz := 4) 16 rfl rfl (f := enc (ld4BE 32 4 key)) (g := dec (kTheta (ld4BE 32 4 key))) (dec_enc _)

end Verif.Cipher.Noekeon
