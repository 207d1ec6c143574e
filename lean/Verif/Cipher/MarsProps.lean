import Verif.Cipher.Mars
import Mathlib.Tactic.IntervalCases
/-
C179: MARS (cipher/mars).  The specification follows the description of the AES submission (with the key schedule of the second round): an array `D` of four
words that is rotated after each round, an array `T` of fifteen words and, for the multiplication keys, the mask defined by runs of equal bits.
-/
namespace Verif.Cipher.Mars
set_option maxRecDepth 100000

namespace Spec

/-- The table, and its two halves, at the low bits of a word. -/
def S (x : W) : W := sbox.getD (x.toNat % 512) 0
def S0 (x : Byte) : W := sbox.getD x.toNat 0
def S1 (x : Byte) : W := sbox.getD (256 + x.toNat) 0
/-- Byte `i` of a word, 0 the lowest. -/
def byte (x : W) (i : Nat) : Byte := x.extractLsb' (8 * i) 8
/-- Rotation to the left. -/
def rol (x : W) (n : Nat) : W := x.rotateLeft n
def ror (x : W) (n : Nat) : W := x.rotateRight n
/-- The array `D` rotated by one word. -/
def rot : St → St | (d0, d1, d2, d3) => (d1, d2, d3, d0)

/-- Round `i` of the forward mixing. -/
def forward (s : St) (i : Nat) : St :=
  let (d0, d1, d2, d3) := s
  let d1 := (d1 ^^^ S0 (byte d0 0)) + S1 (byte d0 1)
  let d2 := d2 + S0 (byte d0 2)
  let d3 := d3 ^^^ S1 (byte d0 3)
  let d0 := ror d0 24
  let d0 := if i = 0 ∨ i = 4 then d0 + d3 else if i = 1 ∨ i = 5 then d0 + d1 else d0
  rot (d0, d1, d2, d3)

/-- The function `E`: the words `L`, `M`, `R`. -/
def E (x k1 k2 : W) : W × W × W :=
  let M := x + k1
  let R := rol (rol x 13 * k2) 5
  let L := S M
  let M := rol M (R.toNat % 32)
  let L := L ^^^ R
  let R := rol R 5
  let L := L ^^^ R
  let L := rol L (R.toNat % 32)
  (L, M, R)

/-- Round `i` of the core. -/
def main (K : Nat → W) (s : St) (i : Nat) : St :=
  let (d0, d1, d2, d3) := s
  let (L, M, R) := E d0 (K (2 * i + 4)) (K (2 * i + 5))
  let d0 := rol d0 13
  let d2 := d2 + M
  if i < 8 then rot (d0, d1 + L, d2, d3 ^^^ R) else rot (d0, d1 ^^^ R, d2, d3 + L)

/-- Round `i` of the backwards mixing. -/
def backward (s : St) (i : Nat) : St :=
  let (d0, d1, d2, d3) := s
  let d0 := if i = 2 ∨ i = 6 then d0 - d3 else if i = 3 ∨ i = 7 then d0 - d1 else d0
  let d1 := d1 ^^^ S1 (byte d0 0)
  let d2 := d2 - S0 (byte d0 3)
  let d3 := (d3 - S1 (byte d0 2)) ^^^ S0 (byte d0 1)
  let d0 := rol d0 24
  rot (d0, d1, d2, d3)

/-- MARS with the key words `K 0`, …, `K 39`. -/
def encrypt (K : Nat → W) : St → St
  | (a, b, c, d) =>
    let s := (List.range 8).foldl forward (a + K 0, b + K 1, c + K 2, d + K 3)
    let s := (List.range 16).foldl (main K) s
    let (a, b, c, d) := (List.range 8).foldl backward s
    (a - K 36, b - K 37, c - K 38, d - K 39)

/-- Step `i` of the linear part of turn `j`: `T[i] ← T[i] ⊕ ((T[i-7] ⊕ T[i-2]) <<< 3) ⊕ (4 i + j)`, indices modulo 15. -/
def linear (j : Nat) (T : List W) (i : Nat) : List W :=
  T.set i (T.getD i 0 ^^^ rol (T.getD ((i + 15 - 7) % 15) 0 ^^^ T.getD ((i + 15 - 2) % 15) 0) 3 ^^^ BitVec.ofNat 32 (4 * i + j))
/-- Step `i` of a stirring round: `T[i] ← (T[i] + S[low 9 bits of T[i-1]]) <<< 9`. -/
def stir (T : List W) (i : Nat) : List W := T.set i (rol (T.getD i 0 + S (T.getD ((i + 15 - 1) % 15) 0)) 9)
/-- Turn `j`: the linear part and four stirring rounds. -/
def turn (T : List W) (j : Nat) : List W :=
  (List.range 4).foldl (fun T _ => (List.range 15).foldl stir T) ((List.range 15).foldl (linear j) T)
/-- `T` at the start: the key words, their number, zeros. -/
def start (key : Bytes) : List W :=
  let n := key.length / 4
  ldLE 32 4 n key ++ BitVec.ofNat 32 n :: List.replicate (14 - n) 0
/-- Key word `i` before the last step: `T[4 i mod 15]` after turn `i / 10`, with `i` counted in that turn. -/
def word (key : Bytes) (i : Nat) : W := ((List.range (i / 10 + 1)).foldl turn (start key)).getD (4 * (i % 10) % 15) 0

/-- Bits `l` to `l + 9` of `w` are equal. -/
def run10 (w : W) (l : Nat) : Prop := l + 9 < 32 ∧ ∀ j < 10, w.getLsbD (l + j) = w.getLsbD l
/-- Bit `l` of the mask: `2 ≤ l ≤ 30`, bit `l` of `w` belongs to a run of ten equal bits, and is equal to both its neighbours. -/
def inMask (w : W) (l : Nat) : Prop :=
  2 ≤ l ∧ l ≤ 30 ∧ w.getLsbD (l - 1) = w.getLsbD l ∧ w.getLsbD (l + 1) = w.getLsbD l ∧ ∃ b, b ≤ l ∧ l ≤ b + 9 ∧ run10 w b

/-- The table `B`. -/
def B : Nat → W
  | 0 => 0xa4a8d57b | 1 => 0x5b5d193b | 2 => 0xc8a8309b | _ => 0x73f9a978

/-- `K 0`, …, `K 39` are the key words of `key`: words 5, 7, …, 35, by which the core multiplies, are `w ⊕ (p ∧ M)`, where `w` is the word of the turn with its two low
bits set, `M` is its mask and `p` is `B` at those two bits, rotated by the low five bits of the word before; the others are those of the turns. -/
def IsKey (key : Bytes) (K : Nat → W) : Prop :=
  ∀ i < 40, if i % 2 = 1 ∧ 5 ≤ i ∧ i ≤ 35 then
      ∃ M : W, (∀ l < 32, M.getLsbD l = true ↔ inMask (word key i ||| 3) l) ∧
        K i = (word key i ||| 3) ^^^ (rol (B ((word key i).toNat % 4)) ((word key (i - 1)).toNat % 32) &&& M)
    else K i = word key i

end Spec

/-! Rotations and bytes -/

theorem rol_rol (x : W) (m n : Nat) : rol (rol x m) n = rol x (m + n) := by
  apply BitVec.eq_of_getElem_eq
  intro i hi
  rw [rol, rol, rol, rotl_getElem, rotl_getElem _ _ _ (Nat.mod_lt _ (by omega)), rotl_getElem]
  congr 1
  omega

theorem rol_32 (x : W) : rol x 32 = x := by
  apply BitVec.eq_of_getElem_eq
  intro i hi
  rw [rol, rotl_getElem]
  congr 1
  omega
theorem rol_mod (x : W) (n : Nat) : rol x (n + 32) = rol x n := by rw [← rol_rol, rol_32]

/-! Decryption undoes encryption -/

theorem bMix_fMix (a b c d : W) : let (a', b', c', d') := fMix (a, b, c, d); bMix (a', d', c', b') = (a, d, c, b) := by
  simp only [fMix, bMix, ror, rol_rol]
  rw [show 32 - 24 + 8 = 16 from rfl, show 32 - 24 + 16 = 24 from rfl, show 32 - 24 + 24 = 32 from rfl, rol_32]
  simp [BitVec.xor_assoc]

theorem fMix_bMix (a b c d : W) : let (a', b', c', d') := bMix (a, b, c, d); fMix (a', d', c', b') = (a, d, c, b) := by
  simp only [fMix, bMix, ror, rol_rol]
  rw [show 24 + (32 - 8) = 16 + 32 from rfl, show 24 + (32 - 16) = 8 + 32 from rfl, show 24 + (32 - 24) = 32 from rfl, rol_32, rol_mod, rol_mod]
  simp [BitVec.xor_assoc]

theorem coreInv_core (k1 k2 : W) (s : St) : coreInv k1 k2 (core k1 k2 s) = s := by
  obtain ⟨a, b, c, d⟩ := s
  simp only [core, coreInv, ror, rol_rol]
  rw [show 13 + (32 - 13) = 32 from rfl, rol_32]
  simp [BitVec.xor_assoc]

/-- Each statement of a list undone by the one of the other list. -/
theorem run_undo {l m : List (St → St)} (h : List.Forall₂ (fun f g => ∀ s, g (f s) = s) l m) : ∀ s, run m.reverse (run l s) = s := by
  induction h with
  | nil => intro s; rfl
  | @cons f g l m h _ ih =>
    intro s
    rw [run, run, List.reverse_cons, List.foldl_append, List.foldl_cons]
    have := ih (f s)
    rw [run, run] at this
    show g ((m.reverse).foldl (fun s f => f s) (l.foldl (fun s f => f s) (f s))) = s
    rw [this]
    exact h s

/-- The same with the functions at one variable order. -/
theorem dec_enc (K : List W) (s : St) : run (decSteps K) (run (encSteps K) s) = s := by
  rw [show decSteps K = (decSteps K).reverse.reverse from (List.reverse_reverse _).symm]
  refine run_undo ?_ s
  simp only [encSteps, decSteps, List.reverse_cons, List.reverse_nil, List.nil_append, List.cons_append]
  have hb (a b c d : W) : bMix ((fMix (a, b, c, d)).1, (fMix (a, b, c, d)).2.2.2, (fMix (a, b, c, d)).2.2.1, (fMix (a, b, c, d)).2.1) = (a, d, c, b) := bMix_fMix a b c d
  have hf (a b c d : W) : fMix ((bMix (a, b, c, d)).1, (bMix (a, b, c, d)).2.2.2, (bMix (a, b, c, d)).2.2.1, (bMix (a, b, c, d)).2.1) = (a, d, c, b) := fMix_bMix a b c d
  have hc := coreInv_core
  generalize fMix = F at *
  generalize bMix = G at *
  generalize core = C at *
  generalize coreInv = D at *
  repeat' first
    | exact List.Forall₂.nil
    | apply List.Forall₂.cons
  all_goals
    rintro ⟨a, b, c, d⟩
    simp [onABCD, onBCDA, onCDAB, onDABC, onADCB, onBADC, onCBAD, onDCBA, hb, hf, hc]

theorem implements : Implements newCipher (fun n => n ≥ 16 ∧ n ≤ 56 ∧ n % 4 = 0) 16 :=
  implements_fn (ok := fun n => n ≥ 16 ∧ n ≤ 56 ∧ n % 4 = 0) fun _ _ => blockFn_4LE (w := 32) (sz := 4) 16 rfl rfl (dec_enc _)

/-! The rounds -/

theorem and_byte (y : W) (x : Byte) (h : ∀ i < 8, y.getLsbD i = x.getLsbD i) : (y &&& 0xFF).toNat = x.toNat := by
  have : y &&& 0xFF = x.setWidth 32 := by
    apply BitVec.eq_of_getLsbD_eq
    intro i hi
    rw [BitVec.getLsbD_and, BitVec.getLsbD_setWidth]
    by_cases h8 : i < 8
    · rw [h i h8]; interval_cases i <;> simp
    · rw [BitVec.getLsbD_of_ge x i (by omega)]; interval_cases i <;> simp_all
  rw [this, BitVec.toNat_setWidth, Nat.mod_eq_of_lt (Nat.lt_of_lt_of_le x.isLt (by decide))]

theorem S0_byte (y x : W) (n : Nat) (h : ∀ i < 8, y.getLsbD i = x.getLsbD (8 * n + i)) : S0 y = Spec.S0 (Spec.byte x n) := by
  rw [S0, and_byte y (Spec.byte x n) (fun i hi => by rw [h i hi, Spec.byte, BitVec.getLsbD_extractLsb']; simp [hi]), Spec.S0]
theorem S1_byte (y x : W) (n : Nat) (h : ∀ i < 8, y.getLsbD i = x.getLsbD (8 * n + i)) : S1 y = Spec.S1 (Spec.byte x n) := by
  have e := and_byte y (Spec.byte x n) (fun i hi => by rw [h i hi, Spec.byte, BitVec.getLsbD_extractLsb']; simp [hi])
  have := (Spec.byte x n).isLt
  rw [S1, BitVec.toNat_add, e, show (256 : W).toNat = 256 from rfl, Nat.mod_eq_of_lt (by omega), Nat.add_comm, Spec.S1]

theorem rol_bits (x : W) (m n : Nat) (h0 : 0 < m) (hm : m < 32) (h : 8 * n + m = 32) : ∀ i < 8, (rol x m).getLsbD i = x.getLsbD (8 * n + i) := by
  intro i hi
  rw [rol, rotl_bit x m i hm (by omega), if_pos (by omega)]
  congr 1
  omega

theorem fMix_spec (a b c d : W) : fMix (a, b, c, d) =
    (Spec.ror a 24, (b ^^^ Spec.S0 (Spec.byte a 0)) + Spec.S1 (Spec.byte a 1), c + Spec.S0 (Spec.byte a 2), d ^^^ Spec.S1 (Spec.byte a 3)) := by
  have e : ror a 24 = Spec.ror a 24 := by
    rw [ror, rol, rotl, Spec.ror]
    apply BitVec.eq_of_getLsbD_eq
    intro i hi
    interval_cases i <;> simp
  simp only [fMix]
  rw [S0_byte a a 0 (fun i _ => by rw [Nat.mul_zero, Nat.zero_add]), S1_byte (ror a 8) a 1 (rol_bits a 24 1 (by decide) (by decide) rfl),
    S0_byte (ror a 16) a 2 (rol_bits a 16 2 (by decide) (by decide) rfl), S1_byte (ror a 24) a 3 (rol_bits a 8 3 (by decide) (by decide) rfl), e]

theorem bMix_spec (a b c d : W) : bMix (a, b, c, d) =
    (Spec.rol a 24, b ^^^ Spec.S1 (Spec.byte a 0), c - Spec.S0 (Spec.byte a 3), (d - Spec.S1 (Spec.byte a 2)) ^^^ Spec.S0 (Spec.byte a 1)) := by
  simp only [bMix]
  rw [S1_byte a a 0 (fun i _ => by rw [Nat.mul_zero, Nat.zero_add]), S0_byte (rol a 8) a 3 (rol_bits a 8 3 (by decide) (by decide) rfl),
    S1_byte (rol a 16) a 2 (rol_bits a 16 2 (by decide) (by decide) rfl), S0_byte (rol a 24) a 1 (rol_bits a 24 1 (by decide) (by decide) rfl)]
  rfl

theorem and_31 (x : W) : (x &&& 0x1F).toNat = x.toNat % 32 := by
  rw [BitVec.toNat_and]; exact Nat.and_two_pow_sub_one_eq_mod x.toNat 5
theorem and_3 (x : W) : (x &&& 3).toNat = x.toNat % 4 := by
  rw [BitVec.toNat_and]; exact Nat.and_two_pow_sub_one_eq_mod x.toNat 2
theorem S_spec (x : W) : S x = Spec.S x := by
  rw [S, Spec.S, BitVec.toNat_and]
  exact congrArg (sbox.getD · 0) (Nat.and_two_pow_sub_one_eq_mod x.toNat 9)

theorem core_spec (k1 k2 a b c d : W) : core k1 k2 (a, b, c, d) =
    (Spec.rol a 13, b + (Spec.E a k1 k2).1, c + (Spec.E a k1 k2).2.1, d ^^^ (Spec.E a k1 k2).2.2) := by
  simp only [core, Spec.E, and_31, S_spec]
  rfl

/-- Some pieces of the specification on the functions of the code. -/
def addD : St → St | (a, b, c, d) => (a + d, b, c, d)
def addB : St → St | (a, b, c, d) => (a + b, b, c, d)
def subD : St → St | (a, b, c, d) => (a - d, b, c, d)
def subB : St → St | (a, b, c, d) => (a - b, b, c, d)
def rev : St → St | (a, b, c, d) => (a, d, c, b)

theorem forward_spec (s : St) (i : Nat) : Spec.forward s i = Spec.rot (if i = 0 ∨ i = 4 then addD (fMix s) else if i = 1 ∨ i = 5 then addB (fMix s) else fMix s) := by
  obtain ⟨a, b, c, d⟩ := s
  rw [fMix_spec, Spec.forward]
  split
  · rfl
  · split <;> rfl

theorem backward_spec (s : St) (i : Nat) : Spec.backward s i = Spec.rot (bMix (if i = 2 ∨ i = 6 then subD s else if i = 3 ∨ i = 7 then subB s else s)) := by
  obtain ⟨a, b, c, d⟩ := s
  rw [Spec.backward]
  split
  · rw [subD, bMix_spec]
  · split
    · rw [subB, bMix_spec]
    · rw [bMix_spec]

theorem main_spec (K : Nat → W) (s : St) (i : Nat) : Spec.main K s i =
    Spec.rot (if i < 8 then core (K (2 * i + 4)) (K (2 * i + 5)) s else rev (core (K (2 * i + 4)) (K (2 * i + 5)) (rev s))) := by
  obtain ⟨a, b, c, d⟩ := s
  by_cases h : i < 8
  · rw [if_pos h, core_spec]
    simp only [Spec.main, h, if_true]
  · rw [if_neg h, show rev (a, b, c, d) = (a, d, c, b) from rfl, core_spec]
    simp only [Spec.main, h, if_false, rev]

/-- Four rounds bring every variable back to its place. -/
theorem fwd4 (F : St → St) (s : St) : onDABC F (onCDAB F ((fun (a, b, c, d) => (a, b + c, c, d)) (onBCDA F ((fun (a, b, c, d) => (a + d, b, c, d)) (onABCD F s))))) =
    Spec.rot (F (Spec.rot (F (Spec.rot (addB (F (Spec.rot (addD (F s))))))))) := rfl
theorem bwd4 (F : St → St) (s : St) :
    onDABC F ((fun (a, b, c, d) => (a, b, c, d - a)) (onCDAB F ((fun (a, b, c, d) => (a, b, c - b, d)) (onBCDA F (onABCD F s))))) =
    Spec.rot (F (subB (Spec.rot (F (subD (Spec.rot (F (Spec.rot (F s))))))))) := rfl
theorem core4 (F G H I : St → St) (s : St) : onDABC I (onCDAB H (onBCDA G (onABCD F s))) = Spec.rot (I (Spec.rot (H (Spec.rot (G (Spec.rot (F s))))))) := rfl
theorem core4' (F G H I : St → St) (s : St) : onDCBA I (onCBAD H (onBADC G (onADCB F s))) =
    Spec.rot (rev (I (rev (Spec.rot (rev (H (rev (Spec.rot (rev (G (rev (Spec.rot (rev (F (rev s))))))))))))))) := rfl

theorem fold8 {α : Type} (f : α → Nat → α) (s : α) : (List.range 8).foldl f s = f (f (f (f (f (f (f (f s 0) 1) 2) 3) 4) 5) 6) 7 := rfl
theorem fold16 {α : Type} (f : α → Nat → α) (s : α) : (List.range 16).foldl f s =
    f (f (f (f (f (f (f (f (f (f (f (f (f (f (f (f s 0) 1) 2) 3) 4) 5) 6) 7) 8) 9) 10) 11) 12) 13) 14) 15 := rfl

theorem run_spec (K : List W) (s : St) : run (encSteps K) s = Spec.encrypt (k K) s := by
  obtain ⟨a, b, c, d⟩ := s
  rw [run, encSteps, Spec.encrypt]
  simp only [List.foldl_cons, List.foldl_nil, fold8, fold16, forward_spec, backward_spec, main_spec]
  simp only [Nat.reduceEqDiff, Nat.reduceLT, Nat.reduceMul, Nat.reduceAdd, or_false, or_true, if_true, if_false, or_self, reduceIte, Nat.zero_ne_one, Nat.one_ne_zero, OfNat.ofNat_ne_zero, OfNat.zero_ne_ofNat, OfNat.one_ne_ofNat, OfNat.ofNat_ne_one]
  have f4 := fwd4 fMix
  have b4 := bwd4 bMix
  simp only [f4, b4, core4, core4']

/-! The key schedule -/

theorem linear_spec (j : Nat) (t : List W) (ht : t.length = 15) : linear j t = (List.range 15).foldl (Spec.linear j) t := by
  have h : ∀ n ≤ 15, ((List.range n).foldl (Spec.linear j) t).length = 15 ∧ (List.range n).foldl (fun (x : List W × W × W) i =>
      let (t, t1, t2) := x
      let t1 := t1 ^^^ t.getD ((i + 8) % 15) 0
      let v := t.getD i 0 ^^^ (rol t1 3 ^^^ BitVec.ofNat 32 (4 * i + j))
      (t.set i v, t2, v)) (t, t.getD 13 0, t.getD 14 0) =
      ((List.range n).foldl (Spec.linear j) t, ((List.range n).foldl (Spec.linear j) t).getD ((n + 13) % 15) 0, ((List.range n).foldl (Spec.linear j) t).getD ((n + 14) % 15) 0) := by
    intro n
    induction n with
    | zero => intro _; exact ⟨ht, rfl⟩
    | succ n ih =>
      intro hn
      obtain ⟨hl, e⟩ := ih (by omega)
      rw [List.range_succ, List.foldl_append, List.foldl_append, e]
      generalize (List.range n).foldl (Spec.linear j) t = T at hl
      refine ⟨by simp [Spec.linear, hl], ?_⟩
      simp only [List.foldl_cons, List.foldl_nil, Spec.linear]
      rw [show (n + 15 - 7) % 15 = (n + 8) % 15 by omega, show (n + 15 - 2) % 15 = (n + 13) % 15 by omega, show (n + 1 + 13) % 15 = (n + 14) % 15 by omega,
        show (n + 1 + 14) % 15 = n by omega, ← BitVec.xor_assoc, BitVec.xor_comm (T.getD ((n + 13) % 15) 0)]
      have hne : n ≠ (n + 14) % 15 := by omega
      have g1 (v : W) : (T.set n v).getD ((n + 14) % 15) 0 = T.getD ((n + 14) % 15) 0 := by
        rw [List.getD_eq_getElem?_getD, List.getElem?_set_ne hne, List.getD_eq_getElem?_getD]
      have g2 (v : W) : (T.set n v).getD n 0 = v := by
        rw [List.getD_eq_getElem?_getD, List.getElem?_set_self (by omega)]; rfl
      rw [g1, g2]
      rfl
  rw [linear, (h 15 (by decide)).2]

theorem stir_spec (t : List W) (ht : t.length = 15) : stir t = (List.range 15).foldl Spec.stir t := by
  have h : ∀ n ≤ 15, ((List.range n).foldl Spec.stir t).length = 15 ∧ (List.range n).foldl (fun (x : List W × W) i =>
      let (t, t1) := x
      let t1 := t.getD i 0 + S t1
      let v := rol t1 9
      (t.set i v, v)) (t, t.getD 14 0) =
      ((List.range n).foldl Spec.stir t, ((List.range n).foldl Spec.stir t).getD ((n + 14) % 15) 0) := by
    intro n
    induction n with
    | zero => intro _; exact ⟨ht, rfl⟩
    | succ n ih =>
      intro hn
      obtain ⟨hl, e⟩ := ih (by omega)
      rw [List.range_succ, List.foldl_append, List.foldl_append, e]
      generalize (List.range n).foldl Spec.stir t = T at hl
      refine ⟨by simp [Spec.stir, hl], ?_⟩
      simp only [List.foldl_cons, List.foldl_nil, Spec.stir, S_spec]
      rw [show (n + 15 - 1) % 15 = (n + 14) % 15 by omega, show (n + 1 + 14) % 15 = n by omega]
      have g2 (v : W) : (T.set n v).getD n 0 = v := by
        rw [List.getD_eq_getElem?_getD, List.getElem?_set_self (by omega)]; rfl
      rw [g2]
      rfl
  rw [stir, (h 15 (by decide)).2]

theorem linear_length (j : Nat) (T : List W) : ∀ l : List Nat, (l.foldl (Spec.linear j) T).length = T.length := by
  intro l
  induction l generalizing T with
  | nil => rfl
  | cons i l ih => rw [List.foldl_cons, ih, Spec.linear, List.length_set]
theorem stir_length (T : List W) : ∀ l : List Nat, (l.foldl Spec.stir T).length = T.length := by
  intro l
  induction l generalizing T with
  | nil => rfl
  | cons i l ih => rw [List.foldl_cons, ih, Spec.stir, List.length_set]

theorem fold4 {α : Type} (f : α → α) (s : α) : (List.range 4).foldl (fun s _ => f s) s = f (f (f (f s))) := rfl

theorem turn_spec (j : Nat) (t : List W) (ht : t.length = 15) : turn j t = Spec.turn t j ∧ (Spec.turn t j).length = 15 := by
  have e : Spec.turn t j = (List.range 15).foldl Spec.stir ((List.range 15).foldl Spec.stir ((List.range 15).foldl Spec.stir ((List.range 15).foldl Spec.stir
    ((List.range 15).foldl (Spec.linear j) t)))) := by rw [Spec.turn, fold4]
  constructor
  · have hl := (linear_length j t (List.range 15)).trans ht
    have h1 (T : List W) (h : T.length = 15) : ((List.range 15).foldl Spec.stir T).length = 15 := (stir_length T _).trans h
    rw [turn, linear_spec j t ht, stir_spec _ hl, stir_spec _ (h1 _ hl), stir_spec _ (h1 _ (h1 _ hl)), stir_spec _ (h1 _ (h1 _ (h1 _ hl))), e]
  · rw [e]
    simp only [linear_length, stir_length, ht]

theorem fix_fold (K : List W) (hK : K.length = 40) : ∀ n ≤ 16, ∀ i,
    k ((List.range n).foldl (fun K i => K.set (2 * i + 5) (fix (k K (2 * i + 4)) (k K (2 * i + 5)))) K) i =
      if i % 2 = 1 ∧ 5 ≤ i ∧ i < 2 * n + 5 then fix (k K (i - 1)) (k K i) else k K i := by
  have hl : ∀ n, ((List.range n).foldl (fun K i => K.set (2 * i + 5) (fix (k K (2 * i + 4)) (k K (2 * i + 5)))) K).length = 40 := by
    intro n
    induction n with
    | zero => exact hK
    | succ n ih => rw [List.range_succ, List.foldl_append, List.foldl_cons, List.foldl_nil, List.length_set, ih]
  intro n
  induction n with
  | zero => intro _ i; rw [if_neg (by omega)]; rfl
  | succ n ih =>
    intro hn i
    have h := ih (by omega)
    have hl := hl n
    rw [List.range_succ, List.foldl_append, List.foldl_cons, List.foldl_nil]
    generalize (List.range n).foldl (fun K i => K.set (2 * i + 5) (fix (k K (2 * i + 4)) (k K (2 * i + 5)))) K = T at hl h
    by_cases hi : i = 2 * n + 5
    · subst hi
      rw [k, List.getD_eq_getElem?_getD, List.getElem?_set_self (by omega), Option.getD_some, h, h, if_neg (by omega), if_neg (by omega), if_pos (by omega)]
      rfl
    · rw [k, List.getD_eq_getElem?_getD, List.getElem?_set_ne (by omega), ← List.getD_eq_getElem?_getD, ← k, h]
      by_cases hc : i % 2 = 1 ∧ 5 ≤ i ∧ i < 2 * n + 5
      · rw [if_pos hc, if_pos (by omega)]
      · rw [if_neg hc, if_neg (by omega)]

/-! The mask -/

/-- Bits `l` and `l + 1` are equal. -/
def e (w : W) (l : Nat) : Prop := l < 31 ∧ w.getLsbD l = w.getLsbD (l + 1)

theorem run10_iff (w : W) (b : Nat) : Spec.run10 w b ↔ ∀ j < 9, e w (b + j) := by
  constructor
  · rintro ⟨h1, h2⟩ j hj
    exact ⟨by omega, by rw [h2 j (by omega), show b + j + 1 = b + (j + 1) by omega, h2 (j + 1) (by omega)]⟩
  · intro h
    refine ⟨by have := (h 8 (by decide)).1; omega, fun j => ?_⟩
    induction j with
    | zero => intro _; rfl
    | succ j ih => intro hj; rw [← ih (by omega), ← Nat.add_assoc, ← (h j (by omega)).2]

theorem eq_bits (w : W) (l : Nat) : ((~~~w ^^^ (w >>> 1)) &&& 0x7FFFFFFF).getLsbD l = true ↔ e w l := by
  by_cases hl : l < 31
  · have hm : (0x7FFFFFFF : W).getLsbD l = true := by interval_cases l <;> rfl
    rw [BitVec.getLsbD_and, hm, BitVec.getLsbD_xor, BitVec.getLsbD_not, BitVec.getLsbD_ushiftRight, e, Nat.add_comm 1 l]
    simp only [show l < 32 by omega, decide_true, Bool.true_and, Bool.and_true, hl, true_and]
    cases w.getLsbD l <;> cases w.getLsbD (l + 1) <;> simp
  · have hm : (0x7FFFFFFF : W).getLsbD l = false := by
      by_cases h : l < 32
      · obtain rfl : l = 31 := by omega
        rfl
      · exact BitVec.getLsbD_of_ge _ _ (by omega)
    rw [BitVec.getLsbD_and, hm, Bool.and_false, e]
    simp [hl]

theorem run_bits (m0 w : W) (h : ∀ l, m0.getLsbD l = true ↔ e w l) (l : Nat) :
    let m := m0 &&& ((m0 >>> 1) &&& (m0 >>> 2))
    (m &&& ((m >>> 3) &&& (m >>> 6))).getLsbD l = true ↔ Spec.run10 w l := by
  rw [run10_iff]
  simp only [BitVec.getLsbD_and, BitVec.getLsbD_ushiftRight, Bool.and_eq_true, h]
  constructor
  · intro H j hj
    obtain ⟨⟨h0, h1, h2⟩, ⟨h3, h4, h5⟩, h6, h7, h8⟩ := H
    interval_cases j
    · exact h0
    · rwa [Nat.add_comm] at h1
    · rwa [Nat.add_comm] at h2
    · rwa [Nat.add_comm] at h3
    · rwa [show 1 + (3 + l) = l + 4 by omega] at h4
    · rwa [show 2 + (3 + l) = l + 5 by omega] at h5
    · rwa [Nat.add_comm] at h6
    · rwa [show 1 + (6 + l) = l + 7 by omega] at h7
    · rwa [show 2 + (6 + l) = l + 8 by omega] at h8
  · intro H
    have g (n j : Nat) (hj : j < 9) (hn : n = l + j) : e w n := hn ▸ H j hj
    exact ⟨⟨g _ 0 (by decide) (by omega), g _ 1 (by decide) (by omega), g _ 2 (by decide) (by omega)⟩,
      ⟨g _ 3 (by decide) (by omega), g _ 4 (by decide) (by omega), g _ 5 (by decide) (by omega)⟩,
      g _ 6 (by decide) (by omega), g _ 7 (by decide) (by omega), g _ 8 (by decide) (by omega)⟩

/-- Doubling the reach of a spread. -/
theorem spread_bits (m A : W) (n : Nat) (h : ∀ l < 32, A.getLsbD l = true ↔ ∃ t, 1 ≤ t ∧ t ≤ n ∧ t ≤ l ∧ m.getLsbD (l - t) = true) :
    ∀ l < 32, (A ||| (A <<< n)).getLsbD l = true ↔ ∃ t, 1 ≤ t ∧ t ≤ 2 * n ∧ t ≤ l ∧ m.getLsbD (l - t) = true := by
  intro l hl
  rw [BitVec.getLsbD_or, BitVec.getLsbD_shiftLeft, Bool.or_eq_true, h l hl]
  simp only [hl, decide_true, Bool.true_and, Bool.and_eq_true, Bool.not_eq_true', decide_eq_false_iff_not]
  constructor
  · rintro (⟨t, h1, h2, h3, h4⟩ | ⟨hn, h5⟩)
    · exact ⟨t, h1, by omega, h3, h4⟩
    · obtain ⟨t, h1, h2, h3, h4⟩ := (h (l - n) (by omega)).1 h5
      exact ⟨t + n, by omega, by omega, by omega, by rwa [show l - (t + n) = l - n - t by omega]⟩
  · rintro ⟨t, h1, h2, h3, h4⟩
    by_cases ht : t ≤ n
    · exact .inl ⟨t, h1, ht, h3, h4⟩
    · exact .inr ⟨by omega, (h (l - n) (by omega)).2 ⟨t - n, by omega, by omega, by omega, by rwa [show l - n - (t - n) = l - t by omega]⟩⟩

theorem inMask_iff (w : W) (l : Nat) : Spec.inMask w l ↔ 2 ≤ l ∧ ∃ t, 1 ≤ t ∧ t ≤ 8 ∧ t ≤ l ∧ Spec.run10 w (l - t) := by
  constructor
  · rintro ⟨h2, h30, ha, hb, b, h1, h9, hr⟩
    refine ⟨h2, ?_⟩
    have hr' := (run10_iff _ _).1 hr
    by_cases t0 : b = l
    · subst t0
      refine ⟨1, by omega, by omega, by omega, (run10_iff _ _).2 fun j hj => ?_⟩
      by_cases hj0 : j = 0
      · subst hj0
        exact ⟨by omega, by rw [Nat.add_zero, ha, Nat.sub_add_cancel (by omega)]⟩
      · have := hr' (j - 1) (by omega)
        rwa [show b - 1 + j = b + (j - 1) by omega]
    · by_cases t9 : l = b + 9
      · refine ⟨8, by omega, by omega, by omega, (run10_iff _ _).2 fun j hj => ?_⟩
        by_cases hj8 : j = 8
        · subst hj8
          rw [show l - 8 + 8 = l by omega]
          exact ⟨by omega, hb.symm⟩
        · have := hr' (j + 1) (by omega)
          rwa [show l - 8 + j = b + (j + 1) by omega]
      · exact ⟨l - b, by omega, by omega, by omega, by rwa [show l - (l - b) = b by omega]⟩
  · rintro ⟨h2, t, h1, h8, hl, hr⟩
    have hb := hr.1
    have g (j n : Nat) (hj : j < 10) (hn : n = l - t + j) : w.getLsbD n = w.getLsbD (l - t) := hn ▸ hr.2 j hj
    exact ⟨h2, by omega, by rw [g (t - 1) (l - 1) (by omega) (by omega), g t l (by omega) (by omega)],
      by rw [g (t + 1) (l + 1) (by omega) (by omega), g t l (by omega) (by omega)], l - t, by omega, by omega, hr⟩

theorem maskGen_spec (w : W) (l : Nat) (hl : l < 32) : (maskGen w).getLsbD l = true ↔ Spec.inMask w l := by
  rw [inMask_iff]
  simp only [maskGen]
  have h := run_bits _ w (eq_bits w)
  simp only at h
  generalize (((~~~w ^^^ (w >>> 1)) &&& 0x7FFFFFFF) &&& ((((~~~w ^^^ (w >>> 1)) &&& 0x7FFFFFFF) >>> 1) &&& (((~~~w ^^^ (w >>> 1)) &&& 0x7FFFFFFF) >>> 2))) = m1 at h
  generalize m1 &&& ((m1 >>> 3) &&& (m1 >>> 6)) = m at h
  have s1 : ∀ l < 32, (m <<< 1).getLsbD l = true ↔ ∃ t, 1 ≤ t ∧ t ≤ 1 ∧ t ≤ l ∧ m.getLsbD (l - t) = true := by
    intro l hl
    rw [BitVec.getLsbD_shiftLeft]
    simp only [hl, decide_true, Bool.true_and, Bool.and_eq_true, Bool.not_eq_true', decide_eq_false_iff_not]
    constructor
    · rintro ⟨h1, h2⟩; exact ⟨1, by omega, by omega, by omega, h2⟩
    · rintro ⟨t, h1, h2, h3, h4⟩
      obtain rfl : t = 1 := by omega
      exact ⟨by omega, h4⟩
  have s2 := spread_bits m _ 1 s1
  have s4 := spread_bits m _ 2 s2
  have s8 := spread_bits m _ 4 s4
  have hm : (0xFFFFFFFC : W).getLsbD l = decide (2 ≤ l) := by interval_cases l <;> rfl
  split
  · rw [BitVec.getLsbD_and, hm, Bool.and_eq_true, s8 l hl, decide_eq_true_iff, and_comm]
    simp only [h]
  · next h0 =>
    have h0 : m = 0 := by simpa using h0
    subst h0
    constructor
    · intro hc; simp at hc
    · rintro ⟨_, t, _, _, _, hr⟩
      have := (h _).2 hr
      simp at this

theorem fix_spec (p w0 : W) : fix p w0 = (w0 ||| 3) ^^^ (Spec.rol (Spec.B (w0.toNat % 4)) (p.toNat % 32) &&& maskGen (w0 ||| 3)) := by
  have : btab.getD (w0.toNat % 4) 0 = Spec.B (w0.toNat % 4) := by
    have : w0.toNat % 4 < 4 := Nat.mod_lt _ (by decide)
    interval_cases w0.toNat % 4 <;> rfl
  simp only [fix, and_3, and_31, this]
  rfl

theorem expandKey_spec (key : Bytes) (hk : key.length ≥ 16 ∧ key.length ≤ 56 ∧ key.length % 4 = 0) : Spec.IsKey key (k (expandKey key)) := by
  have hs : (Spec.start key).length = 15 := by simp [Spec.start]; omega
  obtain ⟨e0, l0⟩ := turn_spec 0 _ hs
  obtain ⟨e1, l1⟩ := turn_spec 1 _ l0
  obtain ⟨e2, l2⟩ := turn_spec 2 _ l1
  obtain ⟨e3, l3⟩ := turn_spec 3 _ l2
  have hw : ∀ i < 40, k (take10 (turn 0 (Spec.start key)) ++ take10 (turn 1 (turn 0 (Spec.start key))) ++ take10 (turn 2 (turn 1 (turn 0 (Spec.start key)))) ++
      take10 (turn 3 (turn 2 (turn 1 (turn 0 (Spec.start key)))))) i = Spec.word key i := by
    intro i hi
    rw [e0, e1, e2, e3]
    have w (j : Nat) : Spec.word key j = ((List.range (j / 10 + 1)).foldl Spec.turn (Spec.start key)).getD (4 * (j % 10) % 15) 0 := rfl
    rw [w]
    generalize Spec.start key = s
    generalize Spec.turn = T
    interval_cases i <;> rfl
  intro i hi
  have := fix_fold _ (show (take10 (turn 0 (Spec.start key)) ++ take10 (turn 1 (turn 0 (Spec.start key))) ++ take10 (turn 2 (turn 1 (turn 0 (Spec.start key)))) ++
      take10 (turn 3 (turn 2 (turn 1 (turn 0 (Spec.start key)))))).length = 40 by simp [take10]) 16 (by decide) i
  rw [show k (expandKey key) i = _ from this]
  by_cases hc : i % 2 = 1 ∧ 5 ≤ i ∧ i ≤ 35
  · rw [if_pos hc, if_pos (by omega), hw i hi, hw (i - 1) (by omega)]
    exact ⟨maskGen (Spec.word key i ||| 3), fun l hl => maskGen_spec _ l hl, fix_spec _ _⟩
  · rw [if_neg hc, if_neg (by omega), hw i hi]

/-! The property -/

/-- **C179** `NewCipher` accepts exactly the keys of 16, 20, …, 56 bytes, and the cipher is a block cipher of 16-byte blocks. -/
theorem C179_block_cipher : Implements newCipher (fun n => n ≥ 16 ∧ n ≤ 56 ∧ n % 4 = 0) 16 := implements

/-- **C179** `Encrypt` is MARS, for all keys and blocks: there are key words as the standard has them for the key, and the block is encrypted with them. -/
theorem C179_mars (key : Bytes) (hk : key.length ≥ 16 ∧ key.length ≤ 56 ∧ key.length % 4 = 0) :
    ∃ c K D, newCipher key = .ok c ∧ Spec.IsKey key K ∧ IsBlock 16 c.enc c.dec (enc4LE 32 4 (Spec.encrypt K)) D := by
  refine ⟨_, k (expandKey key), decB key, if_pos hk, expandKey_spec key hk, ?_⟩
  have : encB key = enc4LE 32 4 (Spec.encrypt (k (expandKey key))) := by
    rw [encB]
    exact congrArg _ (funext (run_spec _))
  rw [← this]
  exact (blockFn_4LE (w := 32) (sz := 4) 16 rfl rfl (dec_enc _)).isBlock

/-- **C179** Those key words are determined by the key. -/
theorem C179_key_words (key : Bytes) (K K' : Nat → W) (h : Spec.IsKey key K) (h' : Spec.IsKey key K') : ∀ i < 40, K i = K' i := by
  intro i hi
  have a := h i hi
  have a' := h' i hi
  split at a
  · next hc =>
    rw [if_pos hc] at a'
    obtain ⟨M, hM, e⟩ := a
    obtain ⟨M', hM', e'⟩ := a'
    have : M = M' := by
      apply BitVec.eq_of_getLsbD_eq
      intro l hl
      rw [Bool.eq_iff_iff, hM l hl, hM' l hl]
    rw [e, e', this]
  · next hc => rw [if_neg hc] at a'; rw [a, a']

/-- **C179** The words by which the core multiplies end in two 1 bits. -/
theorem C179_odd (key : Bytes) (K : Nat → W) (h : Spec.IsKey key K) (i : Nat) (hi : i < 16) : (K (2 * i + 5)).toNat % 4 = 3 := by
  have a := h (2 * i + 5) (by omega)
  rw [if_pos (by omega)] at a
  obtain ⟨M, hM, e⟩ := a
  have m0 : M.getLsbD 0 = false := by
    rw [Bool.eq_false_iff]; intro hc; exact absurd ((hM 0 (by decide)).1 hc).1 (by decide)
  have m1 : M.getLsbD 1 = false := by
    rw [Bool.eq_false_iff]; intro hc; exact absurd ((hM 1 (by decide)).1 hc).1 (by decide)
  rw [← and_3, show (3 : Nat) = (3 : W).toNat from rfl]
  congr 1
  rw [e]
  apply BitVec.eq_of_getLsbD_eq
  intro l hl
  by_cases h2 : l < 2
  · simp only [BitVec.getLsbD_and, BitVec.getLsbD_xor, BitVec.getLsbD_or]
    interval_cases l
    · rw [m0, Bool.and_false]; simp
    · rw [m1, Bool.and_false]; simp
  · have : (3 : W).getLsbD l = false := by interval_cases l <;> first | rfl | omega
    rw [BitVec.getLsbD_and, this, Bool.and_false]

/- Vectors of the package's tests, a key of another size, and a word with a run of ten equal bits. -/
example : kat newCipher (hx 16 0xCB14A1776ABBC1CDAFE7243DEF2CEA02) (hx 16 0xF94512A9B42D034EC4792204D708A69B) = .ok (hx 16 0x225DA2CB64B73F79069F21A5E3CB8522) := by decide +kernel
example : katD newCipher (hx 16 0x80000000000000000000000000000000) (hx 16 0xB3E2AD5608AC1B6733A7CB4FDF8F9952) = .ok (hx 16 0) := by decide +kernel
example : ∃ c, newCipher (hx 56 5) = .ok c := ⟨_, rfl⟩
example : maskGen 0x00000FFB = 0x7FFFE000 ∧ Spec.inMask 0x00000FFB 13 := ⟨by decide +kernel, by rw [← maskGen_spec _ _ (by decide)]; decide +kernel⟩

end Verif.Cipher.Mars
