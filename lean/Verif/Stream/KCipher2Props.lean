import Verif.Stream.KCipher2
import Verif.Stream.KCipher2Spec
import Verif.Stream.Base
import Mathlib.Tactic.IntervalCases
import Mathlib.Tactic.ByContra
/-
Theorems about /repo/cipher/kcipher2.
-/
namespace Verif.Strm.KCipher2
open Verif.Mode Verif.Cipher

/-! ### The tables are the field operations -/

def pk (d c b a : Byte) : W := d ++ c ++ b ++ a

theorem pk_toNat (d c b a : Byte) : (pk d c b a).toNat = d.toNat * 2 ^ 24 + c.toNat * 2 ^ 16 + b.toNat * 2 ^ 8 + a.toNat := by
  have hd := d.isLt
  have hc := c.isLt
  have hb := b.isLt
  have ha := a.isLt
  simp only [pk, BitVec.toNat_append]
  rw [← Nat.shiftLeft_add_eq_or_of_lt hc, ← Nat.shiftLeft_add_eq_or_of_lt hb, ← Nat.shiftLeft_add_eq_or_of_lt ha]
  simp only [Nat.shiftLeft_eq]
  omega

theorem pk_xor (d c b a d' c' b' a' : Byte) : pk d c b a ^^^ pk d' c' b' a' = pk (d ^^^ d') (c ^^^ c') (b ^^^ b') (a ^^^ a') := by
  show ((d ++ c ++ b ++ a : BitVec (8 + 8 + 8 + 8)) ^^^ (d' ++ c' ++ b' ++ a' : BitVec (8 + 8 + 8 + 8))) = _
  rw [BitVec.xor_append, BitVec.xor_append, BitVec.xor_append]; rfl

theorem word_eq (b0 b1 b2 b3 : Nat) (h0 : b0 < 256) (h1 : b1 < 256) (h2 : b2 < 256) (h3 : b3 < 256) :
    KCipher2Spec.word b0 b1 b2 b3 = pk (BitVec.ofNat 8 b3) (BitVec.ofNat 8 b2) (BitVec.ofNat 8 b1) (BitVec.ofNat 8 b0) := by
  apply BitVec.eq_of_toNat_eq
  rw [pk_toNat]
  simp only [KCipher2Spec.word, BitVec.toNat_ofNat]
  omega

theorem pack_eq (d c b a : Byte) :
    (d.setWidth 32 <<< 24) ||| (c.setWidth 32 <<< 16) ||| (b.setWidth 32 <<< 8) ||| a.setWidth 32 = pk d c b a := by
  apply BitVec.eq_of_toNat_eq
  have hd := d.isLt
  have hc := c.isLt
  have hb := b.isLt
  have ha := a.isLt
  rw [pk_toNat]
  simp only [BitVec.toNat_or, BitVec.toNat_shiftLeft, BitVec.toNat_setWidth]
  simp only [Nat.shiftLeft_eq]
  rw [Nat.mod_eq_of_lt (show d.toNat < 2 ^ 32 by omega), Nat.mod_eq_of_lt (show c.toNat < 2 ^ 32 by omega),
    Nat.mod_eq_of_lt (show b.toNat < 2 ^ 32 by omega), Nat.mod_eq_of_lt (show a.toNat < 2 ^ 32 by omega),
    Nat.mod_eq_of_lt (show d.toNat * 2 ^ 24 < 2 ^ 32 by omega), Nat.mod_eq_of_lt (show c.toNat * 2 ^ 16 < 2 ^ 32 by omega),
    Nat.mod_eq_of_lt (show b.toNat * 2 ^ 8 < 2 ^ 32 by omega)]
  have e1 : d.toNat * 2 ^ 24 ||| c.toNat * 2 ^ 16 = d.toNat * 2 ^ 24 + c.toNat * 2 ^ 16 := by
    have := Nat.shiftLeft_add_eq_or_of_lt (i := 24) (b := c.toNat * 2 ^ 16) (by omega) d.toNat
    simp only [Nat.shiftLeft_eq] at this; exact this.symm
  have e2 : (d.toNat * 2 ^ 24 + c.toNat * 2 ^ 16) ||| b.toNat * 2 ^ 8 = d.toNat * 2 ^ 24 + c.toNat * 2 ^ 16 + b.toNat * 2 ^ 8 := by
    have := Nat.shiftLeft_add_eq_or_of_lt (i := 16) (b := b.toNat * 2 ^ 8) (by omega) (d.toNat * 2 ^ 8 + c.toNat)
    simp only [Nat.shiftLeft_eq, Nat.add_mul, Nat.mul_assoc, ← Nat.pow_add] at this; exact this.symm
  have e3 : (d.toNat * 2 ^ 24 + c.toNat * 2 ^ 16 + b.toNat * 2 ^ 8) ||| a.toNat = d.toNat * 2 ^ 24 + c.toNat * 2 ^ 16 + b.toNat * 2 ^ 8 + a.toNat := by
    have := Nat.shiftLeft_add_eq_or_of_lt (i := 8) (b := a.toNat) (by omega) (d.toNat * 2 ^ 16 + c.toNat * 2 ^ 8 + b.toNat)
    simp only [Nat.shiftLeft_eq, Nat.add_mul, Nat.mul_assoc, ← Nat.pow_add] at this; exact this.symm
  rw [e1, e2, e3]

theorem sbox_tab : ∀ i : Fin 256, KCipher2Spec.sbox i = (tab8 sBoxN i).toNat := by decide +kernel

theorem mul2_tab : ∀ t : Fin 256, KCipher2Spec.gmul 0x11B t 2 = (gfMultBy2 (BitVec.ofNat 8 t) ^^^ 0xFF).toNat := by decide +kernel
theorem mul3_tab : ∀ t : Fin 256, KCipher2Spec.gmul 0x11B t 3 = (gfMultBy3 (BitVec.ofNat 8 t) ^^^ 0xFF).toNat := by decide +kernel

theorem mul2_eq (t : Byte) : KCipher2Spec.gmul 0x11B t.toNat 2 = (gfMultBy2 t ^^^ 0xFF).toNat := by
  have := mul2_tab ⟨t.toNat, t.isLt⟩
  rwa [BitVec.ofNat_toNat, BitVec.setWidth_eq] at this
theorem mul3_eq (t : Byte) : KCipher2Spec.gmul 0x11B t.toNat 3 = (gfMultBy3 t ^^^ 0xFF).toNat := by
  have := mul3_tab ⟨t.toNat, t.isLt⟩
  rwa [BitVec.ofNat_toNat, BitVec.setWidth_eq] at this

theorem xor_ff (a b : Byte) : (a ^^^ 0xFF) ^^^ (b ^^^ 0xFF) = a ^^^ b := by
  rw [BitVec.xor_assoc, BitVec.xor_comm 0xFF, BitVec.xor_assoc, BitVec.xor_self, BitVec.xor_zero]

theorem ofNat_toNat_xor (a b : Byte) : a.toNat ^^^ b.toNat = (a ^^^ b).toNat := (BitVec.toNat_xor a b).symm

theorem sub_eq (x : W) : subK2 x = KCipher2Spec.sub x := by
  have hb : ∀ i, i < 4 → KCipher2Spec.sbox (KCipher2Spec.byte x i) = (tab8 sBoxN ((x >>> (8 * i)).setWidth 8).toNat).toNat := by
    intro i _
    have e : KCipher2Spec.byte x i = ((x >>> (8 * i)).setWidth 8).toNat := by
      simp [KCipher2Spec.byte, Nat.shiftRight_eq_div_pow]
    rw [e]
    exact sbox_tab ⟨_, ((x >>> (8 * i)).setWidth 8).isLt⟩
  have h0 := hb 0 (by omega)
  have h1 := hb 1 (by omega)
  have h2 := hb 2 (by omega)
  have h3 := hb 3 (by omega)
  simp only [Nat.mul_zero, BitVec.ushiftRight_zero, Nat.mul_one, show 8 * 2 = 16 from rfl, show 8 * 3 = 24 from rfl] at h0 h1 h2 h3
  simp only [subK2, KCipher2Spec.sub, h0, h1, h2, h3, pack_eq, mul2_eq, mul3_eq, ofNat_toNat_xor]
  generalize tab8 sBoxN (x.setWidth 8).toNat = t0
  generalize tab8 sBoxN ((x >>> 8).setWidth 8).toNat = t1
  generalize tab8 sBoxN ((x >>> 16).setWidth 8).toNat = t2
  generalize tab8 sBoxN ((x >>> 24).setWidth 8).toNat = t3
  rw [word_eq _ _ _ _ (BitVec.isLt _) (BitVec.isLt _) (BitVec.isLt _) (BitVec.isLt _)]
  simp only [BitVec.ofNat_toNat, BitVec.setWidth_eq]
  have hc : ∀ a b : Byte, a ^^^ (a ^^^ b) = b := fun a b => by rw [← BitVec.xor_assoc, BitVec.xor_self, BitVec.zero_xor]
  have lc : ∀ a b c : Byte, a ^^^ (b ^^^ c) = b ^^^ (a ^^^ c) := fun a b c => by
    rw [← BitVec.xor_assoc, BitVec.xor_comm a b, BitVec.xor_assoc]
  simp only [BitVec.xor_comm, lc, BitVec.xor_assoc, hc]

theorem inv_ok : ∀ x : Fin 256, x.1 ≠ 0 → KCipher2Spec.gmul 0x11B x (KCipher2Spec.inv x) = 1 := by decide +kernel

/-! ### Multiplication by the four constants -/

theorem amul_eq (T p e3 e2 e1 e0 c3 c2 c1 c0 : Nat) (h3 : KCipher2Spec.gpow p 2 e3 = c3) (h2 : KCipher2Spec.gpow p 2 e2 = c2)
    (h1 : KCipher2Spec.gpow p 2 e1 = c1) (h0 : KCipher2Spec.gpow p 2 e0 = c0)
    (ht : ∀ i : Fin 256, KCipher2Spec.gmul p i c3 < 256 ∧ KCipher2Spec.gmul p i c2 < 256 ∧ KCipher2Spec.gmul p i c1 < 256 ∧
      KCipher2Spec.gmul p i c0 < 256 ∧ (tab32 T i).toNat = KCipher2Spec.gmul p i c3 * 2 ^ 24 + KCipher2Spec.gmul p i c2 * 2 ^ 16 +
        KCipher2Spec.gmul p i c1 * 2 ^ 8 + KCipher2Spec.gmul p i c0) (x : W) :
    amul T x = KCipher2Spec.alpha p e3 e2 e1 e0 x := by
  have hx := x.isLt
  have hb : (x >>> 24).toNat = KCipher2Spec.byte x 3 := by
    simp only [BitVec.toNat_ushiftRight, KCipher2Spec.byte, Nat.shiftRight_eq_div_pow]; omega
  have hlt : ∀ i, KCipher2Spec.byte x i < 256 := fun i => Nat.mod_lt _ (by omega)
  obtain ⟨g3, g2, g1, g0, g⟩ := ht ⟨KCipher2Spec.byte x 3, hlt 3⟩
  simp only at g3 g2 g1 g0 g
  simp only [amul, KCipher2Spec.alpha, h3, h2, h1, h0, hb]
  generalize KCipher2Spec.gmul p (KCipher2Spec.byte x 3) c3 = m3 at *
  generalize KCipher2Spec.gmul p (KCipher2Spec.byte x 3) c2 = m2 at *
  generalize KCipher2Spec.gmul p (KCipher2Spec.byte x 3) c1 = m1 at *
  generalize KCipher2Spec.gmul p (KCipher2Spec.byte x 3) c0 = m0 at *
  rw [word_eq _ _ _ _ g0 (Nat.xor_lt_two_pow (n := 8) (hlt 0) g1) (Nat.xor_lt_two_pow (n := 8) (hlt 1) g2) (Nat.xor_lt_two_pow (n := 8) (hlt 2) g3)]
  have e1 : tab32 T (KCipher2Spec.byte x 3) = pk (BitVec.ofNat 8 m3) (BitVec.ofNat 8 m2) (BitVec.ofNat 8 m1) (BitVec.ofNat 8 m0) := by
    apply BitVec.eq_of_toNat_eq
    rw [g, pk_toNat]
    simp only [BitVec.toNat_ofNat]; omega
  have e2 : x <<< 8 = pk (BitVec.ofNat 8 (KCipher2Spec.byte x 2)) (BitVec.ofNat 8 (KCipher2Spec.byte x 1))
      (BitVec.ofNat 8 (KCipher2Spec.byte x 0)) 0#8 := by
    apply BitVec.eq_of_toNat_eq
    rw [pk_toNat]
    simp only [BitVec.toNat_ofNat, BitVec.toNat_shiftLeft, KCipher2Spec.byte, Nat.shiftLeft_eq]
    show _ = _ + (0 : Nat)
    omega
  rw [e1, e2]
  rw [pk_xor]; simp only [BitVec.ofNat_xor, BitVec.zero_xor]

theorem amul0_eq : ∀ x, amul amul0N x = KCipher2Spec.alpha0 x :=
  amul_eq _ _ _ _ _ _ 0xb6 0x08 0x6d 0x1a (by decide +kernel) (by decide +kernel) (by decide +kernel) (by decide +kernel) (by decide +kernel)
theorem amul1_eq : ∀ x, amul amul1N x = KCipher2Spec.alpha1 x :=
  amul_eq _ _ _ _ _ _ 0xa0 0xf5 0xfc 0x2e (by decide +kernel) (by decide +kernel) (by decide +kernel) (by decide +kernel) (by decide +kernel)
theorem amul2_eq : ∀ x, amul amul2N x = KCipher2Spec.alpha2 x :=
  amul_eq _ _ _ _ _ _ 0x5b 0xf8 0x7f 0x93 (by decide +kernel) (by decide +kernel) (by decide +kernel) (by decide +kernel) (by decide +kernel)
theorem amul3_eq : ∀ x, amul amul3N x = KCipher2Spec.alpha3 x :=
  amul_eq _ _ _ _ _ _ 0x45 0x59 0x56 0x8b (by decide +kernel) (by decide +kernel) (by decide +kernel) (by decide +kernel) (by decide +kernel)

/-! ### The run -/

/-- The state after `t` steps, 24 of them with feedback. -/
def run (key iv : Bytes) : Nat → St
  | 0 => setup (ldBE 32 4 4 key) (ldBE 32 4 4 iv)
  | t + 1 => next (t < 24) (run key iv t)

def rA (key iv : Bytes) (t : Nat) : W := at' (run key iv t).a 0
def rB (key iv : Bytes) (t : Nat) : W := at' (run key iv t).b 0

theorem next_a (i : Bool) (k : St) (j : Nat) (h : j < 4) : at' (next i k).a j = at' k.a (j + 1) := by
  interval_cases j <;> rfl
theorem next_b (i : Bool) (k : St) (j : Nat) (h : j < 10) : at' (next i k).b j = at' k.b (j + 1) := by
  interval_cases j <;> rfl

theorem rA_add (key iv : Bytes) (j : Nat) (h : j < 5) : ∀ t, rA key iv (t + j) = at' (run key iv t).a j := by
  induction j with
  | zero => intro t; rfl
  | succ j ih =>
    intro t
    rw [show t + (j + 1) = (t + 1) + j from by omega, ih (by omega) (t + 1), run, next_a _ _ _ (by omega)]
theorem rB_add (key iv : Bytes) (j : Nat) (h : j < 11) : ∀ t, rB key iv (t + j) = at' (run key iv t).b j := by
  induction j with
  | zero => intro t; rfl
  | succ j ih =>
    intro t
    rw [show t + (j + 1) = (t + 1) + j from by omega, ih (by omega) (t + 1), run, next_b _ _ _ (by omega)]

theorem bit_ne (x : W) (n : Nat) (c : W) (h : c = BitVec.twoPow 32 n) (hn : n < 32) : (x &&& c ≠ 0) ↔ x.getLsbD n = true := by
  subst h
  rw [BitVec.and_twoPow]
  cases hx : x.getLsbD n
  · simp
  · simp only [if_true, iff_true]
    intro h0
    have := congrArg (fun b => b.getLsbD n) h0
    simp [hn] at this

theorem rotl8 (x : W) : (x <<< 8) ^^^ (x >>> 24) = x.rotateLeft 8 := by
  rw [BitVec.rotateLeft_def]
  apply BitVec.eq_of_getLsbD_eq
  intro i hi
  simp only [BitVec.getLsbD_xor, BitVec.getLsbD_or, BitVec.getLsbD_shiftLeft, BitVec.getLsbD_ushiftRight]
  by_cases h : i < 8
  · simp [h]
  · have : x.getLsbD (24 + i) = false := BitVec.getLsbD_of_ge _ _ (by omega)
    simp [this, h]

theorem isRun (key iv : Bytes) : KCipher2Spec.IsRun key iv (rA key iv) (rB key iv) (fun t => (run key iv t).l1) (fun t => (run key iv t).r1)
    (fun t => (run key iv t).l2) (fun t => (run key iv t).r2) where
  ik := by
    refine ⟨at' (keyExpansion (ldBE 32 4 4 key)), ?_, ?_, ?_, ?_⟩
    · intro i hi; interval_cases i <;> rfl
    · intro i h4 h12
      interval_cases i <;> simp [keyExpansion, at', rotl8, sub_eq, BitVec.xor_assoc]
    · intro i hi
      have := rA_add key iv i hi 0
      rw [Nat.zero_add] at this
      rw [this]
      interval_cases i <;> rfl
    · have h : ∀ j, j < 11 → rB key iv j = at' (run key iv 0).b j := fun j hj => by
        have := rB_add key iv j hj 0
        rwa [Nat.zero_add] at this
      exact ⟨h 0 (by omega), h 1 (by omega), h 2 (by omega), h 3 (by omega), h 4 (by omega), h 5 (by omega), h 6 (by omega),
        h 7 (by omega), h 8 (by omega), h 9 (by omega), h 10 (by omega)⟩
  fsr0 := ⟨rfl, rfl, rfl, rfl⟩
  l1 t := by rw [rB_add key iv 4 (by omega)]; exact sub_eq _
  r1 t := by rw [rB_add key iv 9 (by omega)]; exact sub_eq _
  l2 t := sub_eq _
  r2 t := sub_eq _
  a t := by
    rw [show t + 5 = (t + 1) + 4 from rfl, rA_add key iv 4 (by omega) (t + 1), rA_add key iv 3 (by omega), rA_add key iv 4 (by omega), ← amul0_eq]
    show (if decide (t < 24) = true then _ else _) = _
    by_cases h : t < 24 <;> simp [h, rA, rB, KCipher2Spec.nlf, nlf]
  b t := by
    rw [show t + 11 = (t + 1) + 10 from rfl, rB_add key iv 10 (by omega) (t + 1), rA_add key iv 2 (by omega), rB_add key iv 1 (by omega),
      rB_add key iv 6 (by omega), rB_add key iv 8 (by omega), rB_add key iv 10 (by omega), ← amul1_eq, ← amul2_eq, ← amul3_eq]
    show (if decide (t < 24) = true then _ else _) = _
    simp only [bit_ne _ 30 0x40000000 rfl (by omega), bit_ne _ 31 0x80000000 rfl (by omega)]
    by_cases h : t < 24 <;> simp [h, rA, rB, KCipher2Spec.nlf, nlf]

theorem run_expand (key iv : Bytes) (n : Nat) : iterate (next false) n (expandKey key iv) = run key iv (24 + n) := by
  have h1 : ∀ n, n ≤ 24 → iterate (next true) n (setup (ldBE 32 4 4 key) (ldBE 32 4 4 iv)) = run key iv n := by
    intro n
    induction n with
    | zero => intro _; rfl
    | succ n ih =>
      intro hn
      rw [iterate_succ, ih (by omega), run, decide_eq_true (show n < 24 by omega)]
  induction n with
  | zero => exact h1 24 (Nat.le_refl _)
  | succ n ih => rw [iterate_succ, ih, ← Nat.add_assoc, run, decide_eq_false (by omega)]

/-- The states of the object at a multiple of eight bytes, and after. -/
def stAt (r : St × Bytes) (j : Nat) : Obj := if j = 0 then ⟨r.1, r.2, 0⟩ else ⟨next false r.1, stream r.1, 8 - j⟩

def nextR (r : St × Bytes) : St × Bytes := (next false r.1, stream r.1)
def blkR (r : St × Bytes) : Bytes := stream r.1

theorem gen_stAt (r : St × Bytes) (j : Nat) (hj : j < 8) :
    gen (stAt r j) = ((blkR r).getD j 0, if j + 1 = 8 then stAt (nextR r) 0 else stAt r (j + 1)) := by
  unfold blkR nextR
  have e : stAt (next false r.1, stream r.1) 0 = ⟨next false r.1, stream r.1, 0⟩ := rfl
  rw [e]
  generalize hn : next false r.1 = n
  generalize hs : stream r.1 = s
  by_cases h0 : j = 0
  · subst h0; simp [stAt, gen, hn, hs]
  · have h1 : ¬ (8 - j = 0) := by omega
    simp only [stAt, h0, if_false, gen, h1, hn, hs, Nat.add_eq_zero_iff, false_and, show 8 - (8 - j) = j from by omega]
    by_cases h7 : j + 1 = 8
    · rw [if_pos h7]; simp [show 8 - j - 1 = 0 from by omega]
    · rw [if_neg h7]; simp [show 8 - j - 1 = 8 - (j + 1) from by omega]

theorem iterate_pair (r : St × Bytes) (n : Nat) : (iterate nextR n r).1 = iterate (next false) n r.1 := by
  induction n with
  | zero => rfl
  | succ n ih => rw [iterate_succ, iterate_succ, ← ih]; rfl

theorem blocks (s0 : St) (b : Bytes) (p : Nat) : genByte gen ⟨s0, b, 0⟩ p = (stream (iterate (next false) (p / 8) s0)).getD (p % 8) 0 := by
  have := genByte_blocks gen 8 (by omega) blkR nextR stAt gen_stAt (s0, b) p
  rw [show stAt (s0, b) 0 = ⟨s0, b, 0⟩ from rfl] at this
  rw [this, blkR, iterate_pair]

/-- The key stream of the recurrences of RFC 7008 for this key and IV. -/
theorem keystream_eq (key iv : Bytes) (p : Nat) : genByte gen ⟨expandKey key iv, List.replicate 8 0, 0⟩ p =
    KCipher2Spec.keystream (rA key iv) (rB key iv) (fun t => (run key iv t).l1) (fun t => (run key iv t).r1)
      (fun t => (run key iv t).l2) (fun t => (run key iv t).r2) p := by
  rw [blocks, run_expand, KCipher2Spec.keystream, rB_add key iv 10 (by omega), rA_add key iv 4 (by omega)]
  rfl

theorem write_read (m : Mem) (p n : Nat) : m.write p (m.read p n) = m := by
  funext a
  by_cases h1 : a < p
  · rw [Mem.write_of_lt _ _ _ _ h1]
  · by_cases h2 : p + n ≤ a
    · rw [Mem.write_of_ge _ _ _ _ (by simpa using h2)]
    · obtain ⟨i, rfl⟩ : ∃ i, a = p + i := ⟨a - p, by omega⟩
      rw [Mem.write_at _ _ _ _ (by simp; omega), Mem.read_getElem]

theorem call_inplace (o : Obj) (m : Mem) (dst src : Slice) (h : dst.ptr = src.ptr) : xorKS o m dst src = xorKeyStream (byteStep gen) o m dst src := by
  unfold xorKS
  split <;> rename_i heq <;> rw [heq]
  rw [h, write_read]

/-- **C133**: `NewCipher` takes exactly the keys and IVs of 16 bytes; used on buffers that coincide, the object it returns XORs the key
stream of the recurrences of RFC 7008. -/
theorem C133_kcipher2_partial (key iv : Bytes) :
    (key.length ≠ 16 ∨ iv.length ≠ 16 → newCipher key iv = .err) ∧
    (key.length = 16 → iv.length = 16 → ∃ o A B L1 R1 L2 R2, newCipher key iv = .ok o ∧ KCipher2Spec.IsRun key iv A B L1 R1 L2 R2 ∧
      IsStream (fun dst src => dst.ptr = src.ptr) xorKS o (KCipher2Spec.keystream A B L1 R1 L2 R2)) := by
  constructor
  · intro h
    unfold newCipher
    by_cases hk : key.length = 16
    · rw [if_neg (by simpa using hk), if_pos (by omega)]
    · rw [if_pos hk]
  · intro hk hi
    refine ⟨⟨expandKey key iv, List.replicate 8 0, 0⟩, _, _, _, _, _, _, ?_, isRun key iv, ?_⟩
    · unfold newCipher; rw [if_neg (by simpa using hk), if_neg (by simpa using hi)]
    · rw [← funext (keystream_eq key iv)]
      generalize (⟨expandKey key iv, List.replicate 8 0, 0⟩ : Obj) = x
      refine isStream_of (fun st p => st = iterate (fun s => (gen s).2) p x) rfl ?_ ?_
      · intro st p m dst src hR hA h2 h3
        exact ⟨_, by rw [call_inplace _ _ _ _ hA, hR, byteStep_call gen x p m dst src h2 h3], rfl⟩
      · intro st m dst src hn
        unfold xorKS
        rw [xorKeyStream_panics _ _ _ _ _ hn]

/-- **C132 fails** with two buffers: for every key and IV and after every history, a call whose buffers do not overlap copies the
plaintext to `dst`. -/
theorem C132_kcipher2_copies_plaintext_violated (key iv : Bytes) (hk : key.length = 16) (hi : iv.length = 16) :
    ∃ o, newCipher key iv = .ok o ∧ ∀ ins outs y, Calls NoOverlap xorKS o ins outs y → outs = ins ∧
      ∀ m dst src, src.len ≤ dst.len → NoOverlap dst src → ∃ y', xorKS y m dst src = .ok (m.write dst.ptr (m.read src.ptr src.len), y') := by
  refine ⟨⟨expandKey key iv, List.replicate 8 0, 0⟩, by unfold newCipher; rw [if_neg (by simpa using hk), if_neg (by simpa using hi)], ?_⟩
  generalize (⟨expandKey key iv, List.replicate 8 0, 0⟩ : Obj) = x
  have hcall : ∀ y m dst src, src.len ≤ dst.len → NoOverlap dst src →
      ∃ y', xorKS y m dst src = .ok (m.write dst.ptr (m.read src.ptr src.len), y') := by
    intro y m dst src h2 h3
    refine ⟨iterate (fun s => (gen s).2) (0 + src.len) y, ?_⟩
    have := byteStep_call gen y 0 m dst src h2 h3.noPartial
    rw [show iterate (fun s => (gen s).2) 0 y = y from rfl] at this
    unfold xorKS
    rw [this]
    have hl : (xorb (m.read src.ptr src.len) (Spec.keyBytes (genByte gen y) 0 src.len)).length = src.len := by
      simp [xorb, Spec.keyBytes]
    simp only [Nat.min_eq_right h2]
    congr 2
    rcases h3.disjoint with h0 | hd
    · rw [h0]; simp [Mem.read, xorb, Mem.write_nil]
    · rw [Mem.read_write_disjoint _ _ _ _ _ (by rw [hl]; omega), Mem.write_write_same _ _ _ _ (by rw [hl]; simp)]
  intro ins outs y hc
  refine ⟨?_, fun m dst src h2 h3 => hcall y m dst src h2 h3⟩
  induction hc with
  | nil => rfl
  | @cons st st' st'' m m' dst src ins outs ha h t ih =>
    have h2 : src.len ≤ dst.len := by
      by_contra h2
      have : xorKS st m dst src = .panic := by
        unfold xorKS; rw [xorKeyStream_panics _ _ _ _ _ (fun h => h2 h.1)]
      rw [this] at h; cases h
    obtain ⟨y', e⟩ := hcall st m dst src h2 ha
    rw [e] at h
    cases h
    rw [ih, Mem.read_write_self' _ _ _ _ (by simp)]

example : ∃ o, newCipher (List.replicate 16 1) (List.replicate 16 2) = .ok o := ⟨_, rfl⟩
example : NoOverlap ⟨0, 3, 3⟩ ⟨8, 3, 3⟩ := by decide

end Verif.Strm.KCipher2
