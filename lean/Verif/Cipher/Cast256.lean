import Verif.Cipher.CastTables
/-
Model of cipher/cast256 (cast256.go, utils.go, sboxs.go).
-/
namespace Verif.Cipher.Cast256
open CastTables

abbrev St := W × W × W × W

/-- `sbox[0][getByte(t, 3)]` and so on (utils.go:51-53) -/
def at' (t : List W) (i : W) (n : Nat) : W := t.getD ((i >>> n).setWidth 8 : Byte).toNat 0

/-- utils.go:55-64: the new value of `*y`. -/
def f1 (y x kr km : W) : W :=
  let t := rotl (km + x) kr.toNat
  y ^^^ (((at' S0 t 24 ^^^ at' S1 t 16) - at' S2 t 8) + at' S3 t 0)
/-- utils.go:66-75 -/
def f2 (y x kr km : W) : W :=
  let t := rotl (km ^^^ x) kr.toNat
  y ^^^ (((at' S0 t 24 - at' S1 t 16) + at' S2 t 8) ^^^ at' S3 t 0)
/-- utils.go:77-86 -/
def f3 (y x kr km : W) : W :=
  let t := rotl (km - x) kr.toNat
  y ^^^ (((at' S0 t 24 + at' S1 t 16) ^^^ at' S2 t 8) - at' S3 t 0)

/-- utils.go:102-111 `k_rnd`, with the values of `cm` and `cr` before the loop that fills `tm` and `tr` (cast256.go:122-127). -/
def kRnd (k : List W) (cm cr : W) : List W :=
  let tm := fun j : Nat => cm + 0x6ed9eba1 * BitVec.ofNat 32 j
  let tr := fun j : Nat => cr + 17 * BitVec.ofNat 32 j
  let up := fun (k : List W) (d s : Nat) (f : W → W → W → W → W) (i : Nat) => k.set d (f (k.getD d 0) (k.getD s 0) (tr i) (tm i))
  let k := up k 6 7 f1 0
  let k := up k 5 6 f2 1
  let k := up k 4 5 f3 2
  let k := up k 3 4 f1 3
  let k := up k 2 3 f2 4
  let k := up k 1 2 f3 5
  let k := up k 0 1 f1 6
  up k 7 0 f2 7

/-- cast256.go:108-149 `expandKey`: at group `i`, 16 `i` constants have been used. -/
def expandKey (key : Bytes) : List W :=
  let lk := ldBE 32 4 8 (key ++ List.replicate (32 - key.length) 0)
  ((List.range 12).foldl (fun (x : List W × List W) i =>
    let n : W := BitVec.ofNat 32 (16 * i)
    let lk := kRnd x.2 (0x5a827999 + 0x6ed9eba1 * n) (19 + 17 * n)
    let lk := kRnd lk (0x5a827999 + 0x6ed9eba1 * (n + 8)) (19 + 17 * (n + 8))
    (x.1 ++ [lk.getD 0 0, lk.getD 2 0, lk.getD 4 0, lk.getD 6 0, lk.getD 7 0, lk.getD 5 0, lk.getD 3 0, lk.getD 1 0], lk)) ([], lk)).1

/-- utils.go:88-93 `f_rnd` with `n = 8 g` -/
def fwd (K : List W) (s : St) (g : Nat) : St :=
  let (x0, x1, x2, x3) := s
  let l := fun j => K.getD (8 * g + j) 0
  let x2 := f1 x2 x3 (l 0) (l 4)
  let x1 := f2 x1 x2 (l 1) (l 5)
  let x0 := f3 x0 x1 (l 2) (l 6)
  let x3 := f1 x3 x0 (l 3) (l 7)
  (x0, x1, x2, x3)
/-- utils.go:95-100 `i_rnd` -/
def inv (K : List W) (s : St) (g : Nat) : St :=
  let (x0, x1, x2, x3) := s
  let l := fun j => K.getD (8 * g + j) 0
  let x3 := f1 x3 x0 (l 3) (l 7)
  let x0 := f3 x0 x1 (l 2) (l 6)
  let x1 := f2 x1 x2 (l 1) (l 5)
  let x2 := f1 x2 x3 (l 0) (l 4)
  (x0, x1, x2, x3)

/-- cast256.go:74-89 `encrypt` -/
def enc (K : List W) (s : St) : St :=
  let s := [0, 1, 2, 3, 4, 5].foldl (fwd K) s
  [6, 7, 8, 9, 10, 11].foldl (inv K) s
/-- cast256.go:91-106 `decrypt` -/
def dec (K : List W) (s : St) : St :=
  let s := [6, 7, 8, 9, 10, 11].reverse.foldl (fwd K) s
  [0, 1, 2, 3, 4, 5].reverse.foldl (inv K) s

theorem inv_fwd (K : List W) (s : St) (g : Nat) : inv K (fwd K s g) g = s := by
  obtain ⟨a, b, c, d⟩ := s
  simp only [fwd, inv, f1, f2, f3, xor_self_right]
theorem fwd_inv (K : List W) (s : St) (g : Nat) : fwd K (inv K s g) g = s := by
  obtain ⟨a, b, c, d⟩ := s
  simp only [fwd, inv, f1, f2, f3, xor_self_right]
theorem dec_enc (K : List W) (s : St) : dec K (enc K s) = s := by
  simp only [dec, enc, foldl_undo (inv K) (fwd K) (fwd_inv K), foldl_undo (fwd K) (inv K) (inv_fwd K)]
theorem enc_dec (K : List W) (s : St) : enc K (dec K s) = s := by
  simp only [dec, enc, foldl_undo' (fwd K) (inv K) (fwd_inv K), foldl_undo' (inv K) (fwd K) (inv_fwd K)]

/-- Key lengths in bytes. -/
def keyOK (n : Nat) : Prop := n = 16 ∨ n = 20 ∨ n = 24 ∨ n = 28 ∨ n = 32
instance : DecidablePred keyOK := fun n => by unfold keyOK; infer_instance

def encrypt (key : Bytes) : Bytes → Bytes := enc4BE 32 4 (enc (expandKey key))
def decrypt (key : Bytes) : Bytes → Bytes := enc4BE 32 4 (dec (expandKey key))

/-- cast256.go:23-72 `NewCipher`, `Encrypt`, `Decrypt` -/
def newCipher (key : Bytes) : Res Obj :=
  if keyOK key.length then .ok ⟨16, guarded 16 (whole 16 (encrypt key)), guarded 16 (whole 16 (decrypt key))⟩ else .err

theorem implements : Implements newCipher keyOK 16 :=
  implements_of (ok := keyOK) fun key _ =>
    isBlock_4BE (w := 32) (sz := 4) 16 rfl rfl (f := enc (expandKey key)) (g := dec (expandKey key)) (dec_enc _) (enc_dec _)

end Verif.Cipher.Cast256
