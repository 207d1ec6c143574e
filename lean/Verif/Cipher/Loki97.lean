import Verif.Cipher.Common2
/-
Model of cipher/loki97.
-/
namespace Verif.Cipher.Loki97
set_option maxRecDepth 100000

abbrev W := BitVec 32

/-- `ULONG64` (cipher/loki97/ulong64.go:7-10). -/
structure U where
  l : W
  r : W
deriving DecidableEq

/-- The loop of `mult` (cipher/loki97/sboxes.go:53-70), at most `fuel` turns. The numbers stay below `2 n` (`multLoop_lt`), so `uint32` never overflows. -/
def multLoop (g n : Nat) : Nat → Nat → Nat → Nat → Nat
  | 0, _, _, p => p
  | fuel + 1, a, b, p =>
    if b = 0 then p
    else multLoop g n fuel (if 2 * a ≥ n then (2 * a) ^^^ g else 2 * a) (b / 2) (if b % 2 = 1 then p ^^^ a else p)

/-- `mult` (cipher/loki97/sboxes.go:53-70): `b` is a `uint32`, so 32 turns are enough. -/
def mult (a b g n : Nat) : Nat := multLoop g n 32 a b 0

/-- `exp3` (cipher/loki97/sboxes.go:41-51). -/
def exp3 (b g n : Nat) : Byte :=
  if b = 0 then 0
  else
    let r := b
    let b := mult r b g n
    let r := mult r b g n
    BitVec.ofNat 8 r

/-- `S1[i]` (cipher/loki97/sboxes.go:3-24): the table is computed once and not written to afterwards, so it is a function of the index. -/
def S1 (i : Nat) : Byte := exp3 (i ^^^ 8191) 0x2911 8192
/-- `S2[i]` (cipher/loki97/sboxes.go:26-39). -/
def S2 (i : Nat) : Byte := exp3 (i ^^^ 2047) 0xAA7 2048

/-- The two inner loops of `permutationGeneration` (cipher/loki97/permutation.go:26-38): the bits `j0` to `j0 + 3` of `i` at 7, 15, 23 and 31. -/
def spread (i : Byte) (j0 : Nat) : W :=
  [0, 1, 2, 3].foldl (fun p j => p ||| ((((i.setWidth 32) >>> (j0 + j)) &&& 1) <<< (7 + 8 * j))) 0

/-- `P[i]` (cipher/loki97/permutation.go:6-43). -/
def P (i : Byte) : U := ⟨spread i 4, spread i 0⟩

/-- `d` of `compute` (cipher/loki97/keygeneration.go:64-65). -/
def kp (A B : U) : U := ⟨(A.l &&& ~~~ B.r) ||| (A.r &&& B.r), (A.r &&& ~~~ B.r) ||| (A.l &&& B.r)⟩

/-- The eight values `s` of `compute` (cipher/loki97/keygeneration.go:74-104), the first one first. -/
def sa (d : U) : List Byte := [
  S1 ((d.l >>> 24 ||| d.r <<< 8) &&& 0x1FFF).toNat, S2 ((d.l >>> 16) &&& 0x7FF).toNat, S1 ((d.l >>> 8) &&& 0x1FFF).toNat, S2 (d.l &&& 0x7FF).toNat,
  S2 ((d.r >>> 24 ||| d.l <<< 8) &&& 0x7FF).toNat, S1 ((d.r >>> 16) &&& 0x1FFF).toNat, S2 ((d.r >>> 8) &&& 0x7FF).toNat, S1 (d.r &&& 0x1FFF).toNat]

/-- `e` of `compute` from these values (cipher/loki97/keygeneration.go:74-104). -/
def perm (s : List Byte) : U :=
  let t (k n : Nat) : U := ⟨(P (s.getD k 0)).l >>> n, (P (s.getD k 0)).r >>> n⟩
  ⟨(t 0 7).l ||| (t 1 6).l ||| (t 2 5).l ||| (t 3 4).l ||| (t 4 3).l ||| (t 5 2).l ||| (t 6 1).l ||| (t 7 0).l,
   (t 0 7).r ||| (t 1 6).r ||| (t 2 5).r ||| (t 3 4).r ||| (t 4 3).r ||| (t 5 2).r ||| (t 6 1).r ||| (t 7 0).r⟩

/-- Four bytes as a word. -/
def join (a b c d : Byte) : W := (a.setWidth 32 <<< 24) ||| (b.setWidth 32 <<< 16) ||| (c.setWidth 32 <<< 8) ||| d.setWidth 32

/-- `f` of `compute` (cipher/loki97/keygeneration.go:106-118). -/
def sb (e : U) (B : W) : U :=
  ⟨join (S2 (((e.l >>> 24) &&& 0xFF) ||| ((B >>> 21) &&& 0x700)).toNat) (S2 (((e.l >>> 16) &&& 0xFF) ||| ((B >>> 18) &&& 0x700)).toNat)
    (S1 (((e.l >>> 8) &&& 0xFF) ||| ((B >>> 13) &&& 0x1F00)).toNat) (S1 ((e.l &&& 0xFF) ||| ((B >>> 8) &&& 0x1F00)).toNat),
   join (S2 (((e.r >>> 24) &&& 0xFF) ||| ((B >>> 5) &&& 0x700)).toNat) (S2 (((e.r >>> 16) &&& 0xFF) ||| ((B >>> 2) &&& 0x700)).toNat)
    (S1 (((e.r >>> 8) &&& 0xFF) ||| ((B <<< 3) &&& 0x1F00)).toNat) (S1 ((e.r &&& 0xFF) ||| ((B <<< 8) &&& 0x1F00)).toNat)⟩

/-- `compute` (cipher/loki97/keygeneration.go:60-119). -/
def compute (A B : U) : U := sb (perm (sa (kp A B))) B.l

/-- `add64` (cipher/loki97/ulong64.go:12-23). -/
def add64 (a b : U) : U :=
  let r := a.r + b.r
  let l := a.l + b.l
  ⟨if r.toNat < b.r.toNat then l + 1 else l, r⟩
/-- `sub64` (cipher/loki97/ulong64.go:25-36). -/
def sub64 (a b : U) : U :=
  let r := a.r - b.r
  let l := a.l - b.l
  ⟨if r.toNat > a.r.toNat then l - 1 else l, r⟩
/-- The exclusive or of both words. -/
def xor64 (a b : U) : U := ⟨a.l ^^^ b.l, a.r ^^^ b.r⟩

/-- `byteToULONG64` (cipher/loki97/ulong64.go:38-45) at byte `i` of the slice. -/
def toU (l : Bytes) (i : Nat) : U :=
  ⟨BitVec.ofNat 32 (leN ((l.drop i).take 4).reverse), BitVec.ofNat 32 (leN ((l.drop (i + 4)).take 4).reverse)⟩
/-- `ULONG64ToBYTE` (cipher/loki97/ulong64.go:47-54). -/
def ofU (u : U) : Bytes := (leBytes 4 u.l.toNat).reverse ++ (leBytes 4 u.r.toNat).reverse

/-- `DELTA` (cipher/loki97/keygeneration.go:4). -/
def DELTA : U := ⟨0x9E3779B9, 0x7F4A7C15⟩

/-- The variables of the loop of `makeKey`. -/
structure K where
  k4 : U
  k3 : U
  k2 : U
  k1 : U
  deltan : U

/-- `makeKey` before its loop (cipher/loki97/keygeneration.go:9-35). -/
def start (k : Bytes) : K :=
  let k4 := toU k 0
  let k3 := toU k 8
  if k.length = 16 then ⟨k4, k3, compute k3 k4, compute k4 k3, DELTA⟩
  else if k.length = 24 then ⟨k4, k3, toU k 16, compute k4 k3, DELTA⟩
  else ⟨k4, k3, toU k 16, toU k 24, DELTA⟩

/-- One turn of the loop (cipher/loki97/keygeneration.go:38-54). -/
def turn (s : K) : K := ⟨s.k3, s.k2, s.k1, xor64 s.k4 (compute (add64 (add64 s.k1 s.k3) s.deltan) s.k2), add64 s.deltan DELTA⟩

/-- The `n` next subkeys: each is `k1` after its turn. -/
def subkeys : Nat → K → List U
  | 0, _ => []
  | n + 1, s => (turn s).k1 :: subkeys n (turn s)

/-- `makeKey` (cipher/loki97/keygeneration.go:6-57). -/
def makeKey (k : Bytes) : List U := subkeys 48 (start k)

/-- One turn of `blockEncrypt` (cipher/loki97/block.go:60-74) on `L` and `R`. -/
def round (a b c : U) (s : U × U) : U × U :=
  let nR := add64 s.2 a
  (add64 nR c, xor64 s.1 (compute nR b))
/-- One turn of `blockDecrypt` (cipher/loki97/block.go:20-34). -/
def iround (a b c : U) (s : U × U) : U × U :=
  let nR := sub64 s.2 c
  (sub64 nR a, xor64 s.1 (compute nR b))

/-- `SK[3 i + j]`. -/
def sk (SK : List U) (i j : Nat) : U := SK.getD (3 * i + j) ⟨0, 0⟩

/-- `blockEncrypt` (cipher/loki97/block.go:47-85): `L` and `R` in, `R` and `L` out. -/
def blockEncrypt (SK : List U) (s : U × U) : U × U :=
  ((List.range 16).foldl (fun s i => round (sk SK i 0) (sk SK i 1) (sk SK i 2) s) s).swap
/-- `blockDecrypt` (cipher/loki97/block.go:7-45): the subkeys from the last one down. -/
def blockDecrypt (SK : List U) (s : U × U) : U × U :=
  ((List.range 16).reverse.foldl (fun s i => iround (sk SK i 0) (sk SK i 1) (sk SK i 2) s) s).swap

def ld (b : Bytes) : U × U := (toU b 0, toU b 8)
def st (s : U × U) : Bytes := ofU s.1 ++ ofU s.2

def encB (key b : Bytes) : Bytes := st (blockEncrypt (makeKey key) (ld b))
def decB (key b : Bytes) : Bytes := st (blockDecrypt (makeKey key) (ld b))

/-- `NewCipher`, `Encrypt`, `Decrypt` (cipher/loki97/loki97.go:37-99). -/
def newCipher (key : Bytes) : Res Obj :=
  if key.length = 16 ∨ key.length = 24 ∨ key.length = 32 then
    .ok ⟨16, guarded 16 (whole 16 (encB key)), guarded 16 (whole 16 (decB key))⟩
  else .err

/-! Inverses -/

theorem sub_add (a b : U) : sub64 (add64 a b) b = a := by
  obtain ⟨al, ar⟩ := a
  obtain ⟨bl, br⟩ := b
  have h1 := ar.isLt
  have h2 := br.isLt
  have e : ar + br - br = ar := BitVec.add_sub_cancel ..
  simp only [sub64, add64, e, U.mk.injEq, and_true]
  have hc : (ar + br).toNat < br.toNat ↔ ar.toNat > (ar + br).toNat := by rw [BitVec.toNat_add]; omega
  by_cases h : (ar + br).toNat < br.toNat
  · rw [if_pos h, if_pos (hc.mp h)]
    apply BitVec.eq_of_toNat_eq
    have := al.isLt; have := bl.isLt
    simp only [BitVec.toNat_sub, BitVec.toNat_add, show (1 : W).toNat = 1 from rfl]
    omega
  · rw [if_neg h, if_neg (fun h' => h (hc.mpr h')), BitVec.add_sub_cancel]

theorem xor_xor (a b : U) : xor64 (xor64 a b) b = a := by
  simp only [xor64, BitVec.xor_assoc, BitVec.xor_self, BitVec.xor_zero]

/-- `blockDecrypt` works on the halves as `blockEncrypt` leaves them: exchanged. -/
theorem iround_round (a b c : U) (s : U × U) : (iround a b c (round a b c s).swap).swap = s := by
  simp only [iround, round, Prod.swap, sub_add, xor_xor]

theorem decrypt_encrypt (SK : List U) (s : U × U) : blockDecrypt SK (blockEncrypt SK s) = s := by
  have h : ∀ (l : List Nat) (s : U × U), (l.foldl (fun s i => iround (sk SK i 0) (sk SK i 1) (sk SK i 2) s) s).swap =
      l.foldl (fun s i => (iround (sk SK i 0) (sk SK i 1) (sk SK i 2) s.swap).swap) s.swap := by
    intro l
    induction l with
    | nil => intro s; rfl
    | cons i l ih => intro s; rw [List.foldl_cons, List.foldl_cons, ih]; rfl
  rw [blockDecrypt, h, blockEncrypt, Prod.swap_swap]
  exact foldl_undo (fun s i => round (sk SK i 0) (sk SK i 1) (sk SK i 2) s) _ (fun s i => iround_round _ _ _ s) _ _

theorem toU_ofU (u : U) (l : Bytes) : toU (ofU u ++ l) 0 = u ∧ toU (l ++ ofU u) l.length = u := by
  have e (x : W) : BitVec.ofNat 32 (leN (leBytes 4 x.toNat)) = x := by
    rw [leN_leBytes]; apply BitVec.eq_of_toNat_eq; have := x.isLt; simp only [BitVec.toNat_ofNat]; omega
  have hl (x : W) : (leBytes 4 x.toNat).reverse.length = 4 := by simp
  constructor
  · simp [toU, ofU, List.take_append, List.drop_append, e]
  · have hd : l.drop (l.length + 4) = [] := List.drop_eq_nil_of_le (by omega)
    have ht (x : W) : (leBytes 4 x.toNat).reverse.take 4 = (leBytes 4 x.toNat).reverse := List.take_of_length_le (by rw [hl])
    simp [toU, ofU, List.take_append, List.drop_append, e, hd, ht]

theorem ld_st (s : U × U) : ld (st s) = s := by
  have h2 := (toU_ofU s.2 (ofU s.1)).2
  rw [show (ofU s.1).length = 8 by simp [ofU]] at h2
  exact Prod.ext (toU_ofU s.1 (ofU s.2)).1 h2

theorem st_ld (b : Bytes) (h : b.length = 16) : st (ld b) = b := by
  have e (l : Bytes) (hl : l.length = 4) : (leBytes 4 (BitVec.ofNat 32 (leN l.reverse)).toNat).reverse = l := by
    have h1 := leN_lt l.reverse
    rw [List.length_reverse, hl] at h1
    rw [BitVec.toNat_ofNat, Nat.mod_eq_of_lt (by simpa using h1)]
    have := leBytes_leN l.reverse
    rw [List.length_reverse, hl] at this
    rw [this, List.reverse_reverse]
  match b, h with
  | [b0, b1, b2, b3, b4, b5, b6, b7, b8, b9, b10, b11, b12, b13, b14, b15], _ =>
    have e0 := e [b0, b1, b2, b3] rfl
    have e1 := e [b4, b5, b6, b7] rfl
    have e2 := e [b8, b9, b10, b11] rfl
    have e3 := e [b12, b13, b14, b15] rfl
    simp only [st, ld, ofU, toU, List.drop_zero, List.drop_succ_cons, List.take_succ_cons, List.take_zero, Nat.zero_add, Nat.reduceAdd, e0, e1, e2, e3]
    rfl

theorem implements : Implements newCipher (fun l => l = 16 ∨ l = 24 ∨ l = 32) 16 :=
  implements_fn (ok := fun l => l = 16 ∨ l = 24 ∨ l = 32) (f := encB) (g := decB) fun key _ =>
    blockFn_of 16 ld st (blockEncrypt (makeKey key)) (blockDecrypt (makeKey key)) (fun s => by simp [st, ofU]) ld_st st_ld (decrypt_encrypt _)

end Verif.Cipher.Loki97
