import Verif.Cipher.Common
/-
Model of cipher/threefish: threefish.go, threefish256.go, threefish512.go, threefish1024.go, utils.go.  The three files differ in
the numbers collected in `Prm`.
-/
namespace Verif.Cipher.Threefish

abbrev W := BitVec 64

/-- What the three files differ in: the number of words and of rounds, the rotations of the eight calls of `g…` in the order of
`Encrypt`, the rotations of the eight calls of `d…` in the order of `Decrypt`, and the permutations of `g…` and `d…` (word `i`
becomes word `perm[i]`). -/
structure Prm where
  nw : Nat
  rounds : Nat
  rot : List (List Nat)
  drot : List (List Nat)
  g : List Nat
  d : List Nat

/-- cipher/threefish/threefish256.go:7-16, 55-70, 94-111, 152-176. -/
def p256 : Prm where
  nw := 4
  rounds := 72
  rot := [[14, 16], [52, 57], [23, 40], [5, 37], [25, 33], [46, 12], [58, 22], [32, 32]]
  drot := [[32, 32], [22, 58], [12, 46], [33, 25], [37, 5], [40, 23], [57, 52], [16, 14]]
  g := [0, 3, 2, 1]
  d := [0, 3, 2, 1]

/-- cipher/threefish/threefish512.go:7-16, 54-76, 92-121, 155-180. -/
def p512 : Prm where
  nw := 8
  rounds := 72
  rot := [[46, 36, 19, 37], [33, 27, 14, 42], [17, 49, 36, 39], [44, 9, 54, 56],
          [39, 30, 34, 24], [13, 50, 10, 17], [25, 29, 39, 43], [8, 35, 56, 22]]
  drot := [[22, 56, 35, 8], [43, 39, 29, 25], [17, 10, 50, 13], [24, 34, 30, 39],
           [56, 54, 9, 44], [39, 36, 49, 17], [42, 14, 27, 33], [37, 19, 36, 46]]
  g := [2, 1, 4, 7, 6, 5, 0, 3]
  d := [6, 1, 0, 7, 2, 5, 4, 3]

/-- cipher/threefish/threefish1024.go:7-16, 51-74, 90-120, 155-179. -/
def p1024 : Prm where
  nw := 16
  rounds := 80
  rot := [[24, 13, 8, 47, 8, 17, 22, 37], [38, 19, 10, 55, 49, 18, 23, 52], [33, 4, 51, 13, 34, 41, 59, 17], [5, 20, 48, 41, 47, 28, 16, 25],
          [41, 9, 37, 31, 12, 47, 44, 30], [16, 34, 56, 51, 4, 53, 42, 41], [31, 44, 47, 46, 19, 42, 44, 25], [9, 48, 35, 52, 23, 31, 37, 20]]
  drot := [[20, 37, 31, 23, 52, 35, 48, 9], [25, 44, 42, 19, 46, 47, 44, 31], [41, 42, 53, 4, 51, 56, 34, 16], [30, 44, 47, 12, 31, 37, 9, 41],
           [25, 16, 28, 47, 41, 48, 20, 5], [17, 59, 41, 34, 13, 51, 4, 33], [52, 23, 18, 49, 55, 10, 19, 38], [37, 22, 17, 8, 47, 8, 13, 24]]
  g := [0, 9, 2, 13, 6, 11, 4, 15, 10, 7, 12, 3, 14, 5, 8, 1]
  d := [0, 15, 2, 11, 6, 13, 4, 9, 14, 1, 8, 5, 10, 3, 12, 7]

/-- The loop of `g256`, `g512`, `g1024` with the rotations `n`: cipher/threefish/threefish256.go:152-157 and its likes.  Words beyond
those with a rotation stay. -/
def mix : List W → List Nat → List W
  | x :: y :: l, n :: ns => (x + y) :: (rotl y n ^^^ (x + y)) :: mix l ns
  | l, _ => l

/-- The loop of `d256`, `d512`, `d1024`: cipher/threefish/threefish256.go:167-172.  (From the last pair to the first; the pairs do not
interfere.)  `rotr64(x, n)` is `rotl64(x, 64 - n)`: utils.go:41-47. -/
def unmix : List W → List Nat → List W
  | x :: y :: l, n :: ns => (x - rotl (y ^^^ x) (64 - n)) :: rotl (y ^^^ x) (64 - n) :: unmix l ns
  | l, _ => l

/-- The parallel assignment that permutes the words: cipher/threefish/threefish256.go:159, 163. -/
def permute (p : List Nat) (l : List W) : List W := p.map (fun i => l.getD i 0) ++ l.drop p.length

/-- `g256`, `g512`, `g1024`, the call number `r` of `Encrypt`: cipher/threefish/threefish256.go:152-160. -/
def gRound (P : Prm) (r : Nat) (l : List W) : List W := permute P.g (mix l (P.rot.getD r []))

/-- `d256`, `d512`, `d1024`, the call number `r` of `Decrypt`: cipher/threefish/threefish256.go:162-172.  The parameters are used in
reverse order (`n := []int{b, a}`). -/
def dRound (P : Prm) (r : Nat) (l : List W) : List W := unmix (permute P.d l) (P.drot.getD r []).reverse

/-- `in[i] += ks[i]`, words beyond the key stay: cipher/threefish/threefish256.go:57-59. -/
def addKey : List W → List W → List W
  | k :: ks, x :: l => (x + k) :: addKey ks l
  | _, l => l

/-- `ct[i] -= ks[i]`: cipher/threefish/threefish256.go:88-90. -/
def subKey : List W → List W → List W
  | k :: ks, x :: l => (x - k) :: subKey ks l
  | _, l => l

/-- The subkeys `ks[s]`: `expandKey`, cipher/threefish/threefish256.go:119-150, with `calculateTweak`, utils.go:50-61. -/
def subkey (P : Prm) (key tweak : Bytes) (s : Nat) : List W :=
  let k := ldLE 64 8 P.nw key
  let kx := k ++ [k.foldl (· ^^^ ·) 0x1bd11bdaa9fc1a22#64]
  let t0 := BitVec.ofNat 64 (leN (tweak.take 8))
  let t1 := BitVec.ofNat 64 (leN ((tweak.drop 8).take 8))
  let t := [t0, t1, t0 ^^^ t1]
  (List.range P.nw).map fun i =>
    let v := kx.getD ((s + i) % (P.nw + 1)) 0
    if i = P.nw - 3 then v + t.getD (s % 3) 0
    else if i = P.nw - 2 then v + t.getD ((s + 1) % 3) 0
    else if i = P.nw - 1 then v + BitVec.ofNat 64 s
    else v

/-- A cipher object: the subkeys. -/
structure Ciph where
  P : Prm
  ks : Nat → List W

/-- `NewCipher256`, `NewCipher512`, `NewCipher1024`: cipher/threefish/threefish256.go:25-38 and its likes. -/
def newCipherP (P : Prm) (key tweak : Bytes) : Res Ciph :=
  if key.length ≠ P.nw * 8 then .err
  else if tweak.length ≠ 16 then .err
  else .ok ⟨P, subkey P key tweak⟩

/-- `NewCipher`: cipher/threefish/threefish.go:50-63. -/
def newCipher (key tweak : Bytes) : Res Ciph :=
  if key.length = 32 then newCipherP p256 key tweak
  else if key.length = 64 then newCipherP p512 key tweak
  else if key.length = 128 then newCipherP p1024 key tweak
  else .err

/-- Eight rounds of `Encrypt`, for `d = 8j`: cipher/threefish/threefish256.go:55-77. -/
def encEight (c : Ciph) (l : List W) (j : Nat) : List W :=
  let g := gRound c.P
  let l := g 3 (g 2 (g 1 (g 0 (addKey (c.ks (2 * j)) l))))
  g 7 (g 6 (g 5 (g 4 (addKey (c.ks (2 * j + 1)) l))))

/-- The words of `Encrypt`: cipher/threefish/threefish256.go:54-82. -/
def encWords (c : Ciph) (l : List W) : List W :=
  addKey (c.ks (c.P.rounds / 4)) ((List.range (c.P.rounds / 8)).foldl (encEight c) l)

/-- Eight rounds of `Decrypt`, for `d = 8j + 7`: cipher/threefish/threefish256.go:93-111. -/
def decEight (c : Ciph) (l : List W) (j : Nat) : List W :=
  let d := dRound c.P
  let l := subKey (c.ks (2 * j + 1)) (d 3 (d 2 (d 1 (d 0 l))))
  subKey (c.ks (2 * j)) (d 7 (d 6 (d 5 (d 4 l))))

/-- The words of `Decrypt`: cipher/threefish/threefish256.go:87-112. -/
def decWords (c : Ciph) (l : List W) : List W :=
  (List.range (c.P.rounds / 8)).reverse.foldl (decEight c) (subKey (c.ks (c.P.rounds / 4)) l)

/-- `Encrypt(dst, src)`, what `dst` holds afterwards: cipher/threefish/threefish256.go:46-83.  All of `src` is converted to words
(`bytesToUint64s`) and as many bytes are copied; with too few words the first index panics. -/
def encrypt (c : Ciph) (dst src : Bytes) : Res Bytes :=
  if src.length / 8 < c.P.nw then .panic
  else
    let ct := stLE 8 (encWords c (ldLE 64 8 (src.length / 8) src))
    .ok (ct.take dst.length ++ dst.drop ct.length)

/-- `Decrypt(dst, src)`: cipher/threefish/threefish256.go:86-117. -/
def decrypt (c : Ciph) (dst src : Bytes) : Res Bytes :=
  if src.length / 8 < c.P.nw then .panic
  else
    let pt := stLE 8 (decWords c (ldLE 64 8 (src.length / 8) src))
    .ok (pt.take dst.length ++ dst.drop pt.length)

end Verif.Cipher.Threefish
