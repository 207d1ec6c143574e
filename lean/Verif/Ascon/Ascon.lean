import Verif.Aead.Generic
/-!
# Model of `/repo/cipher/ascon`

The assembly-free build: the `Generic` functions are what the plain ones call
(`/repo/cipher/ascon/utils.go` 153-184).
-/
namespace Verif.Ascon
open Verif

abbrev W := BitVec 64

/-- `state`, cipher/ascon/state.go:7-9. -/
structure St where
  x0 : W
  x1 : W
  x2 : W
  x3 : W
  x4 : W
deriving DecidableEq

/-- `be64n`, cipher/ascon/utils.go:24-31.  On eight bytes it is also `binary.BigEndian.Uint64` (and `getu64`,
utils.go:8-10).  A slice of more than eight bytes would panic; there is none. -/
def be64n (b : Bytes) : W :=
  (List.range b.length).reverse.foldl (fun x i => x ||| (b.getD i 0).setWidth 64 <<< (56 - i * 8)) 0

/-- `byte(x >> (56 - 8*i))`, cipher/ascon/utils.go:35. -/
def byteAt (i : Nat) (x : W) : Byte := (x >>> (56 - 8 * i)).setWidth 8

/-- `put64n`, cipher/ascon/utils.go:33-37, on a slice of `n ≤ 8` bytes: what it then holds.  For eight bytes it is also
`binary.BigEndian.PutUint64`. -/
def put64n (n : Nat) (x : W) : Bytes := (List.range n).map fun i => byteAt i x

/-- `pad`, cipher/ascon/utils.go:16-18. -/
def pad (n : Nat) : W := 0x80#64 <<< (56 - 8 * n)

/-- `rotr`, cipher/ascon/utils.go:20-22. -/
def rotr (x : W) (n : Nat) : W := x.rotateRight n

/-- `mask`, cipher/ascon/utils.go:39-44. -/
def mask (x : W) (n : Nat) : W := (List.range n).foldl (fun x i => x &&& ~~~(255#64 <<< (56 - 8 * i))) x

/-- `roundGeneric`, cipher/ascon/utils.go:81-122. -/
def round (s : St) (C : W) : St :=
  let s2 := s.x2 ^^^ C
  let s0 := s.x0 ^^^ s.x4
  let s4 := s.x4 ^^^ s.x3
  let s2 := s2 ^^^ s.x1
  let s1 := s.x1
  let s3 := s.x3
  let t0 := s0 ^^^ (~~~s1 &&& s2)
  let t1 := s1 ^^^ (~~~s2 &&& s3)
  let t2 := s2 ^^^ (~~~s3 &&& s4)
  let t3 := s3 ^^^ (~~~s4 &&& s0)
  let t4 := s4 ^^^ (~~~s0 &&& s1)
  let t1 := t1 ^^^ t0
  let t0 := t0 ^^^ t4
  let t3 := t3 ^^^ t2
  let t2 := ~~~t2
  ⟨t0 ^^^ rotr t0 19 ^^^ rotr t0 28, t1 ^^^ rotr t1 61 ^^^ rotr t1 39, t2 ^^^ rotr t2 1 ^^^ rotr t2 6,
    t3 ^^^ rotr t3 10 ^^^ rotr t3 17, t4 ^^^ rotr t4 7 ^^^ rotr t4 41⟩

/-- `p12Generic`, cipher/ascon/utils.go:124-137. -/
def p12 (s : St) : St := [0xf0, 0xe1, 0xd2, 0xc3, 0xb4, 0xa5, 0x96, 0x87, 0x78, 0x69, 0x5a, 0x4b].foldl round s
/-- `p8Generic`, cipher/ascon/utils.go:139-148. -/
def p8 (s : St) : St := [0xb4, 0xa5, 0x96, 0x87, 0x78, 0x69, 0x5a, 0x4b].foldl round s
/-- `p6Generic`, cipher/ascon/utils.go:150-157. -/
def p6 (s : St) : St := [0x96, 0x87, 0x78, 0x69, 0x5a, 0x4b].foldl round s

/-- `init`, cipher/ascon/state.go:11-20. -/
def init (iv k0 k1 n0 n1 : W) : St :=
  let s := p12 ⟨iv, k0, k1, n0, n1⟩
  { s with x3 := s.x3 ^^^ k0, x4 := s.x4 ^^^ k1 }

/-- `finalize128a`, cipher/ascon/state.go:22-28. -/
def finalize128a (s : St) (k0 k1 : W) : St :=
  let s := p12 { s with x2 := s.x2 ^^^ k0, x3 := s.x3 ^^^ k1 }
  { s with x3 := s.x3 ^^^ k0, x4 := s.x4 ^^^ k1 }

/-- `additionalData128aGeneric`, cipher/ascon/utils.go:46-53; with what is left of `ad`. -/
def adBlocks128a (s : St) (ad : Bytes) : St × Bytes :=
  if 16 ≤ ad.length then
    adBlocks128a (p8 { s with x0 := s.x0 ^^^ be64n (ad.take 8), x1 := s.x1 ^^^ be64n ((ad.drop 8).take 8) }) (ad.drop 16)
  else (s, ad)
termination_by ad.length
decreasing_by rw [List.length_drop]; omega

/-- `additionalData128a`, cipher/ascon/state.go:30-49.  The blocks are handed over as `ad[:n]`, `n` the largest multiple
of 16; what the loop leaves is `ad[n:]`. -/
def ad128a (s : St) (ad : Bytes) : St :=
  let s :=
    if 0 < ad.length then
      let r := adBlocks128a s ad
      let s := r.1
      let ad := r.2
      let s :=
        if 8 ≤ ad.length then
          { s with x0 := s.x0 ^^^ be64n (ad.take 8), x1 := s.x1 ^^^ be64n (ad.drop 8) ^^^ pad (ad.length - 8) }
        else { s with x0 := s.x0 ^^^ be64n ad ^^^ pad ad.length }
      p8 s
    else s
  { s with x4 := s.x4 ^^^ 1 }

/-- `encrypt128a`, cipher/ascon/state.go:51-70, with `encryptBlocks128aGeneric`, utils.go:55-65: the output and the
state. -/
def encrypt128a (s : St) (src : Bytes) : Bytes × St :=
  if 16 ≤ src.length then
    let s := { s with x0 := s.x0 ^^^ be64n (src.take 8), x1 := s.x1 ^^^ be64n ((src.drop 8).take 8) }
    let r := encrypt128a (p8 s) (src.drop 16)
    (put64n 8 s.x0 ++ put64n 8 s.x1 ++ r.1, r.2)
  else if 8 ≤ src.length then
    let s := { s with x0 := s.x0 ^^^ be64n (src.take 8), x1 := s.x1 ^^^ be64n (src.drop 8) ^^^ pad (src.length - 8) }
    (put64n 8 s.x0 ++ put64n (src.length - 8) s.x1, s)
  else
    let x0 := s.x0 ^^^ be64n src
    (put64n src.length x0, { s with x0 := x0 ^^^ pad src.length })
termination_by src.length
decreasing_by rw [List.length_drop]; omega

/-- `decrypt128a`, cipher/ascon/state.go:72-97, with `decryptBlocks128aGeneric`, utils.go:67-79. -/
def decrypt128a (s : St) (src : Bytes) : Bytes × St :=
  if 16 ≤ src.length then
    let c0 := be64n (src.take 8)
    let c1 := be64n ((src.drop 8).take 8)
    let r := decrypt128a (p8 { s with x0 := c0, x1 := c1 }) (src.drop 16)
    (put64n 8 (s.x0 ^^^ c0) ++ put64n 8 (s.x1 ^^^ c1) ++ r.1, r.2)
  else if 8 ≤ src.length then
    let c0 := be64n (src.take 8)
    let c1 := be64n (src.drop 8)
    (put64n 8 (s.x0 ^^^ c0) ++ put64n (src.length - 8) (s.x1 ^^^ c1),
      { s with x0 := c0, x1 := (mask s.x1 (src.length - 8) ||| c1) ^^^ pad (src.length - 8) })
  else
    let c0 := be64n src
    (put64n src.length (s.x0 ^^^ c0), { s with x0 := (mask s.x0 src.length ||| c0) ^^^ pad src.length })
termination_by src.length
decreasing_by rw [List.length_drop]; omega

/-- `finalize128`, cipher/ascon/state.go:99-105. -/
def finalize128 (s : St) (k0 k1 : W) : St :=
  let s := p12 { s with x1 := s.x1 ^^^ k0, x2 := s.x2 ^^^ k1 }
  { s with x3 := s.x3 ^^^ k0, x4 := s.x4 ^^^ k1 }

/-- The loop of `additionalData128`, cipher/ascon/state.go:109-113. -/
def adBlocks128 (s : St) (ad : Bytes) : St × Bytes :=
  if 8 ≤ ad.length then adBlocks128 (p6 { s with x0 := s.x0 ^^^ be64n (ad.take 8) }) (ad.drop 8) else (s, ad)
termination_by ad.length
decreasing_by rw [List.length_drop]; omega

/-- `additionalData128`, cipher/ascon/state.go:107-119. -/
def ad128 (s : St) (ad : Bytes) : St :=
  let s :=
    if 0 < ad.length then
      let r := adBlocks128 s ad
      p6 { r.1 with x0 := r.1.x0 ^^^ be64n r.2 ^^^ pad r.2.length }
    else s
  { s with x4 := s.x4 ^^^ 1 }

/-- `encrypt128`, cipher/ascon/state.go:121-133. -/
def encrypt128 (s : St) (src : Bytes) : Bytes × St :=
  if 8 ≤ src.length then
    let s := { s with x0 := s.x0 ^^^ be64n (src.take 8) }
    let r := encrypt128 (p6 s) (src.drop 8)
    (put64n 8 s.x0 ++ r.1, r.2)
  else
    let x0 := s.x0 ^^^ be64n src
    (put64n src.length x0, { s with x0 := x0 ^^^ pad src.length })
termination_by src.length
decreasing_by rw [List.length_drop]; omega

/-- `decrypt128`, cipher/ascon/state.go:135-150. -/
def decrypt128 (s : St) (src : Bytes) : Bytes × St :=
  if 8 ≤ src.length then
    let c := be64n (src.take 8)
    let r := decrypt128 (p6 { s with x0 := c }) (src.drop 8)
    (put64n 8 (s.x0 ^^^ c) ++ r.1, r.2)
  else
    let c := be64n src
    (put64n src.length (s.x0 ^^^ c), { s with x0 := (mask s.x0 src.length ||| c) ^^^ pad src.length })
termination_by src.length
decreasing_by rw [List.length_drop]; omega

/-- `tag`, cipher/ascon/state.go:152-155. -/
def tag (s : St) : Bytes := put64n 8 s.x3 ++ put64n 8 s.x4

/-- `ascon`, cipher/ascon/ascon.go:39-42; the words `iv128`, `iv128a` are ascon.go:14-17, `a` says which. -/
structure Obj where
  k0 : W
  k1 : W
  a : Bool

/-- The `iv` of the object. -/
def Obj.iv (o : Obj) : W := if o.a then 0x80800c0800000000 else 0x80400c0600000000

/-- `NewCipher` (`a = false`) and `NewCiphera` (`a = true`), cipher/ascon/ascon.go:50-75. -/
def newCipher (a : Bool) (key : Bytes) : Res Obj :=
  if key.length ≠ 16 then .err else .ok ⟨be64n (key.take 8), be64n ((key.drop 8).take 8), a⟩

/-- What `Seal` and `Open` do before the text, cipher/ascon/ascon.go:90-100, 138-148. -/
def start (o : Obj) (nonce ad : Bytes) : St :=
  let s := init o.iv o.k0 o.k1 (be64n (nonce.take 8)) (be64n ((nonce.drop 8).take 8))
  if o.a then ad128a s ad else ad128 s ad

/-- The bytes `Seal` writes, cipher/ascon/ascon.go:107-119: ciphertext and tag. -/
def encB (o : Obj) (nonce ad pt : Bytes) : Bytes × Bytes :=
  let r := if o.a then encrypt128a (start o nonce ad) pt else encrypt128 (start o nonce ad) pt
  (r.1, tag (if o.a then finalize128a r.2 o.k0 o.k1 else finalize128 r.2 o.k0 o.k1))

/-- The plaintext and expected tag of `Open`, cipher/ascon/ascon.go:155-168. -/
def decB (o : Obj) (nonce ad ct : Bytes) : Bytes × Bytes :=
  let r := if o.a then decrypt128a (start o nonce ad) ct else decrypt128 (start o nonce ad) ct
  (r.1, tag (if o.a then finalize128a r.2 o.k0 o.k1 else finalize128 r.2 o.k0 o.k1))

/-- The sizes, cipher/ascon/ascon.go:26-36, and the two functions. -/
def core (o : Obj) : Aead.Core := ⟨16, 16, encB o, decB o⟩

/-- `Seal`, cipher/ascon/ascon.go:85-122. -/
def sealA (o : Obj) (h : Heap) (dst nonce pt ad : Slice) : Res (Heap × Slice) := Aead.gSeal (core o) h dst nonce pt ad
/-- `Open`, cipher/ascon/ascon.go:124-179. -/
def openA (o : Obj) (h : Heap) (dst nonce ct ad : Slice) : Res (Heap × Option Slice) := Aead.gOpen (core o) h dst nonce ct ad

end Verif.Ascon
