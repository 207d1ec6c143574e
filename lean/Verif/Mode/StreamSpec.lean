import Verif.Mode.Blocks
/-
What the stream modes compute: feedback equations over lists of segments, or key streams.
-/
namespace Verif.Mode.Spec

/-- CFB: `c_1 = p_1 ⊕ E(IV)`, `c_i = p_i ⊕ E(c_{i-1})`; the last block may be short. -/
def cfb (E : Bytes → Bytes) : Bytes → List Bytes → List Bytes
  | _, [] => []
  | v, p :: ps => let c := xorb p (E v); c :: cfb E c ps

/-- CFB as in SP 800-38A with segments of any length: the register is shifted left by the segment and the
ciphertext segment is put at its end. -/
def cfbSeg (E : Bytes → Bytes) : Bytes → List Bytes → List Bytes
  | _, [] => []
  | v, p :: ps => let c := xorb p (E v); c :: cfbSeg E (v.drop p.length ++ c) ps

/-- The bits of a byte string, most significant bit of each byte first. -/
def toBits (x : Bytes) : List Bool := x.flatMap (fun b => (List.range 8).map b.getMsbD)

/-- 1-bit CFB as in SP 800-38A, on bit strings: `c = p ⊕ msb(E(r))`, then `r` is shifted left by one bit
and `c` becomes its last bit.  `E` is the block cipher on bit strings. -/
def cfb1 (E : List Bool → List Bool) : List Bool → List Bool → List Bool
  | _, [] => []
  | r, p :: ps => let c := (p ^^ (E r).headD false); c :: cfb1 E (r.tail ++ [c]) ps

/-- `f` applied `n` times. -/
def iter {α : Type} (f : α → α) : Nat → α → α
  | 0, a => a
  | n + 1, a => f (iter f n a)

/-- The byte at position `i` of the concatenation of the blocks `blk 0, blk 1, …` of `k` bytes each. -/
def streamOf (k : Nat) (blk : Nat → Bytes) (i : Nat) : Byte := (blk (i / k)).getD (i % k) 0

/-- The key stream bytes `p, p+1, …, p+n-1`. -/
def keyBytes (ks : Nat → Byte) (p n : Nat) : Bytes := (List.range n).map (fun i => ks (p + i))

/-- OFB block `j` (from 0): `E^(j+1)(IV)`. -/
def ofbBlock (E : Bytes → Bytes) (iv : Bytes) (j : Nat) : Bytes := iter E (j + 1) iv

/-- 8-bit OFB: the register after `i` bytes; each step shifts in the first byte of `E(register)`. -/
def ofb8Reg (E : Bytes → Bytes) (iv : Bytes) : Nat → Bytes
  | 0 => iv
  | i + 1 => (ofb8Reg E iv i).drop 1 ++ (E (ofb8Reg E iv i)).take 1

/-- 8-bit OFB: key stream byte `i`. -/
def ofb8Byte (E : Bytes → Bytes) (iv : Bytes) (i : Nat) : Byte := (E (ofb8Reg E iv i)).getD 0 0

/-- GOST R 34.13-2015 CFB with segments of `s` bytes and a register of `m` bytes: `c = p ⊕ T_s(E(MSB(r)))`,
then `r` is shifted left by `s` bytes and `c` put at its end. -/
def g3413cfb (bs : Nat) (E : Bytes → Bytes) : Bytes → List Bytes → List Bytes
  | _, [] => []
  | r, p :: ps => let c := xorb p (E (r.take bs)); c :: g3413cfb bs E (r.drop c.length ++ c) ps

/-- Value of a big-endian byte string. -/
def beNat (b : Bytes) : Nat := b.foldl (fun a x => a * 256 + x.toNat) 0

/-- `n` bytes big-endian of `v mod 256^n`. -/
def natBe : Nat → Nat → Bytes
  | 0, _ => []
  | n + 1, v => natBe n (v / 256) ++ [BitVec.ofNat 8 v]

/-- GOST R 34.13-2015 CTR: block `j` is the first `s` bytes of `E(IV ‖ 0… + j mod 2^n)`. -/
def g3413ctrBlock (bs s : Nat) (E : Bytes → Bytes) (iv : Bytes) (j : Nat) : Bytes :=
  (E (natBe bs (beNat (iv ++ List.replicate (bs - iv.length) 0) + j))).take s

/-- GOST R 34.13-2015 OFB with a two-block register: the outputs satisfy `y_0 = E(r1)`, `y_1 = E(r2)`,
`y_{j+2} = E(y_j)`. -/
def g3413ofbBlock (E : Bytes → Bytes) (r1 r2 : Bytes) : Nat → Bytes
  | 0 => E r1
  | 1 => E r2
  | j + 2 => E (g3413ofbBlock E r1 r2 j)

end Verif.Mode.Spec
namespace Verif.Mode.Spec

/-- CFB with key meshing (RFC 4357, 2.3.2): the data is processed in sections of 1024 bytes; each section is
CFB-encrypted under the current key and IV, and then the key becomes `nextKey k` and the IV `nextIv k' iv fb`,
where `k'` is the new key, `iv` the IV the section started with and `fb` its last ciphertext block. -/
def meshCfb (enc : Bytes → Bytes → Bytes) (bs : Nat) (nextKey : Bytes → Bytes)
    (nextIv : Bytes → Bytes → Bytes → Bytes) : Bytes → Bytes → List Bytes → List Bytes
  | _, _, [] => []
  | k, iv, s :: ss =>
    let ct := cfb (enc k) iv (chunks bs s)
    let k' := nextKey k
    ct.flatten :: meshCfb enc bs nextKey nextIv k' (nextIv k' iv (ct.getLastD iv)) ss

/-- Key meshing of RFC 4357: `K' = decryptECB(K, C)`, `IV' = encryptECB(K', last ciphertext block)`. -/
def rfc4357Cfb (enc dec : Bytes → Bytes → Bytes) (C : Bytes) (k iv x : Bytes) : Bytes :=
  (meshCfb enc 8 (fun k => ((chunks 8 C).map (dec k)).flatten) (fun k' _ fb => enc k' fb) k iv
    (chunks 1024 x)).flatten

end Verif.Mode.Spec
namespace Verif.Mode.Spec

/-- CFB decryption: `p_1 = c_1 ⊕ E(IV)`, `p_i = c_i ⊕ E(c_{i-1})`. -/
def cfbDec (E : Bytes → Bytes) : Bytes → List Bytes → List Bytes
  | _, [] => []
  | v, ct :: cs => xorb ct (E v) :: cfbDec E ct cs

/-- GOST 28147-89 counter mode: `N3` after `j` steps, addition modulo `2^32`. -/
def gostN3 (n3 j : Nat) : Nat := (n3 + j * 0x01010101) % 2 ^ 32

/-- GOST 28147-89 counter mode: one step of `N4`, addition modulo `2^32 - 1` (end-around carry). -/
def gostN4Next (n : Nat) : Nat := if n + 0x01010104 < 2 ^ 32 then n + 0x01010104 else n + 0x01010104 - (2 ^ 32 - 1)

/-- `N4` after `j` steps. -/
def gostN4 (n4 j : Nat) : Nat := iter gostN4Next j n4

end Verif.Mode.Spec
