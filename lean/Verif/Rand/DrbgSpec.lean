import Verif.Kdf.Common
import Verif.Pub.Big
/-
NIST SP 800-90A Rev. 1: the three deterministic random bit generators, with byte strings for bit strings.  `H` is any hash
function, `E` any family of block ciphers with blocks of `bs` bytes.
-/
namespace Verif.Rand.Spec
open Verif.Pub Verif.Cipher Verif.Kdf

/-- `(a + n) mod 2^len` on a byte string of `len` bytes. -/
def addMod (len : Nat) (a : Bytes) (n : Nat) : Bytes := hx len ((setBytes a + n) % 256 ^ len)

/-- Limits of table 2 and 3: a request must hold some entropy; the reseed interval is 2^48. -/
def interval : Nat := 2 ^ 48

/-! ### 10.1.1 Hash_DRBG -/

/-- 10.3.1 `Hash_df`. -/
def hashDf (H : HashFn) (inp : Bytes) (n : Nat) : Bytes :=
  outBytes (fun i => H.f (hx 1 (i + 1) ++ hx 4 (8 * n) ++ inp)) H.size n

/-- Table 2: `seedlen` in bytes. -/
def seedlen (H : HashFn) : Nat := if H.size ≤ 32 then 55 else 111

structure HashSt where
  V : Bytes
  C : Bytes
  ctr : Nat

/-- Steps 2 to 6 of 10.1.1.2 and 10.1.1.3: the state made from a seed material. -/
def hashSeed (H : HashFn) (material : Bytes) : HashSt :=
  let V := hashDf H material (seedlen H)
  { V := V, C := hashDf H (0#8 :: V) (seedlen H), ctr := 1 }

def hashInstantiate (H : HashFn) (entropy nonce pers : Bytes) : HashSt := hashSeed H (entropy ++ nonce ++ pers)

def hashReseed (H : HashFn) (s : HashSt) (entropy additional : Bytes) : HashSt :=
  hashSeed H (1#8 :: s.V ++ entropy ++ additional)

/-- 10.1.1.4 `Hashgen`. -/
def hashgen (H : HashFn) (V : Bytes) (n : Nat) : Bytes :=
  outBytes (fun i => H.f (addMod (seedlen H) V i)) H.size n

/-- 10.1.1.4 step 2. -/
def hashAdd (H : HashFn) (V additional : Bytes) : Bytes :=
  if additional = [] then V else addMod (seedlen H) V (setBytes (H.f (2#8 :: V ++ additional)))

/-- 10.1.1.4 steps 4 to 6, from the `V` of step 2. -/
def hashNext (H : HashFn) (s : HashSt) (V : Bytes) : HashSt :=
  { s with V := addMod (seedlen H) V (setBytes (H.f (3#8 :: V)) + setBytes s.C + s.ctr), ctr := s.ctr + 1 }

/-- 10.1.1.4: `none` when a reseed is required. -/
def hashGenerate (H : HashFn) (s : HashSt) (n : Nat) (additional : Bytes) : Option (HashSt × Bytes) :=
  if s.ctr > interval then none
  else
    let V := hashAdd H s.V additional
    some (hashNext H s V, hashgen H V n)

/-! GM/T 0105 (the variant `NewGMHash`): the reseed material is `1 ‖ entropy ‖ V ‖ additional`, and one request returns at
most one digest. -/

def gmReseed (H : HashFn) (s : HashSt) (entropy additional : Bytes) : HashSt :=
  hashSeed H (1#8 :: entropy ++ s.V ++ additional)

def gmGenerate (H : HashFn) (s : HashSt) (n : Nat) (additional : Bytes) : Option (HashSt × Bytes) :=
  if s.ctr > interval ∨ H.size < n then none
  else
    let V := hashAdd H s.V additional
    some (hashNext H s V, (H.f V).take n)

/-! ### 10.1.2 HMAC_DRBG -/

structure KV where
  K : Bytes
  V : Bytes
  ctr : Nat

/-- 10.1.2.2 `HMAC_DRBG_Update`. -/
def hmacUpdate (H : HashFn) (data K V : Bytes) : Bytes × Bytes :=
  let K := hmac H K (V ++ 0#8 :: data)
  let V := hmac H K V
  if data = [] then (K, V)
  else
    let K := hmac H K (V ++ 1#8 :: data)
    (K, hmac H K V)

def hmacInstantiate (H : HashFn) (entropy nonce pers : Bytes) : KV :=
  let (K, V) := hmacUpdate H (entropy ++ nonce ++ pers) (List.replicate H.size 0#8) (List.replicate H.size 1#8)
  { K := K, V := V, ctr := 1 }

def hmacReseed (H : HashFn) (s : KV) (entropy additional : Bytes) : KV :=
  let (K, V) := hmacUpdate H (entropy ++ additional) s.K s.V
  { K := K, V := V, ctr := 1 }

/-- `V` after `i` applications of `HMAC(K, ·)`. -/
def hmacIter (H : HashFn) (K V : Bytes) : Nat → Bytes
  | 0 => V
  | i + 1 => hmac H K (hmacIter H K V i)

/-- 10.1.2.5. -/
def hmacGenerate (H : HashFn) (s : KV) (n : Nat) (additional : Bytes) : Option (KV × Bytes) :=
  if s.ctr > interval then none
  else
    let (K, V) := if additional = [] then (s.K, s.V) else hmacUpdate H additional s.K s.V
    let blocks := (n + H.size - 1) / H.size
    let out := outBytes (fun i => hmacIter H K V (i + 1)) H.size n
    let (K', V') := hmacUpdate H additional K (hmacIter H K V blocks)
    some ({ K := K', V := V', ctr := s.ctr + 1 }, out)

/-! ### 10.2.1 CTR_DRBG with a derivation function -/

/-- A block cipher family: keys of `klen` bytes, blocks of `bs` bytes. -/
structure Fam where
  klen : Nat
  bs : Nat
  E : Bytes → Bytes → Bytes
  bs_pos : 4 ≤ bs
  lenE : ∀ k b, b.length = bs → (E k b).length = bs

def Fam.seedlen (F : Fam) : Nat := F.klen + F.bs

/-- 10.3.3 `BCC` on whole blocks: the chaining value `c` before the blocks of `data`. -/
def bcc (F : Fam) (key : Bytes) : Nat → Bytes → Bytes → Bytes
  | 0, c, _ => c
  | n + 1, c, data => bcc F key n (F.E key (xorb c (data.take F.bs))) (data.drop F.bs)

/-- 10.3.2 step 2 to 4: `L ‖ N ‖ input ‖ 0x80` and zeros up to a multiple of the block length (none if it is one). -/
def dfString (F : Fam) (input : Bytes) (n : Nat) : Bytes :=
  let S := hx 4 input.length ++ hx 4 n ++ input ++ [0x80#8]
  S ++ List.replicate ((F.bs - S.length % F.bs) % F.bs) 0#8

/-- 10.3.2: the key `00 01 02 …`. -/
def dfKey (F : Fam) : Bytes := (List.range F.klen).map (BitVec.ofNat 8)

/-- Steps 5 to 15 of 10.3.2, for the padded string `S`. -/
def dfTail (F : Fam) (S : Bytes) (n : Nat) : Bytes :=
  let T (i : Nat) : Bytes :=
    let d := hx 4 i ++ List.replicate (F.bs - 4) 0#8 ++ S
    bcc F (dfKey F) (d.length / F.bs) (List.replicate F.bs 0#8) d
  let temp := outBytes T F.bs (F.klen + F.bs)
  let K := temp.take F.klen
  let X := temp.drop F.klen
  outBytes (fun i => (F.E K)^[i + 1] X) F.bs n

/-- 10.3.2 `Block_Cipher_df`. -/
def blockDf (F : Fam) (input : Bytes) (n : Nat) : Bytes := dfTail F (dfString F input n) n

/-- 10.2.1.2 `CTR_DRBG_Update`. -/
def ctrUpdate (F : Fam) (data K V : Bytes) : Bytes × Bytes :=
  let temp := xorb (outBytes (fun i => F.E K (addMod F.bs V (i + 1))) F.bs F.seedlen) data
  (temp.take F.klen, temp.drop F.klen)

/-- 10.2.1.3.2, 10.2.1.4.2 and 10.2.1.5.2 with the derivation function `df` (`blockDf`). -/
def ctrInstantiate (F : Fam) (df : Bytes → Bytes) (entropy nonce pers : Bytes) : KV :=
  let (K, V) := ctrUpdate F (df (entropy ++ nonce ++ pers)) (List.replicate F.klen 0#8) (List.replicate F.bs 0#8)
  { K := K, V := V, ctr := 1 }

def ctrReseed (F : Fam) (df : Bytes → Bytes) (s : KV) (entropy additional : Bytes) : KV :=
  let (K, V) := ctrUpdate F (df (entropy ++ additional)) s.K s.V
  { K := K, V := V, ctr := 1 }

def ctrGenerate (F : Fam) (df : Bytes → Bytes) (s : KV) (n : Nat) (additional : Bytes) : Option (KV × Bytes) :=
  if s.ctr > interval then none
  else
    let data := if additional = [] then List.replicate F.seedlen 0#8 else df additional
    let (K, V) := if additional = [] then (s.K, s.V) else ctrUpdate F data s.K s.V
    let blocks := (n + F.bs - 1) / F.bs
    let out := outBytes (fun i => F.E K (addMod F.bs V (i + 1))) F.bs n
    let (K', V') := ctrUpdate F data K (addMod F.bs V blocks)
    some ({ K := K', V := V', ctr := s.ctr + 1 }, out)

end Verif.Rand.Spec
