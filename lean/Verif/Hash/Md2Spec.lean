import Verif.Hash.Md2
/-
MD2 as RFC 1319 describes it: pad, compute the checksum of the padded message, append it, then process the result.
The substitution table is the only thing shared with the model.
-/
namespace Verif.Hash.Md2.Spec

/-- RFC 1319, 3.1: `k` bytes of value `k` with `k` from 1 to 16, up to a multiple of 16 bytes. -/
def pad (M : Bytes) : Bytes := M ++ List.replicate (16 - M.length % 16) (BitVec.ofNat 8 (16 - M.length % 16))

/-- RFC 1319, 3.2, one block: every checksum byte is XORed with `S[message byte xor previous new checksum byte]`. -/
def checkRow : Byte → Bytes → Bytes → Bytes
  | l, c :: cs, m :: ms => let v := c ^^^ sb (m ^^^ l); v :: checkRow v cs ms
  | _, cs, _ => cs

/-- RFC 1319, 3.2: the block-to-block step starts from the last checksum byte. -/
def checkBlock (c : Bytes) (b : Bytes) : Bytes := checkRow (c.getLastD 0) c b

/-- RFC 1319, 3.2: the checksum of a padded message. -/
def checksum (M : Bytes) : Bytes := (fullBlocks 16 M).foldl checkBlock (List.replicate 16 0)

/-- RFC 1319, 3.4: `t = X[k] ^ S[t]` along the 48 bytes; returns the last `t` too. -/
def row : Byte → Bytes → Byte × Bytes
  | t, [] => (t, [])
  | t, x :: xs => let v := x ^^^ sb t; let r := row v xs; (r.1, v :: r.2)

/-- RFC 1319, 3.4: rounds `i, i+1, …`, adding the round number to `t`. -/
def rounds : Nat → Nat → Byte → Bytes → Bytes
  | 0, _, _, X => X
  | n + 1, i, t, X => rounds n (i + 1) ((row t X).1 + BitVec.ofNat 8 i) (row t X).2

/-- RFC 1319, 3.4, one block: `X = state || block || state xor block`, 18 rounds; the state is the first 16 bytes. -/
def compress (h : Bytes) (b : Bytes) : Bytes := (rounds 18 0 0 (h ++ b ++ xorb h b)).take 16

/-- The MD2 digest. -/
def md2 (M : Bytes) : Bytes := (fullBlocks 16 (pad M ++ checksum (pad M))).foldl compress (List.replicate 16 0)

end Verif.Hash.Md2.Spec
