import Verif.Mac.Spec
import Verif.Aead.Base
/-
SIV (RFC 5297) over a pseudorandom function `mac` with 16-byte values (AES-CMAC there) and a block cipher `E` with
16-byte blocks.
-/
namespace Verif.Aead.Spec
open Verif.Mac.Spec (zero pad2)

/-- RFC 5297, section 2.4: the running value after the associated data items. -/
def s2vItems (mac : Bytes → Bytes) (items : List Bytes) : Bytes :=
  items.foldl (fun d v => xorb (Mac.Spec.dbl 16 0x87 d) (mac v)) (mac (zero 16))

/-- RFC 5297, section 2.4: `S2V(items…, sn)`. -/
def s2v (mac : Bytes → Bytes) (items : List Bytes) (sn : Bytes) : Bytes :=
  let d := s2vItems mac items
  if 16 ≤ sn.length then mac (Mac.Spec.xorEnd 16 sn d)
  else mac (xorb (Mac.Spec.dbl 16 0x87 d) (pad2 16 sn))

/-- RFC 5297, section 2.5: 1^64 0 1^31 0 1^31. -/
def sivMask : Bytes :=
  [0xff, 0xff, 0xff, 0xff, 0xff, 0xff, 0xff, 0xff, 0x7f, 0xff, 0xff, 0xff, 0x7f, 0xff, 0xff, 0xff]

/-- RFC 5297, section 2.6: the initial counter `V bitand mask`. -/
def sivQ (V : Bytes) : Bytes := List.zipWith (· &&& ·) V sivMask

/-- RFC 5297, section 2.6: SIV-ENCRYPT. -/
def siv (mac E : Bytes → Bytes) (items : List Bytes) (P : Bytes) : Bytes :=
  let V := s2v mac items P
  V ++ xorb P (ctrKs E 16 (sivQ V) P.length)

end Verif.Aead.Spec
