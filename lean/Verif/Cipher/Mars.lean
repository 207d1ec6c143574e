import Verif.Cipher.Common2
/-
Model of cipher/mars (mars.go, utils.go, sbox.go): MARS.
-/
namespace Verif.Cipher.Mars
set_option maxRecDepth 100000

abbrev W := BitVec 32
/-- cipher/mars/mars.go:162-165 the variables `a`, `b`, `c`, `d`. -/
abbrev St := W × W × W × W

/-- cipher/mars/sbox.go:4-6 `btab` -/
def btab : List W := [0xA4A8D57B, 0x5B5D193B, 0xC8A8309B, 0x73F9A978]

/-- cipher/mars/sbox.go:9-74 `sbox` -/
def sbox : List W := [
  0x09D0C479, 0x28C8FFE0, 0x84AA6C39, 0x9DAD7287, 0x7DFF9BE3, 0xD4268361, 0xC96DA1D4, 0x7974CC93,
  0x85D0582E, 0x2A4B5705, 0x1CA16A62, 0xC3BD279D, 0x0F1F25E5, 0x5160372F, 0xC695C1FB, 0x4D7FF1E4,
  0xAE5F6BF4, 0x0D72EE46, 0xFF23DE8A, 0xB1CF8E83, 0xF14902E2, 0x3E981E42, 0x8BF53EB6, 0x7F4BF8AC,
  0x83631F83, 0x25970205, 0x76AFE784, 0x3A7931D4, 0x4F846450, 0x5C64C3F6, 0x210A5F18, 0xC6986A26,
  0x28F4E826, 0x3A60A81C, 0xD340A664, 0x7EA820C4, 0x526687C5, 0x7EDDD12B, 0x32A11D1D, 0x9C9EF086,
  0x80F6E831, 0xAB6F04AD, 0x56FB9B53, 0x8B2E095C, 0xB68556AE, 0xD2250B0D, 0x294A7721, 0xE21FB253,
  0xAE136749, 0xE82AAE86, 0x93365104, 0x99404A66, 0x78A784DC, 0xB69BA84B, 0x04046793, 0x23DB5C1E,
  0x46CAE1D6, 0x2FE28134, 0x5A223942, 0x1863CD5B, 0xC190C6E3, 0x07DFB846, 0x6EB88816, 0x2D0DCC4A,
  0xA4CCAE59, 0x3798670D, 0xCBFA9493, 0x4F481D45, 0xEAFC8CA8, 0xDB1129D6, 0xB0449E20, 0x0F5407FB,
  0x6167D9A8, 0xD1F45763, 0x4DAA96C3, 0x3BEC5958, 0xABABA014, 0xB6CCD201, 0x38D6279F, 0x02682215,
  0x8F376CD5, 0x092C237E, 0xBFC56593, 0x32889D2C, 0x854B3E95, 0x05BB9B43, 0x7DCD5DCD, 0xA02E926C,
  0xFAE527E5, 0x36A1C330, 0x3412E1AE, 0xF257F462, 0x3C4F1D71, 0x30A2E809, 0x68E5F551, 0x9C61BA44,
  0x5DED0AB8, 0x75CE09C8, 0x9654F93E, 0x698C0CCA, 0x243CB3E4, 0x2B062B97, 0x0F3B8D9E, 0x00E050DF,
  0xFC5D6166, 0xE35F9288, 0xC079550D, 0x0591AEE8, 0x8E531E74, 0x75FE3578, 0x2F6D829A, 0xF60B21AE,
  0x95E8EB8D, 0x6699486B, 0x901D7D9B, 0xFD6D6E31, 0x1090ACEF, 0xE0670DD8, 0xDAB2E692, 0xCD6D4365,
  0xE5393514, 0x3AF345F0, 0x6241FC4D, 0x460DA3A3, 0x7BCF3729, 0x8BF1D1E0, 0x14AAC070, 0x1587ED55,
  0x3AFD7D3E, 0xD2F29E01, 0x29A9D1F6, 0xEFB10C53, 0xCF3B870F, 0xB414935C, 0x664465ED, 0x024ACAC7,
  0x59A744C1, 0x1D2936A7, 0xDC580AA6, 0xCF574CA8, 0x040A7A10, 0x6CD81807, 0x8A98BE4C, 0xACCEA063,
  0xC33E92B5, 0xD1E0E03D, 0xB322517E, 0x2092BD13, 0x386B2C4A, 0x52E8DD58, 0x58656DFB, 0x50820371,
  0x41811896, 0xE337EF7E, 0xD39FB119, 0xC97F0DF6, 0x68FEA01B, 0xA150A6E5, 0x55258962, 0xEB6FF41B,
  0xD7C9CD7A, 0xA619CD9E, 0xBCF09576, 0x2672C073, 0xF003FB3C, 0x4AB7A50B, 0x1484126A, 0x487BA9B1,
  0xA64FC9C6, 0xF6957D49, 0x38B06A75, 0xDD805FCD, 0x63D094CF, 0xF51C999E, 0x1AA4D343, 0xB8495294,
  0xCE9F8E99, 0xBFFCD770, 0xC7C275CC, 0x378453A7, 0x7B21BE33, 0x397F41BD, 0x4E94D131, 0x92CC1F98,
  0x5915EA51, 0x99F861B7, 0xC9980A88, 0x1D74FD5F, 0xB0A495F8, 0x614DEED0, 0xB5778EEA, 0x5941792D,
  0xFA90C1F8, 0x33F824B4, 0xC4965372, 0x3FF6D550, 0x4CA5FEC0, 0x8630E964, 0x5B3FBBD6, 0x7DA26A48,
  0xB203231A, 0x04297514, 0x2D639306, 0x2EB13149, 0x16A45272, 0x532459A0, 0x8E5F4872, 0xF966C7D9,
  0x07128DC0, 0x0D44DB62, 0xAFC8D52D, 0x06316131, 0xD838E7CE, 0x1BC41D00, 0x3A2E8C0F, 0xEA83837E,
  0xB984737D, 0x13BA4891, 0xC4F8B949, 0xA6D6ACB3, 0xA215CDCE, 0x8359838B, 0x6BD1AA31, 0xF579DD52,
  0x21B93F93, 0xF5176781, 0x187DFDDE, 0xE94AEB76, 0x2B38FD54, 0x431DE1DA, 0xAB394825, 0x9AD3048F,
  0xDFEA32AA, 0x659473E3, 0x623F7863, 0xF3346C59, 0xAB3AB685, 0x3346A90B, 0x6B56443E, 0xC6DE01F8,
  0x8D421FC0, 0x9B0ED10C, 0x88F1A1E9, 0x54C1F029, 0x7DEAD57B, 0x8D7BA426, 0x4CF5178A, 0x551A7CCA,
  0x1A9A5F08, 0xFCD651B9, 0x25605182, 0xE11FC6C3, 0xB6FD9676, 0x337B3027, 0xB7C8EB14, 0x9E5FD030,
  0x6B57E354, 0xAD913CF7, 0x7E16688D, 0x58872A69, 0x2C2FC7DF, 0xE389CCC6, 0x30738DF1, 0x0824A734,
  0xE1797A8B, 0xA4A8D57B, 0x5B5D193B, 0xC8A8309B, 0x73F9A978, 0x73398D32, 0x0F59573E, 0xE9DF2B03,
  0xE8A5B6C8, 0x848D0704, 0x98DF93C2, 0x720A1DC3, 0x684F259A, 0x943BA848, 0xA6370152, 0x863B5EA3,
  0xD17B978B, 0x6D9B58EF, 0x0A700DD4, 0xA73D36BF, 0x8E6A0829, 0x8695BC14, 0xE35B3447, 0x933AC568,
  0x8894B022, 0x2F511C27, 0xDDFBCC3C, 0x006662B6, 0x117C83FE, 0x4E12B414, 0xC2BCA766, 0x3A2FEC10,
  0xF4562420, 0x55792E2A, 0x46F5D857, 0xCEDA25CE, 0xC3601D3B, 0x6C00AB46, 0xEFAC9C28, 0xB3C35047,
  0x611DFEE3, 0x257C3207, 0xFDD58482, 0x3B14D84F, 0x23BECB64, 0xA075F3A3, 0x088F8EAD, 0x07ADF158,
  0x7796943C, 0xFACABF3D, 0xC09730CD, 0xF7679969, 0xDA44E9ED, 0x2C854C12, 0x35935FA3, 0x2F057D9F,
  0x690624F8, 0x1CB0BAFD, 0x7B0DBDC6, 0x810F23BB, 0xFA929A1A, 0x6D969A17, 0x6742979B, 0x74AC7D05,
  0x010E65C4, 0x86A3D963, 0xF907B5A0, 0xD0042BD3, 0x158D7D03, 0x287A8255, 0xBBA8366F, 0x096EDC33,
  0x21916A7B, 0x77B56B86, 0x951622F9, 0xA6C5E650, 0x8CEA17D1, 0xCD8C62BC, 0xA3D63433, 0x358A68FD,
  0x0F9B9D3C, 0xD6AA295B, 0xFE33384A, 0xC000738E, 0xCD67EB2F, 0xE2EB6DC2, 0x97338B02, 0x06C9F246,
  0x419CF1AD, 0x2B83C045, 0x3723F18A, 0xCB5B3089, 0x160BEAD7, 0x5D494656, 0x35F8A74B, 0x1E4E6C9E,
  0x000399BD, 0x67466880, 0xB4174831, 0xACF423B2, 0xCA815AB3, 0x5A6395E7, 0x302A67C5, 0x8BDB446B,
  0x108F8FA4, 0x10223EDA, 0x92B8B48B, 0x7F38D0EE, 0xAB2701D4, 0x0262D415, 0xAF224A30, 0xB3D88ABA,
  0xF8B2C3AF, 0xDAF7EF70, 0xCC97D3B7, 0xE9614B6C, 0x2BAEBFF4, 0x70F687CF, 0x386C9156, 0xCE092EE5,
  0x01E87DA6, 0x6CE91E6A, 0xBB7BCC84, 0xC7922C20, 0x9D3B71FD, 0x060E41C6, 0xD7590F15, 0x4E03BB47,
  0x183C198E, 0x63EEB240, 0x2DDBF49A, 0x6D5CBA54, 0x923750AF, 0xF9E14236, 0x7838162B, 0x59726C72,
  0x81B66760, 0xBB2926C1, 0x48A0CE0D, 0xA6C0496D, 0xAD43507B, 0x718D496A, 0x9DF057AF, 0x44B1BDE6,
  0x054356DC, 0xDE7CED35, 0xD51A138B, 0x62088CC9, 0x35830311, 0xC96EFCA2, 0x686F86EC, 0x8E77CB68,
  0x63E1D6B8, 0xC80F9778, 0x79C491FD, 0x1B4C67F2, 0x72698D7D, 0x5E368C31, 0xF7D95E2E, 0xA1D3493F,
  0xDCD9433E, 0x896F1552, 0x4BC4CA7A, 0xA6D1BAF4, 0xA5A96DCC, 0x0BEF8B46, 0xA169FDA7, 0x74DF40B7,
  0x4E208804, 0x9A756607, 0x038E87C8, 0x20211E44, 0x8B7AD4BF, 0xC6403F35, 0x1848E36D, 0x80BDB038,
  0x1E62891C, 0x643D2107, 0xBF04D6F8, 0x21092C8C, 0xF644F389, 0x0778404E, 0x7B78ADB8, 0xA2C52D53,
  0x42157ABE, 0xA2253E2E, 0x7BF3F4AE, 0x80F594F9, 0x953194E7, 0x77EB92ED, 0xB3816930, 0xDA8D9336,
  0xBF447469, 0xF26D9483, 0xEE6FAED5, 0x71371235, 0xDE425F73, 0xB4E59F43, 0x7DBE2D4E, 0x2D37B185,
  0x49DC9A63, 0x98C39D98, 0x1301C9A2, 0x389B1BBF, 0x0C18588D, 0xA421C1BA, 0x7AA3865C, 0x71E08558,
  0x3C5CFCAA, 0x7D239CA4, 0x0297D9DD, 0xD7DC2830, 0x4B37802B, 0x7428AB54, 0xAEEE0347, 0x4B3FBB85,
  0x692F2F08, 0x134E578E, 0x36D9E0BF, 0xAE8B5FCF, 0xEDB93ECF, 0x2B27248E, 0x170EB1EF, 0x7DC57FD6,
  0x1E760F16, 0xB1136601, 0x864E1B9B, 0xD7EA7319, 0x3AB871BD, 0xCFA4D76F, 0xE31BD782, 0x0DBEB469,
  0xABB96061, 0x5370F85D, 0xFFB07E37, 0xDA30D0FB, 0xEBC977B6, 0x0B98B40F, 0x3A4D0FE6, 0xDF4FC26B,
  0x159CF22A, 0xC298D6E2, 0x2B78EF6A, 0x61A94AC0, 0xAB561187, 0x14EEA0F0, 0xDF0D4164, 0x19AF70EE]

/-- cipher/mars/utils.go:57-59 `ROL32` -/
def rol (x : W) (n : Nat) : W := rotl x n
/-- cipher/mars/utils.go:61-63 `ROR32`; called with `n` at most 32 only. -/
def ror (x : W) (n : Nat) : W := rol x (32 - n)
/-- cipher/mars/utils.go:66-68 `S` -/
def S (n : W) : W := sbox.getD (n &&& 0x1FF).toNat 0
/-- cipher/mars/utils.go:71-73 `S0` -/
def S0 (n : W) : W := sbox.getD (n &&& 0xFF).toNat 0
/-- cipher/mars/utils.go:76-78 `S1` -/
def S1 (n : W) : W := sbox.getD ((n &&& 0xFF) + 256).toNat 0

/-- cipher/mars/utils.go:80-93 `F_MIX`: the new values of the four variables. -/
def fMix : St → St
  | (a, b, c, d) =>
    let b := b ^^^ S0 a
    let t := ror a 8
    let b := b + S1 t
    let t := ror a 16
    let c := c + S0 t
    let a := ror a 24
    let d := d ^^^ S1 a
    (a, b, c, d)

/-- cipher/mars/utils.go:96-109 `B_MIX` -/
def bMix : St → St
  | (a, b, c, d) =>
    let b := b ^^^ S1 a
    let t := rol a 8
    let c := c - S0 t
    let t := rol a 16
    let d := d - S1 t
    let a := rol a 24
    let d := d ^^^ S0 a
    (a, b, c, d)

/-- cipher/mars/utils.go:112-132 `CORE` -/
def core (k1 k2 : W) : St → St
  | (a, b, c, d) =>
    let m := a + k1
    let a := rol a 13
    let r := a * k2
    let r := rol r 5
    let c := c + rol m (r &&& 0x1F).toNat
    let l := S m ^^^ r
    let r := rol r 5
    let l := l ^^^ r
    let d := d ^^^ r
    let b := b + rol l (r &&& 0x1F).toNat
    (a, b, c, d)

/-- cipher/mars/utils.go:135-155 `CORE_INV` -/
def coreInv (k1 k2 : W) : St → St
  | (a, b, c, d) =>
    let r := a * k2
    let a := ror a 13
    let m := a + k1
    let r := rol r 5
    let c := c - rol m (r &&& 0x1F).toNat
    let l := S m ^^^ r
    let r := rol r 5
    let l := l ^^^ r
    let d := d ^^^ r
    let b := b - rol l (r &&& 0x1F).toNat
    (a, b, c, d)

/-- cipher/mars/utils.go:158-171 `MASK_GEN` -/
def maskGen (w : W) : W :=
  let m := ~~~w ^^^ (w >>> 1)
  let m := m &&& 0x7FFFFFFF
  let m := m &&& ((m >>> 1) &&& (m >>> 2))
  let m := m &&& ((m >>> 3) &&& (m >>> 6))
  if m ≠ 0 then
    let m := m <<< 1
    let m := m ||| (m <<< 1)
    let m := m ||| (m <<< 2)
    let m := m ||| (m <<< 4)
    m &&& 0xFFFFFFFC
  else m

/-! The orders in which the four variables are passed to those functions. `F_MIX(&b, &c, &d, &a)` works on the variables in that order, and puts them back. -/
/-- cipher/mars/mars.go:180, 186, 194, 198, 212, 218 (and the corresponding calls of the other method) -/
def onABCD (f : St → St) (s : St) : St := f s
/-- cipher/mars/mars.go:182, 188, 195, 199, 213, 219 (and the corresponding calls of the other method) -/
def onBCDA (f : St → St) : St → St | (a, b, c, d) => let (b, c, d, a) := f (b, c, d, a); (a, b, c, d)
/-- cipher/mars/mars.go:184, 190, 196, 200, 215, 221 (and the corresponding calls of the other method) -/
def onCDAB (f : St → St) : St → St | (a, b, c, d) => let (c, d, a, b) := f (c, d, a, b); (a, b, c, d)
/-- cipher/mars/mars.go:185, 191, 197, 201, 217, 223 (and the corresponding calls of the other method) -/
def onDABC (f : St → St) : St → St | (a, b, c, d) => let (d, a, b, c) := f (d, a, b, c); (a, b, c, d)
/-- cipher/mars/mars.go:202, 206, 267, 273, 279, 283 (and the corresponding calls of the other method) -/
def onADCB (f : St → St) : St → St | (a, b, c, d) => let (a, d, c, b) := f (a, d, c, b); (a, b, c, d)
/-- cipher/mars/mars.go:203, 207, 266, 272, 278, 282 (and the corresponding calls of the other method) -/
def onBADC (f : St → St) : St → St | (a, b, c, d) => let (b, a, d, c) := f (b, a, d, c); (a, b, c, d)
/-- cipher/mars/mars.go:204, 208, 264, 270, 277, 281 (and the corresponding calls of the other method) -/
def onCBAD (f : St → St) : St → St | (a, b, c, d) => let (c, b, a, d) := f (c, b, a, d); (a, b, c, d)
/-- cipher/mars/mars.go:205, 209, 262, 268, 276, 280 (and the corresponding calls of the other method) -/
def onDCBA (f : St → St) : St → St | (a, b, c, d) => let (d, c, b, a) := f (d, c, b, a); (a, b, c, d)

/-- cipher/mars/mars.go:19 `this.key[i]`; always called with `i` below 40. -/
def k (K : List W) (i : Nat) : W := K.getD i 0

/-- cipher/mars/mars.go:161-229 the statements of `encryptBlock` between loading and storing the words, in order. -/
def encSteps (K : List W) : List (St → St) := [
  fun (a, b, c, d) => (a + k K 0, b + k K 1, c + k K 2, d + k K 3),
  onABCD fMix, fun (a, b, c, d) => (a + d, b, c, d),
  onBCDA fMix, fun (a, b, c, d) => (a, b + c, c, d),
  onCDAB fMix, onDABC fMix,
  onABCD fMix, fun (a, b, c, d) => (a + d, b, c, d),
  onBCDA fMix, fun (a, b, c, d) => (a, b + c, c, d),
  onCDAB fMix, onDABC fMix,
  onABCD (core (k K 4) (k K 5)), onBCDA (core (k K 6) (k K 7)), onCDAB (core (k K 8) (k K 9)), onDABC (core (k K 10) (k K 11)),
  onABCD (core (k K 12) (k K 13)), onBCDA (core (k K 14) (k K 15)), onCDAB (core (k K 16) (k K 17)), onDABC (core (k K 18) (k K 19)),
  onADCB (core (k K 20) (k K 21)), onBADC (core (k K 22) (k K 23)), onCBAD (core (k K 24) (k K 25)), onDCBA (core (k K 26) (k K 27)),
  onADCB (core (k K 28) (k K 29)), onBADC (core (k K 30) (k K 31)), onCBAD (core (k K 32) (k K 33)), onDCBA (core (k K 34) (k K 35)),
  onABCD bMix, onBCDA bMix, fun (a, b, c, d) => (a, b, c - b, d),
  onCDAB bMix, fun (a, b, c, d) => (a, b, c, d - a), onDABC bMix,
  onABCD bMix, onBCDA bMix, fun (a, b, c, d) => (a, b, c - b, d),
  onCDAB bMix, fun (a, b, c, d) => (a, b, c, d - a), onDABC bMix,
  fun (a, b, c, d) => (a - k K 36, b - k K 37, c - k K 38, d - k K 39)]

/-- cipher/mars/mars.go:243-311 the statements of `decryptBlock` between loading and storing the words, in order. -/
def decSteps (K : List W) : List (St → St) := [
  fun (a, b, c, d) => (a + k K 36, b + k K 37, c + k K 38, d + k K 39),
  onDCBA fMix, fun (a, b, c, d) => (a, b, c, d + a),
  onCBAD fMix, fun (a, b, c, d) => (a, b, c + b, d),
  onBADC fMix, onADCB fMix,
  onDCBA fMix, fun (a, b, c, d) => (a, b, c, d + a),
  onCBAD fMix, fun (a, b, c, d) => (a, b, c + b, d),
  onBADC fMix, onADCB fMix,
  onDCBA (coreInv (k K 34) (k K 35)), onCBAD (coreInv (k K 32) (k K 33)), onBADC (coreInv (k K 30) (k K 31)), onADCB (coreInv (k K 28) (k K 29)),
  onDCBA (coreInv (k K 26) (k K 27)), onCBAD (coreInv (k K 24) (k K 25)), onBADC (coreInv (k K 22) (k K 23)), onADCB (coreInv (k K 20) (k K 21)),
  onDABC (coreInv (k K 18) (k K 19)), onCDAB (coreInv (k K 16) (k K 17)), onBCDA (coreInv (k K 14) (k K 15)), onABCD (coreInv (k K 12) (k K 13)),
  onDABC (coreInv (k K 10) (k K 11)), onCDAB (coreInv (k K 8) (k K 9)), onBCDA (coreInv (k K 6) (k K 7)), onABCD (coreInv (k K 4) (k K 5)),
  onDCBA bMix, onCBAD bMix, fun (a, b, c, d) => (a, b - c, c, d),
  onBADC bMix, fun (a, b, c, d) => (a - d, b, c, d), onADCB bMix,
  onDCBA bMix, onCBAD bMix, fun (a, b, c, d) => (a, b - c, c, d),
  onBADC bMix, fun (a, b, c, d) => (a - d, b, c, d), onADCB bMix,
  fun (a, b, c, d) => (a - k K 0, b - k K 1, c - k K 2, d - k K 3)]

/-- cipher/mars/mars.go:173-229, 255-311: one statement after the other. -/
def run (l : List (St → St)) (s : St) : St := l.foldl (fun s f => f s) s

/-- cipher/mars/mars.go:109-119: the linear expansion, with `t`, `t1`, `t2`. -/
def linear (j : Nat) (t : List W) : List W :=
  ((List.range 15).foldl (fun (x : List W × W × W) i =>
    let (t, t1, t2) := x
    let t1 := t1 ^^^ t.getD ((i + 8) % 15) 0
    let v := t.getD i 0 ^^^ (rol t1 3 ^^^ BitVec.ofNat 32 (4 * i + j))
    (t.set i v, t2, v)) (t, t.getD 13 0, t.getD 14 0)).1

/-- cipher/mars/mars.go:123-131: one round of stirring, with `t`, `t1`. -/
def stir (t : List W) : List W :=
  ((List.range 15).foldl (fun (x : List W × W) i =>
    let (t, t1) := x
    let t1 := t.getD i 0 + S t1
    let v := rol t1 9
    (t.set i v, v)) (t, t.getD 14 0)).1

/-- cipher/mars/mars.go:108-132: one turn of the loop on `t`. -/
def turn (j : Nat) (t : List W) : List W := stir (stir (stir (stir (linear j t))))

/-- cipher/mars/mars.go:135-137: the ten words stored by one turn. -/
def take10 (t : List W) : List W := (List.range 10).map fun i => t.getD (4 * i % 15) 0

/-- cipher/mars/mars.go:142-157: the new value of `this.key[i]`. -/
def fix (prev w0 : W) : W :=
  let w := w0 ||| 3
  let p := rol (btab.getD (w0 &&& 3).toNat 0) (prev &&& 0x1F).toNat
  w ^^^ (p &&& maskGen w)

/-- cipher/mars/mars.go:73-159 `expandKey` -/
def expandKey (key : Bytes) : List W :=
  let n := key.length / 4
  let t := ldLE 32 4 n key ++ BitVec.ofNat 32 n :: List.replicate (14 - n) 0
  let t0 := turn 0 t
  let t1 := turn 1 t0
  let t2 := turn 2 t1
  let t3 := turn 3 t2
  let K := take10 t0 ++ take10 t1 ++ take10 t2 ++ take10 t3
  (List.range 16).foldl (fun K i => K.set (2 * i + 5) (fix (k K (2 * i + 4)) (k K (2 * i + 5)))) K

/-- cipher/mars/mars.go:41-55, 161-241 -/
def encB (key : Bytes) : Bytes → Bytes := enc4LE 32 4 (run (encSteps (expandKey key)))
/-- cipher/mars/mars.go:57-71, 243-323 -/
def decB (key : Bytes) : Bytes → Bytes := enc4LE 32 4 (run (decSteps (expandKey key)))

/-- cipher/mars/mars.go:23-35 `NewCipher` -/
def newCipher (key : Bytes) : Res Obj :=
  if key.length ≥ 16 ∧ key.length ≤ 56 ∧ key.length % 4 = 0 then .ok ⟨16, guarded 16 (whole 16 (encB key)), guarded 16 (whole 16 (decB key))⟩ else .err

end Verif.Cipher.Mars
