import Verif.Aead.Base
import Verif.Aead.CcmLemmas
import Verif.Aead.CcmModel
import Verif.Aead.CcmProps
import Verif.Aead.CcmSpec
import Verif.Aead.CipherInv
import Verif.Aead.EaxLemmas
import Verif.Aead.EaxModel
import Verif.Aead.EaxProps
import Verif.Aead.EaxSpec
import Verif.Aead.Generic
import Verif.Aead.MgmLemmas
import Verif.Aead.MgmModel
import Verif.Aead.MgmProps
import Verif.Aead.MgmSpec
import Verif.Aead.Ocb3Core
import Verif.Aead.Ocb3Lemmas
import Verif.Aead.Ocb3Model
import Verif.Aead.Ocb3Props
import Verif.Aead.OcbCore
import Verif.Aead.OcbLemmas
import Verif.Aead.OcbModel
import Verif.Aead.OcbProps
import Verif.Aead.OcbSpec
import Verif.Aead.OcbSpecLemmas
import Verif.Aead.SivLemmas
import Verif.Aead.SivModel
import Verif.Aead.SivProps
import Verif.Aead.SivSpec
import Verif.Alg.Gf2
import Verif.Ascon.Ascon
import Verif.Ascon.AsconDuplex
import Verif.Ascon.AsconLemmas
import Verif.Ascon.AsconPerm
import Verif.Ascon.AsconProps
import Verif.Ascon.AsconRefine
import Verif.Ascon.AsconSpec
import Verif.Asn1.Der
import Verif.Bencode.Dec
import Verif.Bencode.Lemmas
import Verif.Bencode.Lemmas2
import Verif.Bencode.Lemmas3
import Verif.Bencode.Model
import Verif.Bencode.Props
import Verif.Bencode.Spec
import Verif.Ber.Lemmas
import Verif.Ber.Model
import Verif.Ber.Props
import Verif.Ber.Spec
import Verif.Cipher.Aria
import Verif.Cipher.Belt
import Verif.Cipher.BeltProps
import Verif.Cipher.Camellia
import Verif.Cipher.Cascade
import Verif.Cipher.Cast
import Verif.Cipher.Cast256
import Verif.Cipher.CastEq
import Verif.Cipher.CastTables
import Verif.Cipher.Clefia
import Verif.Cipher.Common
import Verif.Cipher.Common2
import Verif.Cipher.E2
import Verif.Cipher.E2Props
import Verif.Cipher.Gost
import Verif.Cipher.Hight
import Verif.Cipher.Idea
import Verif.Cipher.Kasumi
import Verif.Cipher.Kseed
import Verif.Cipher.Lea
import Verif.Cipher.Linear
import Verif.Cipher.Lion
import Verif.Cipher.Loki97
import Verif.Cipher.Loki97Props
import Verif.Cipher.Magenta
import Verif.Cipher.MagentaProps
import Verif.Cipher.Magma
import Verif.Cipher.Mars
import Verif.Cipher.MarsProps
import Verif.Cipher.Misty1
import Verif.Cipher.Multi2
import Verif.Cipher.Noekeon
import Verif.Cipher.Present
import Verif.Cipher.PropsA
import Verif.Cipher.PropsB
import Verif.Cipher.PropsC
import Verif.Cipher.PropsD
import Verif.Cipher.Rc2
import Verif.Cipher.Rc5
import Verif.Cipher.Rc6
import Verif.Cipher.Safer
import Verif.Cipher.SaferProps
import Verif.Cipher.Saferplus
import Verif.Cipher.Seed
import Verif.Cipher.Shacal2
import Verif.Cipher.Simon
import Verif.Cipher.Skipjack
import Verif.Cipher.Sm4
import Verif.Cipher.Speck
import Verif.Cipher.Square
import Verif.Cipher.SquareProps
import Verif.Cipher.Threefish
import Verif.Cipher.ThreefishProps
import Verif.Cipher.Threeway
import Verif.Cipher.Twine
import Verif.Cipher.TwoDes
import Verif.Cipher.Whirlx
import Verif.Ell.Bin
import Verif.Ell.BinField
import Verif.Ell.BinProps
import Verif.Ell.Bit
import Verif.Ell.BitProps
import Verif.Ell.Jac
import Verif.Ell.NamedData
import Verif.Ell.NamedProps
import Verif.Facade.Config
import Verif.Facade.ConfigProps
import Verif.Facade.Lemmas
import Verif.Facade.Lemmas2
import Verif.Facade.Lemmas3
import Verif.Facade.Model
import Verif.Facade.Props
import Verif.Facade.Spec
import Verif.Facade.World
import Verif.Facade.WorldLemmas
import Verif.Facade.WorldProps
import Verif.Facade.WorldSpec
import Verif.Fernet.Base64
import Verif.Fernet.Lemmas
import Verif.Fernet.Model
import Verif.Fernet.Props
import Verif.Fernet.Spec
import Verif.Fpe.Ff1Props
import Verif.Fpe.Ff3Props
import Verif.Fpe.Lemmas
import Verif.Fpe.Model
import Verif.Fpe.Spec
import Verif.Go.Basic
import Verif.Go.Heap
import Verif.Go.Mem
import Verif.Go.Slice
import Verif.Go.Utf8
import Verif.Hash.AppBuf
import Verif.Hash.Bash
import Verif.Hash.BashLemmas
import Verif.Hash.BashProps
import Verif.Hash.BashSpec
import Verif.Hash.Belt
import Verif.Hash.BeltLemmas
import Verif.Hash.BeltSpec
import Verif.Hash.Chunker
import Verif.Hash.ChunkerLemmas
import Verif.Hash.ChunkerProps
import Verif.Hash.Gost94
import Verif.Hash.Gost94Lemmas
import Verif.Hash.Gost94Props
import Verif.Hash.Gost94Spec
import Verif.Hash.Has160
import Verif.Hash.Has160Lemmas
import Verif.Hash.Has160Spec
import Verif.Hash.Iface
import Verif.Hash.Md2
import Verif.Hash.Md2Lemmas
import Verif.Hash.Md2Spec
import Verif.Hash.Props
import Verif.Hash.Rabin
import Verif.Hash.RabinLemmas
import Verif.Hash.RabinProps
import Verif.Hash.Sm3
import Verif.Hash.Sm3Lemmas
import Verif.Hash.Sm3Spec
import Verif.Hash.Stream
import Verif.Hash.Streebog
import Verif.Hash.StreebogFast
import Verif.Hash.StreebogLemmas
import Verif.Hash.StreebogProps
import Verif.Hash.StreebogSpec
import Verif.Hctr.Field
import Verif.Hctr.Lemmas
import Verif.Hctr.Model
import Verif.Hctr.Props
import Verif.Hctr.Spec
import Verif.Jks.Bks
import Verif.Jks.BksLemmas
import Verif.Jks.BksProps
import Verif.Jks.BksSpec
import Verif.Jks.Codec
import Verif.Jks.Jceks
import Verif.Jks.JceksProps
import Verif.Jks.JceksSpec
import Verif.Jks.Jks
import Verif.Jks.JksLemmas
import Verif.Jks.JksProps
import Verif.Jks.JksSpec
import Verif.Kdf.Common
import Verif.Kdf.Instances
import Verif.Kdf.Kb
import Verif.Kdf.KbLemmas
import Verif.Kdf.KbProps
import Verif.Kdf.KbSpec
import Verif.Kdf.Loop
import Verif.Kdf.Misc
import Verif.Kdf.MiscLemmas
import Verif.Kdf.MiscProps
import Verif.Kdf.MiscSpec
import Verif.Kdf.P12
import Verif.Kdf.P12Lemmas
import Verif.Kdf.P12Props
import Verif.Kdf.P12Spec
import Verif.Kdf.Pbkdf2
import Verif.Kdf.Pbkdf2Lemmas
import Verif.Kdf.Pbkdf2Props
import Verif.Kdf.Pbkdf2Spec
import Verif.Kdf.Tree
import Verif.Kdf.TreeLemmas
import Verif.Kdf.TreeProps
import Verif.Kdf.TreeSpec
import Verif.Mac.CmacProps
import Verif.Mac.Lemmas
import Verif.Mac.Model
import Verif.Mac.OneShotModel
import Verif.Mac.OneShotProps
import Verif.Mac.OneShotSpec
import Verif.Mac.PmacLemmas
import Verif.Mac.PmacProps
import Verif.Mac.Spec
import Verif.Mode.BlockLemmas
import Verif.Mode.BlockModel
import Verif.Mode.BlockProps
import Verif.Mode.BlockSpec
import Verif.Mode.Blocks
import Verif.Mode.CfbLemmas
import Verif.Mode.CfbLemmas2
import Verif.Mode.CfbLemmas3
import Verif.Mode.Cipher
import Verif.Mode.Loop
import Verif.Mode.OcfbLemmas
import Verif.Mode.OfbLemmas
import Verif.Mode.OfbLemmas2
import Verif.Mode.Stream
import Verif.Mode.StreamHelp
import Verif.Mode.StreamHelp2
import Verif.Mode.StreamModel
import Verif.Mode.StreamProps
import Verif.Mode.StreamProps2
import Verif.Mode.StreamProps3
import Verif.Mode.StreamSpec
import Verif.Mode.WrapLemmas
import Verif.Mode.WrapModel
import Verif.Mode.WrapProps
import Verif.Mode.WrapSpec
import Verif.Padding.HeapModel
import Verif.Padding.HeapProps
import Verif.Padding.Lemmas
import Verif.Padding.Model
import Verif.Padding.Props
import Verif.Padding.Spec
import Verif.Passhash.Argon2
import Verif.Passhash.Argon2Lemmas
import Verif.Passhash.Argon2Props
import Verif.Passhash.P9
import Verif.Passhash.P9Props
import Verif.Pkcs.Bmp
import Verif.Pkcs.BmpProps
import Verif.Pkcs.Der
import Verif.Pkcs.Modes
import Verif.Pkcs.Pbes1
import Verif.Pkcs.Pbes1Lemmas
import Verif.Pkcs.Pbes1Props
import Verif.Pkcs.Pbes1Spec
import Verif.Pkcs.Pbes2
import Verif.Pkcs.Pbes2File
import Verif.Pkcs.Pbes2Kdf
import Verif.Pkcs.Pbes2Lemmas
import Verif.Pkcs.Pbes2Pem
import Verif.Pkcs.Pbes2Props
import Verif.Pkcs.Pbes2Spec
import Verif.Pkcs.Pem1
import Verif.Pkcs.Pem1Lemmas
import Verif.Pkcs.Pem1Props
import Verif.Pkcs.Pem1Spec
import Verif.Pub.Big
import Verif.Pub.Bign
import Verif.Pub.BignProps
import Verif.Pub.Bip340
import Verif.Pub.Bip340Props
import Verif.Pub.Dh
import Verif.Pub.DhProps
import Verif.Pub.Ec
import Verif.Pub.EcGdsa
import Verif.Pub.EcGdsaProps
import Verif.Pub.EcKcdsa
import Verif.Pub.EcKcdsaProps
import Verif.Pub.EcRdsa
import Verif.Pub.EcRdsaProps
import Verif.Pub.EcSchnorr
import Verif.Pub.EcSchnorrProps
import Verif.Pub.Ecies
import Verif.Pub.EciesProps
import Verif.Pub.ElGamal
import Verif.Pub.ElGamalProps
import Verif.Pub.ElGamalSigProps
import Verif.Pub.Gost
import Verif.Pub.GostCurveProps
import Verif.Pub.GostKeyProps
import Verif.Pub.GostProps
import Verif.Pub.HssProps
import Verif.Pub.Kcdsa
import Verif.Pub.KcdsaProps
import Verif.Pub.Lms
import Verif.Pub.LmsOtsLemmas
import Verif.Pub.LmsOtsProps
import Verif.Pub.LmsProps
import Verif.Pub.LmsTree
import Verif.Pub.Rabin
import Verif.Pub.RabinProps
import Verif.Pub.Rsa
import Verif.Pub.RsaLemmas
import Verif.Pub.RsaProps
import Verif.Pub.SdsaProps
import Verif.Rand.Art
import Verif.Rand.ArtProps
import Verif.Rand.Drbg
import Verif.Rand.DrbgLemmas
import Verif.Rand.DrbgProps
import Verif.Rand.DrbgSpec
import Verif.Sm2.EncProps
import Verif.Sm2.KeProps
import Verif.Sm2.Model
import Verif.Sm2.SignProps
import Verif.Stream.Base
import Verif.Stream.Enigma
import Verif.Stream.EnigmaProps
import Verif.Stream.Grain
import Verif.Stream.GrainCrypt
import Verif.Stream.GrainLemmas
import Verif.Stream.GrainProps
import Verif.Stream.GrainSpec
import Verif.Stream.Hc
import Verif.Stream.HcLemmas
import Verif.Stream.HcProps
import Verif.Stream.HcSpec
import Verif.Stream.KCipher2
import Verif.Stream.KCipher2Props
import Verif.Stream.KCipher2Spec
import Verif.Stream.KCipher2Tables
import Verif.Stream.Panama
import Verif.Stream.PanamaProps
import Verif.Stream.PanamaSpec
import Verif.Stream.Rabbit
import Verif.Stream.RabbitProps
import Verif.Stream.RabbitSpec
import Verif.Stream.Salsa20
import Verif.Stream.Salsa20Props
import Verif.Stream.Spritz
import Verif.Stream.SpritzProps
import Verif.Stream.StreamProps
import Verif.Stream.Trivium
import Verif.Stream.TriviumProps
import Verif.Stream.TriviumSpec
import Verif.Stream.Wake
import Verif.Stream.WakeProps
import Verif.Tool.Math
import Verif.Tool.MathProps
import Verif.Xmss.Xmss
import Verif.Xmss.XmssHist
import Verif.Xmss.XmssLayers
import Verif.Xmss.XmssLemmas
import Verif.Xmss.XmssParams
import Verif.Xmss.XmssProps
import Verif.Xmss.XmssProps2
import Verif.Xmss.XmssProps3
import Verif.Xmss.XmssSign
import Verif.Xmss.XmssTree
import Verif.Xoodyak.Aead
import Verif.Xoodyak.AeadProps
import Verif.Xoodyak.CyRefine
import Verif.Xoodyak.Cyclist
import Verif.Xoodyak.Digest
import Verif.Xoodyak.DigestProps
import Verif.Xoodyak.Inverse
import Verif.Xoodyak.OpsProps
import Verif.Xoodyak.Refine
import Verif.Xoodyak.Spec
import Verif.Xoodyak.Stream
import Verif.Xoodyak.StreamLemmas
import Verif.Xoodyak.StreamProps
import Verif.Xoodyak.Xoodoo
import Verif.Zuc.Zuc
import Verif.Zuc.ZucArith
import Verif.Zuc.ZucEiaProps
import Verif.Zuc.ZucLemmas
import Verif.Zuc.ZucLoad
import Verif.Zuc.ZucMac
import Verif.Zuc.ZucMacLemmas
import Verif.Zuc.ZucMacProps
import Verif.Zuc.ZucMacSpec
import Verif.Zuc.ZucProps
import Verif.Zuc.ZucProps2
import Verif.Zuc.ZucSpec
import Verif.Zuc.ZucStream
import Verif.Zuc.ZucTables
