import Verif.Ell.Bin
/-
The constants of the named curves: over prime fields in elliptic/secp, weierstrass, nums, tom, frp256v1, brainpool and bign, over binary fields in
elliptic/nist, secg, wtls, x962 and x963.  Generated from the source text.  (Those of elliptic/bitcurves are in Bit.lean, those of
pubkey/gost in Pub/GostData.lean.)
-/
namespace Verif.Ell.Named

/-- `elliptic.CurveParams` of the standard library: the curve `y² = x³ − 3x + B`.  For bign `A = −3` as well (elliptic/bign/curve). -/
structure PCurve where
  P : Nat
  N : Nat
  B : Nat
  Gx : Nat
  Gy : Nat
  bitSize : Nat

/-- elliptic/brainpool/rcurve.go:10-19, elliptic/nums/rcurve.go:10-19: a curve that is used by way of another one over the same field with the same
order. -/
structure RCurve where
  twisted : PCurve
  Gx : Nat
  Gy : Nat
  z : Nat

/-- elliptic/base_elliptic/utils.go:13-25 (`F`): the polynomial with these exponents. -/
def fieldPoly (l : List Nat) : Nat := l.foldl (fun a i => a + 1 <<< i) 0

/-- elliptic/secp/secp_curves.go:28-38. -/
def secpSecp112r1 : PCurve where
  P := 0xDB7C2ABF62E35E668076BEAD208B
  N := 0xDB7C2ABF62E35E7628DFAC6561C5
  B := 0x659EF8BA043916EEDE8911702B22
  Gx := 0x9487239995A5EE76B55F9C2F098
  Gy := 0xA89CE5AF8724C0A23E0E0FF77500
  bitSize := 112

/-- elliptic/secp/secp_curves.go:40-50. -/
def secpSecp112r2 : PCurve where
  P := 0xDB7C2ABF62E35E668076BEAD208B
  N := 0x36DF0AAFD8B8D7597CA10520D04B
  B := 0x51DEF1815DB5ED74FCC34C85D709
  Gx := 0x4BA30AB5E892B4E1649DD0928643
  Gy := 0xADCD46F5882E3747DEF36E956E97
  bitSize := 112

/-- elliptic/secp/secp_curves.go:52-62. -/
def secpSecp128r1 : PCurve where
  P := 0xFFFFFFFDFFFFFFFFFFFFFFFFFFFFFFFF
  N := 0xFFFFFFFE0000000075A30D1B9038A115
  B := 0xE87579C11079F43DD824993C2CEE5ED3
  Gx := 0x161FF7528B899B2D0C28607CA52C5B86
  Gy := 0xCF5AC8395BAFEB13C02DA292DDED7A83
  bitSize := 128

/-- elliptic/secp/secp_curves.go:64-74. -/
def secpSecp128r2 : PCurve where
  P := 0xFFFFFFFDFFFFFFFFFFFFFFFFFFFFFFFF
  N := 0x3FFFFFFF7FFFFFFFBE0024720613B5A3
  B := 0x5EEEFCA380D02919DC2C6558BB6D8A5D
  Gx := 0x7B6AA5D85E572983E6FB32A7CDEBC140
  Gy := 0x27B6916A894D3AEE7106FE805FC34B44
  bitSize := 128

/-- elliptic/secp/secp_curves.go:76-86. -/
def secpSecp160r1 : PCurve where
  P := 0xFFFFFFFFFFFFFFFFFFFFFFFFFFFFFFFF7FFFFFFF
  N := 0x100000000000000000001F4C8F927AED3CA752257
  B := 0x1C97BEFC54BD7A8B65ACF89F81D4D4ADC565FA45
  Gx := 0x4A96B5688EF573284664698968C38BB913CBFC82
  Gy := 0x23A628553168947D59DCC912042351377AC5FB32
  bitSize := 160

/-- elliptic/secp/secp_curves.go:88-98. -/
def secpSecp160r2 : PCurve where
  P := 0xFFFFFFFFFFFFFFFFFFFFFFFFFFFFFFFEFFFFAC73
  N := 0x100000000000000000000351EE786A818F3A1A16B
  B := 0xB4E134D3FB59EB8BAB57274904664D5AF50388BA
  Gx := 0x52DCB034293A117E1F4FF11B30F7199D3144CE6D
  Gy := 0xFEAFFEF2E331F296E071FA0DF9982CFEA7D43F2E
  bitSize := 160

/-- elliptic/secp/secp_curves.go:100-110. -/
def secpP192 : PCurve where
  P := 0xFFFFFFFFFFFFFFFFFFFFFFFFFFFFFFFEFFFFFFFFFFFFFFFF
  N := 0xFFFFFFFFFFFFFFFFFFFFFFFF99DEF836146BC9B1B4D22831
  B := 0x64210519E59C80E70FA7E9AB72243049FEB8DEECC146B9B1
  Gx := 0x188DA80EB03090F67CBF20EB43A18800F4FF0AFD82FF1012
  Gy := 0x7192B95FFC8DA78631011ED6B24CDD573F977A11E794811
  bitSize := 192

/-- elliptic/weierstrass/weierstrass_curves.go:21-29. -/
def weierstrassP160r1 : PCurve where
  P := 0xFFFFFFFFFFFFFFFFFFFFFFFFFFFFFFFF7FFFFFFF
  N := 0x100000000000000000001F4C8F927AED3CA752257
  B := 0x1C97BEFC54BD7A8B65ACF89F81D4D4ADC565FA45
  Gx := 0x4A96B5688EF573284664698968C38BB913CBFC82
  Gy := 0x23A628553168947D59DCC912042351377AC5FB32
  bitSize := 160

/-- elliptic/weierstrass/weierstrass_curves.go:31-39. -/
def weierstrassP160r2 : PCurve where
  P := 0xFFFFFFFFFFFFFFFFFFFFFFFFFFFFFFFEFFFFAC73
  N := 0x100000000000000000000351EE786A818F3A1A16B
  B := 0xB4E134D3FB59EB8BAB57274904664D5AF50388BA
  Gx := 0x52DCB034293A117E1F4FF11B30F7199D3144CE6D
  Gy := 0xFEAFFEF2E331F296E071FA0DF9982CFEA7D43F2E
  bitSize := 160

/-- elliptic/weierstrass/weierstrass_curves.go:41-49. -/
def weierstrassP192r1 : PCurve where
  P := 0xFFFFFFFFFFFFFFFFFFFFFFFFFFFFFFFEFFFFFFFFFFFFFFFF
  N := 0xFFFFFFFFFFFFFFFFFFFFFFFF99DEF836146BC9B1B4D22831
  B := 0x64210519E59C80E70FA7E9AB72243049FEB8DEECC146B9B1
  Gx := 0x188DA80EB03090F67CBF20EB43A18800F4FF0AFD82FF1012
  Gy := 0x7192B95FFC8DA78631011ED6B24CDD573F977A11E794811
  bitSize := 192

/-- elliptic/nums/nums_curves.go:26-36. -/
def numsP256d1 : PCurve where
  P := 0xFFFFFFFFFFFFFFFFFFFFFFFFFFFFFFFFFFFFFFFFFFFFFFFFFFFFFFFFFFFFFF43
  N := 0xFFFFFFFFFFFFFFFFFFFFFFFFFFFFFFFFE43C8275EA265C6020AB20294751A825
  B := 0x25581
  Gx := 0x1
  Gy := 0x696F1853C1E466D7FC82C96CCEEEDD6BD02C2F9375894EC10BF46306C2B56C77
  bitSize := 256

/-- elliptic/nums/nums_curves.go:38-50. -/
def numsP256t1 : RCurve where
  twisted := numsP256d1
  Gx := 0xD
  Gy := 0x7D0AB41E2A1276DBA3D330B39FA046BFBE2A6D63824D303F707F6FB5331CADBA
  z := 0x3FFFFFFFFFFFFFFFFFFFFFFFFFFFFFFFBE6AA55AD0A6BC64E5B84E6F1122B4AD

/-- elliptic/nums/nums_curves.go:52-62. -/
def numsP384d1 : PCurve where
  P := 0xFFFFFFFFFFFFFFFFFFFFFFFFFFFFFFFFFFFFFFFFFFFFFFFFFFFFFFFFFFFFFFFFFFFFFFFFFFFFFFFFFFFFFFFFFFFFFEC3
  N := 0xFFFFFFFFFFFFFFFFFFFFFFFFFFFFFFFFFFFFFFFFFFFFFFFFD61EAF1EEB5D6881BEDA9D3D4C37E27A604D81F67B0E61B9
  B := 0xFFFFFFFFFFFFFFFFFFFFFFFFFFFFFFFFFFFFFFFFFFFFFFFFFFFFFFFFFFFFFFFFFFFFFFFFFFFFFFFFFFFFFFFFFFFF77BB
  Gx := 0x2
  Gy := 0x3C9F82CB4B87B4DC71E763E0663E5DBD8034ED422F04F82673330DC58D15FFA2B4A3D0BAD5D30F865BCBBF503EA66F43
  bitSize := 384

/-- elliptic/nums/nums_curves.go:64-76. -/
def numsP384t1 : RCurve where
  twisted := numsP384d1
  Gx := 0x8
  Gy := 0x749CDABA136CE9B65BD4471794AA619DAA5C7B4C930BFF8EBD798A8AE753C6D72F003860FEBABAD534A4ACF5FA7F5BEE
  z := 0x3FFFFFFFFFFFFFFFFFFFFFFFFFFFFFFFFFFFFFFFFFFFFFFFECD7D11ED5A259A25A13A0458E39F4E451D6D71F70426E25

/-- elliptic/nums/nums_curves.go:78-88. -/
def numsP512d1 : PCurve where
  P := 0xFFFFFFFFFFFFFFFFFFFFFFFFFFFFFFFFFFFFFFFFFFFFFFFFFFFFFFFFFFFFFFFFFFFFFFFFFFFFFFFFFFFFFFFFFFFFFFFFFFFFFFFFFFFFFFFFFFFFFFFFFFFFFDC7
  N := 0xFFFFFFFFFFFFFFFFFFFFFFFFFFFFFFFFFFFFFFFFFFFFFFFFFFFFFFFFFFFFFFFF5B3CA4FB94E7831B4FC258ED97D0BDC63B568B36607CD243CE153F390433555D
  B := 0x1D99B
  Gx := 0x2
  Gy := 0x1C282EB23327F9711952C250EA61AD53FCC13031CF6DD336E0B9328433AFBDD8CC5A1C1F0C716FDC724DDE537C2B0ADB00BB3D08DC83755B205CC30D7F83CF28
  bitSize := 512

/-- elliptic/nums/nums_curves.go:90-102. -/
def numsP512t1 : RCurve where
  twisted := numsP512d1
  Gx := 0x20
  Gy := 0x7D67E841DC4C467B605091D80869212F9CEB124BF726973F9FF048779E1D614E62AE2ECE5057B5DAD96B7A897C1D72799261134638750F4F0CB91027543B1C5E
  z := 0x3FFFFFFFFFFFFFFFFFFFFFFFFFFFFFFFFFFFFFFFFFFFFFFFFFFFFFFFFFFFFFFFA7E50809EFDABBB9A624784F449545F0DCEA5FF0CB800F894E78D1CB0B5F0189

/-- elliptic/tom/tom_curves.go:16-26. -/
def tomP256 : PCurve where
  P := 0xFFFFFFFF0000000100000000000000017E72B42B30E7317793135661B1C4B117
  N := 0xFFFFFFFF00000001000000000000000000000000FFFFFFFFFFFFFFFFFFFFFFFF
  B := 0xB441071B12F4A0366FB552F8E21ED4AC36B06ACEEB354224863E60F20219FC56
  Gx := 0x3
  Gy := 0x5A6DD32DF58708E64E97345CBE66600DECD9D538A351BB3C30B4954925B1F02D
  bitSize := 256

/-- elliptic/tom/tom_curves.go:28-38. -/
def tomP384 : PCurve where
  P := 0xFFFFFFFFFFFFFFFFFFFFFFFFFFFFFFFFFFFFFFFFFFFFFFFFFFFFFFFFFFFFFFFEFFFFFFFF0000000000000000FFFFFFFF
  N := 0xFFFFFFFFFFFFFFFFFFFFFFFFFFFFFFFFFFFFFFFFFFFFFFFFC7634D81F4372DDF581A0DB248B0A77AECEC196ACCC52973
  B := 0xB3312FA7E23EE7E4988E056BE3F82D19181D9C6EFE8141120314088F5013875AC656398D8A2ED19D2A85C8EDD3EC2AEF
  Gx := 0xAA87CA22BE8B05378EB1C71EF320AD746E1D3B628BA79B9859F741E082542A385502F25DBF55296C3A545E3872760AB7
  Gy := 0x3617DE4A96262C6F5D9E98BF9292DC29F8F41DBD289A147CE9DA3113B5F0B8C00A60B1CE1D7E819D7A431D7C90EA0E5F
  bitSize := 384

/-- elliptic/tom/tom_curves.go:40-50. -/
def tomP521 : PCurve where
  P := 0x200000000000000000000000000000000000000000000000000000000000000002C54BE78524C33584F734A266748B2063ACCF5028E6778DC5056476D0690853249
  N := 0x1FFFFFFFFFFFFFFFFFFFFFFFFFFFFFFFFFFFFFFFFFFFFFFFFFFFFFFFFFFFFFFFFFFFFFFFFFFFFFFFFFFFFFFFFFFFFFFFFFFFFFFFFFFFFFFFFFFFFFFFFFFFFFFFFFF
  B := 0x3CBC65D1E0245D79703B18E9AAEA1AC6D67F87A2CD4BD84B9E6DF6A45A979C481825CA5A857270FC890352F9FAC7FD6020DEAABB28D099718F0F77A4EEC222871D
  Gx := 0x1
  Gy := 0xEF6432C21701CC48C63FB9263E14BA76D4A94BA14D173B134E3032B0E2E543180EB6725125992A7D00162A5F57D21918B0766364EEB53C53BB12F405DAC1D527E2
  bitSize := 521

/-- elliptic/frp256v1/frp256v1.go:25-34. -/
def frp256v1FRP256v1 : PCurve where
  P := 0xF1FD178C0B3AD58F10126DE8CE42435B3961ADBCABC8CA6DE8FCF353D86E9C03
  N := 0xF1FD178C0B3AD58F10126DE8CE42435B53DC67E140D2BF941FFDD459C6D655E1
  B := 0xEE353FCA5428A9300D4ABA754A44C00FDFEC0C9AE4B1A1803075ED967B7BB73F
  Gx := 0xB6B3D4C356C139EB31183D4749D423958C27D2DCAF98B70164C97A2DD98F5CFF
  Gy := 0x6142E0F7C8B204911F9271F0F3ECEF8C2701C307E8E4C9E183115A1554062CFB
  bitSize := 256

/-- elliptic/brainpool/brainpool.go:66-74. -/
def brainpoolP160t1 : PCurve where
  P := 0xE95E4A5F737059DC60DFC7AD95B3D8139515620F
  N := 0xE95E4A5F737059DC60DF5991D45029409E60FC09
  B := 0x7A556B6DAE535B7B51ED2C4D7DAA7A0B5C55F380
  Gx := 0xB199B13B9B34EFC1397E64BAEB05ACC265FF2378
  Gy := 0xADD6718B7C7C1961F0991B842443772152C9E0AD
  bitSize := 160

/-- elliptic/brainpool/brainpool.go:76-88. -/
def brainpoolP160r1 : RCurve where
  twisted := brainpoolP160t1
  Gx := 0xBED5AF16EA3F6A4F62938C4631EB5AF7BDBCDBC3
  Gy := 0x1667CB477A1A8EC338F94741669C976316DA6321
  z := 0x24DBFF5DEC9B986BBFE5295A29BFBAE45E0F5D0B

/-- elliptic/brainpool/brainpool.go:90-98. -/
def brainpoolP192t1 : PCurve where
  P := 0xC302F41D932A36CDA7A3463093D18DB78FCE476DE1A86297
  N := 0xC302F41D932A36CDA7A3462F9E9E916B5BE8F1029AC4ACC1
  B := 0x13D56FFAEC78681E68F9DEB43B35BEC2FB68542E27897B79
  Gx := 0x3AE9E58C82F63C30282E1FE7BBF43FA72C446AF6F4618129
  Gy := 0x97E2C5667C2223A902AB5CA449D0084B7E5B3DE7CCC01C9
  bitSize := 192

/-- elliptic/brainpool/brainpool.go:100-112. -/
def brainpoolP192r1 : RCurve where
  twisted := brainpoolP192t1
  Gx := 0xC0A0647EAAB6A48753B033C56CB0F0900A2F5C4853375FD6
  Gy := 0x14B690866ABD5BB88B5F4828C1490002E6773FA2FA299B8F
  z := 0x1B6F5CC8DB4DC7AF19458A9CB80DC2295E5EB9C3732104CB

/-- elliptic/brainpool/brainpool.go:114-122. -/
def brainpoolP224t1 : PCurve where
  P := 0xD7C134AA264366862A18302575D1D787B09F075797DA89F57EC8C0FF
  N := 0xD7C134AA264366862A18302575D0FB98D116BC4B6DDEBCA3A5A7939F
  B := 0x4B337D934104CD7BEF271BF60CED1ED20DA14C08B3BB64F18A60888D
  Gx := 0x6AB1E344CE25FF3896424E7FFE14762ECB49F8928AC0C76029B4D580
  Gy := 0x374E9F5143E568CD23F3F4D7C0D4B1E41C8CC0D1C6ABD5F1A46DB4C
  bitSize := 224

/-- elliptic/brainpool/brainpool.go:124-136. -/
def brainpoolP224r1 : RCurve where
  twisted := brainpoolP224t1
  Gx := 0xD9029AD2C7E5CF4340823B2A87DC68C9E4CE3174C1E6EFDEE12C07D
  Gy := 0x58AA56F772C0726F24C6B89E4ECDAC24354B9E99CAA3F6D3761402CD
  z := 0x2DF271E14427A346910CF7A2E6CFA7B3F484E5C2CCE1C8B730E28B3F

/-- elliptic/brainpool/brainpool.go:176-184. -/
def brainpoolP256t1 : PCurve where
  P := 0xA9FB57DBA1EEA9BC3E660A909D838D726E3BF623D52620282013481D1F6E5377
  N := 0xA9FB57DBA1EEA9BC3E660A909D838D718C397AA3B561A6F7901E0E82974856A7
  B := 0x662C61C430D84EA4FE66A7733D0B76B7BF93EBC4AF2F49256AE58101FEE92B04
  Gx := 0xA3E8EB3CC1CFE7B7732213B23A656149AFA142C47AAFBC2B79A191562E1305F4
  Gy := 0x2D996C823439C56D7F7B22E14644417E69BCB6DE39D027001DABE8F35B25C9BE
  bitSize := 256

/-- elliptic/brainpool/brainpool.go:186-198. -/
def brainpoolP256r1 : RCurve where
  twisted := brainpoolP256t1
  Gx := 0x8BD2AEB9CB7E57CB2C4B482FFC81B7AFB9DE27E1E3BD23C23A4453BD9ACE3262
  Gy := 0x547EF835C3DAC4FD97F8461A14611DC9C27745132DED8E545C1D54C72F046997
  z := 0x3E2D4BD9597B58639AE7AA669CAB9837CF5CF20A2C852D10F655668DFC150EF0

/-- elliptic/brainpool/brainpool.go:200-208. -/
def brainpoolP320t1 : PCurve where
  P := 0xD35E472036BC4FB7E13C785ED201E065F98FCFA6F6F40DEF4F92B9EC7893EC28FCD412B1F1B32E27
  N := 0xD35E472036BC4FB7E13C785ED201E065F98FCFA5B68F12A32D482EC7EE8658E98691555B44C59311
  B := 0xA7F561E038EB1ED560B3D147DB782013064C19F27ED27C6780AAF77FB8A547CEB5B4FEF422340353
  Gx := 0x925BE9FB01AFC6FB4D3E7D4990010F813408AB106C4F09CB7EE07868CC136FFF3357F624A21BED52
  Gy := 0x63BA3A7A27483EBF6671DBEF7ABB30EBEE084E58A0B077AD42A5A0989D1EE71B1B9BC0455FB0D2C3
  bitSize := 320

/-- elliptic/brainpool/brainpool.go:210-222. -/
def brainpoolP320r1 : RCurve where
  twisted := brainpoolP320t1
  Gx := 0x43BD7E9AFB53D8B85289BCC48EE5BFE6F20137D10A087EB6E7871E2A10A599C710AF8D0D39E20611
  Gy := 0x14FDD05545EC1CC8AB4093247F77275E0743FFED117182EAA9C77877AAAC6AC7D35245D1692E8EE1
  z := 0x15F75CAF668077F7E85B42EB01F0A81FF56ECD6191D55CB82B7D861458A18FEFC3E5AB7496F3C7B1

/-- elliptic/brainpool/brainpool.go:224-232. -/
def brainpoolP384t1 : PCurve where
  P := 0x8CB91E82A3386D280F5D6F7E50E641DF152F7109ED5456B412B1DA197FB71123ACD3A729901D1A71874700133107EC53
  N := 0x8CB91E82A3386D280F5D6F7E50E641DF152F7109ED5456B31F166E6CAC0425A7CF3AB6AF6B7FC3103B883202E9046565
  B := 0x7F519EADA7BDA81BD826DBA647910F8C4B9346ED8CCDC64E4B1ABD11756DCE1D2074AA263B88805CED70355A33B471EE
  Gx := 0x18DE98B02DB9A306F2AFCD7235F72A819B80AB12EBD653172476FECD462AABFFC4FF191B946A5F54D8D0AA2F418808CC
  Gy := 0x25AB056962D30651A114AFD2755AD336747F93475B7A1FCA3B88F2B6A208CCFE469408584DC2B2912675BF5B9E582928
  bitSize := 384

/-- elliptic/brainpool/brainpool.go:234-246. -/
def brainpoolP384r1 : RCurve where
  twisted := brainpoolP384t1
  Gx := 0x1D1C64F068CF45FFA2A63A81B7C13F6B8847A3E77EF14FE3DB7FCAFE0CBD10E8E826E03436D646AAEF87B2E247D4AF1E
  Gy := 0x8ABE1D7520F9C2A45CB1EB8E95CFD55262B70B29FEEC5864E19C054FF99129280E4646217791811142820341263C5315
  z := 0x41DFE8DD399331F7166A66076734A89CD0D2BCDB7D068E44E1F378F41ECBAE97D2D63DBC87BCCDDCCC5DA39E8589291C

/-- elliptic/brainpool/brainpool.go:248-256. -/
def brainpoolP512t1 : PCurve where
  P := 0xAADD9DB8DBE9C48B3FD4E6AE33C9FC07CB308DB3B3C9D20ED6639CCA703308717D4D9B009BC66842AECDA12AE6A380E62881FF2F2D82C68528AA6056583A48F3
  N := 0xAADD9DB8DBE9C48B3FD4E6AE33C9FC07CB308DB3B3C9D20ED6639CCA70330870553E5C414CA92619418661197FAC10471DB1D381085DDADDB58796829CA90069
  B := 0x7CBBBCF9441CFAB76E1890E46884EAE321F70C0BCB4981527897504BEC3E36A62BCDFA2304976540F6450085F2DAE145C22553B465763689180EA2571867423E
  Gx := 0x640ECE5C12788717B9C1BA06CBC2A6FEBA85842458C56DDE9DB1758D39C0313D82BA51735CDB3EA499AA77A7D6943A64F7A3F25FE26F06B51BAA2696FA9035DA
  Gy := 0x5B534BD595F5AF0FA2C892376C84ACE1BB4E3019B71634C01131159CAE03CEE9D9932184BEEF216BD71DF2DADF86A627306ECFF96DBB8BACE198B61E00F8B332
  bitSize := 512

/-- elliptic/brainpool/brainpool.go:258-270. -/
def brainpoolP512r1 : RCurve where
  twisted := brainpoolP512t1
  Gx := 0x81AEE4BDD82ED9645A21322E9C4C6A9385ED9F70B5D916C1B43B62EEF4D0098EFF3B1F78E2D0D48D50D1687B93B97D5F7C6D5047406A5E688B352209BCB9F822
  Gy := 0x7DDE385D566332ECC0EABFA9CF7822FDF209F70024A57B1AA000C55B881F8111B2DCDE494A5F485E5BCA4BD88A2763AED1CA2B2FA8F0540678CD1E0F3AD80892
  z := 0x12EE58E6764838B69782136F0F2D3BA06E27695716054092E60A80BEDB212B64E585D90BCE13761F85C3F1D2A64E3BE8FEA2220F01EBA5EEB0F35DBD29D922AB

/-- elliptic/bign/bign_curves.go:20-30. -/
def bignP256v1 : PCurve where
  P := 0xFFFFFFFFFFFFFFFFFFFFFFFFFFFFFFFFFFFFFFFFFFFFFFFFFFFFFFFFFFFFFF43
  N := 0xFFFFFFFFFFFFFFFFFFFFFFFFFFFFFFFFD95C8ED60DFB4DFC7E5ABF99263D6607
  B := 0x77CE6C1515F3A8EDD2C13AABE4D8FBBE4CF55069978B9253B22E7D6BD69C03F1
  Gx := 0x0
  Gy := 0x6BF7FC3CFB16D69F5CE4C9A351D6835D78913966C408F6521E29CF1804516A93
  bitSize := 256

/-- elliptic/bign/bign_curves.go:36-46. -/
def bignP384v1 : PCurve where
  P := 0xFFFFFFFFFFFFFFFFFFFFFFFFFFFFFFFFFFFFFFFFFFFFFFFFFFFFFFFFFFFFFFFFFFFFFFFFFFFFFFFFFFFFFFFFFFFFFEC3
  N := 0xFFFFFFFFFFFFFFFFFFFFFFFFFFFFFFFFFFFFFFFFFFFFFFFE6CCCC40373AF7BBB8046DAE7A6A4FF0A3DB7DC3FF30CA7B7
  B := 0x3C75DFE1959CEF2033075AAB655D34D2712748BB0FFBB196A6216AF9E9712E3A14BDE2F0F3CEBD7CBCA7FC236873BF64
  Gx := 0x0
  Gy := 0x5D438224A82E9E9E6330117E432DBF893A729A11DC86FFA00549E79E66B1D35584403E276B2A42F9EA5ECB31F733C451
  bitSize := 384

/-- elliptic/bign/bign_curves.go:52-62. -/
def bignP512v1 : PCurve where
  P := 0xFFFFFFFFFFFFFFFFFFFFFFFFFFFFFFFFFFFFFFFFFFFFFFFFFFFFFFFFFFFFFFFFFFFFFFFFFFFFFFFFFFFFFFFFFFFFFFFFFFFFFFFFFFFFFFFFFFFFFFFFFFFFFDC7
  N := 0xFFFFFFFFFFFFFFFFFFFFFFFFFFFFFFFFFFFFFFFFFFFFFFFFFFFFFFFFFFFFFFFFB2C0092C0198004EF26BEBB02E2113F4361BCAE59556DF32DCFFAD490D068EF1
  B := 0x6CB45944933B8C43D88C5D6A60FD58895BC6A9EEDD5D255117CE13E3DAADB0882711DCB5C4245E952933008C87ACA243EA8622273A49A27A09346998D6139C90
  Gx := 0x0
  Gy := 0xA826FF7AE4037681B182E6F7A0D18FABB0AB41B3B361BCE2D2EDF81B00CCCADA6973DDE20EFA6FD2FF777395EEE8226167AA83B9C94C0D04B792AE6FCEEFEDBD
  bitSize := 512

/-- elliptic/nist/nist_curves.go:20-31. -/
def nistK163 : BCurve := ⟨fieldPoly [163, 7, 6, 3, 0], 0x1, 0x1, 0x2FE13C0537BBC11ACAA07D793DE4E6D5E5C94EEE8, 0x289070FB05D38FF58321F2E800536D538CCDAA3D9, 0x4000000000000000000020108A2E0CC0D99F8A5EF⟩

/-- elliptic/nist/nist_curves.go:34-45. -/
def nistB163 : BCurve := ⟨fieldPoly [163, 7, 6, 3, 0], 0x1, 0x20A601907B8C953CA1481EB10512F78744A3205FD, 0x3F0EBA16286A2D57EA0991168D4994637E8343E36, 0xD51FBC6C71A0094FA2CDD545B11C5C0C797324F1, 0x40000000000000000000292FE77E70C12A4234C33⟩

/-- elliptic/nist/nist_curves.go:48-59. -/
def nistK233 : BCurve := ⟨fieldPoly [233, 74, 0], 0x0, 0x1, 0x17232BA853A7E731AF129F22FF4149563A419C26BF50A4C9D6EEFAD6126, 0x1DB537DECE819B7F70F555A67C427A8CD9BF18AEB9B56E0C11056FAE6A3, 0x8000000000000000000000000000069D5BB915BCD46EFB1AD5F173ABDF⟩

/-- elliptic/nist/nist_curves.go:62-73. -/
def nistB233 : BCurve := ⟨fieldPoly [233, 74, 0], 0x1, 0x66647EDE6C332C7F8C0923BB58213B333B20E9CE4281FE115F7D8F90AD, 0xFAC9DFCBAC8313BB2139F1BB755FEF65BC391F8B36F8F8EB7371FD558B, 0x1006A08A41903350678E58528BEBF8A0BEFF867A7CA36716F7E01F81052, 0x1000000000000000000000000000013E974E72F8A6922031D2603CFE0D7⟩

/-- elliptic/nist/nist_curves.go:76-87. -/
def nistK283 : BCurve := ⟨fieldPoly [283, 12, 7, 5, 0], 0x0, 0x1, 0x503213F78CA44883F1A3B8162F188E553CD265F23C1567A16876913B0C2AC2458492836, 0x1CCDA380F1C9E318D90F95D07E5426FE87E45C0E8184698E45962364E34116177DD2259, 0x1FFFFFFFFFFFFFFFFFFFFFFFFFFFFFFFFFFE9AE2ED07577265DFF7F94451E061E163C61⟩

/-- elliptic/nist/nist_curves.go:90-101. -/
def nistB283 : BCurve := ⟨fieldPoly [283, 12, 7, 5, 0], 0x1, 0x27B680AC8B8596DA5A4AF8A19A0303FCA97FD7645309FA2A581485AF6263E313B79A2F5, 0x5F939258DB7DD90E1934F8C70B0DFEC2EED25B8557EAC9C80E2E198F8CDBECD86B12053, 0x3676854FE24141CB98FE6D4B20D02B4516FF702350EDDB0826779C813F0DF45BE8112F4, 0x3FFFFFFFFFFFFFFFFFFFFFFFFFFFFFFFFFFEF90399660FC938A90165B042A7CEFADB307⟩

/-- elliptic/nist/nist_curves.go:104-115. -/
def nistK409 : BCurve := ⟨fieldPoly [409, 87, 0], 0x0, 0x1, 0x60F05F658F49C1AD3AB1890F7184210EFD0987E307C84C27ACCFB8F9F67CC2C460189EB5AAAA62EE222EB1B35540CFE9023746, 0x1E369050B7C4E42ACBA1DACBF04299C3460782F918EA427E6325165E9EA10E3DA5F6C42E9C55215AA9CA27A5863EC48D8E0286B, 0x7FFFFFFFFFFFFFFFFFFFFFFFFFFFFFFFFFFFFFFFFFFFFFFFFFFE5F83B2D4EA20400EC4557D5ED3E3E7CA5B4B5C83B8E01E5FCF⟩

/-- elliptic/nist/nist_curves.go:118-129. -/
def nistB409 : BCurve := ⟨fieldPoly [409, 87, 0], 0x1, 0x21A5C2C8EE9FEB5C4B9A753B7B476B7FD6422EF1F3DD674761FA99D6AC27C8A9A197B272822F6CD57A55AA4F50AE317B13545F, 0x15D4860D088DDB3496B0C6064756260441CDE4AF1771D4DB01FFE5B34E59703DC255A868A1180515603AEAB60794E54BB7996A7, 0x61B1CFAB6BE5F32BBFA78324ED106A7636B9C5A7BD198D0158AA4F5488D08F38514F1FDF4B4F40D2181B3681C364BA0273C706, 0x10000000000000000000000000000000000000000000000000001E2AAD6A612F33307BE5FA47C3C9E052F838164CD37D9A21173⟩

/-- elliptic/nist/nist_curves.go:132-143. -/
def nistK571 : BCurve := ⟨fieldPoly [571, 10, 5, 2, 0], 0x0, 0x1, 0x26EB7A859923FBC82189631F8103FE4AC9CA2970012D5D46024804801841CA44370958493B205E647DA304DB4CEB08CBBD1BA39494776FB988B47174DCA88C7E2945283A01C8972, 0x349DC807F4FBF374F4AEADE3BCA95314DD58CEC9F307A54FFC61EFC006D8A2C9D4979C0AC44AEA74FBEBBB9F772AEDCB620B01A7BA7AF1B320430C8591984F601CD4C143EF1C7A3, 0x20000000000000000000000000000000000000000000000000000000000000000000000131850E1F19A63E4B391A8DB917F4138B630D84BE5D639381E91DEB45CFE778F637C1001⟩

/-- elliptic/nist/nist_curves.go:146-157. -/
def nistB571 : BCurve := ⟨fieldPoly [571, 10, 5, 2, 0], 0x1, 0x2F40E7E2221F295DE297117B7F3D62F5C6A97FFCB8CEFF1CD6BA8CE4A9A18AD84FFABBD8EFA59332BE7AD6756A66E294AFD185A78FF12AA520E4DE739BACA0C7FFEFF7F2955727A, 0x303001D34B856296C16C0D40D3CD7750A93D1D2955FA80AA5F40FC8DB7B2ABDBDE53950F4C0D293CDD711A35B67FB1499AE60038614F1394ABFA3B4C850D927E1E7769C8EEC2D19, 0x37BF27342DA639B6DCCFFFEB73D69D78C6C27A6009CBBCA1980F8533921E8A684423E43BAB08A576291AF8F461BB2A8B3531D2F0485C19B16E2F1516E23DD3C1A4827AF1B8AC15B, 0x3FFFFFFFFFFFFFFFFFFFFFFFFFFFFFFFFFFFFFFFFFFFFFFFFFFFFFFFFFFFFFFFFFFFFFFE661CE18FF55987308059B186823851EC7DD9CA1161DE93D5174D66E8382E9BB2FE84E47⟩

/-- elliptic/secg/secg_curves.go:33-44. -/
def secgSect113r1 : BCurve := ⟨fieldPoly [113, 9, 0], 0x3088250CA6E7C7FE649CE85820F7, 0xE8BEE4D3E2260744188BE0E9C723, 0x9D73616F35F4AB1407D73562C10F, 0xA52830277958EE84D1315ED31886, 0x100000000000000D9CCEC8A39E56F⟩

/-- elliptic/secg/secg_curves.go:47-58. -/
def secgSect113r2 : BCurve := ⟨fieldPoly [113, 9, 0], 0x689918DBEC7E5A0DD6DFC0AA55C7, 0x95E9A9EC9B297BD4BF36E059184F, 0x1A57A6A7B26CA5EF52FCDB8164797, 0xB3ADC94ED1FE674C06E695BABA1D, 0x10000000000000108789B2496AF93⟩

/-- elliptic/secg/secg_curves.go:61-72. -/
def secgSect131r1 : BCurve := ⟨fieldPoly [131, 8, 3, 2, 0], 0x7A11B09A76B562144418FF3FF8C2570B8, 0x217C05610884B63B9C6C7291678F9D341, 0x81BAF91FDF9833C40F9C181343638399, 0x78C6E7EA38C001F73C8134B1B4EF9E150, 0x400000000000000023123953A9464B54D⟩

/-- elliptic/secg/secg_curves.go:75-86. -/
def secgSect131r2 : BCurve := ⟨fieldPoly [131, 8, 3, 2, 0], 0x3E5A88919D7CAFCBF415F07C2176573B2, 0x4B8266A46C55657AC734CE38F018F2192, 0x356DCD8F2F95031AD652D23951BB366A8, 0x648F06D867940A5366D9E265DE9EB240F, 0x400000000000000016954A233049BA98F⟩

/-- elliptic/secg/secg_curves.go:89-100. -/
def secgSect163k1 : BCurve := ⟨fieldPoly [163, 7, 6, 3, 0], 0x1, 0x1, 0x2FE13C0537BBC11ACAA07D793DE4E6D5E5C94EEE8, 0x289070FB05D38FF58321F2E800536D538CCDAA3D9, 0x4000000000000000000020108A2E0CC0D99F8A5EF⟩

/-- elliptic/secg/secg_curves.go:103-114. -/
def secgSect163r1 : BCurve := ⟨fieldPoly [163, 7, 6, 3, 0], 0x7B6882CAAEFA84F9554FF8428BD88E246D2782AE2, 0x713612DCDDCB40AAB946BDA29CA91F73AF958AFD9, 0x369979697AB43897789566789567F787A7876A654, 0x435EDB42EFAFB2989D51FEFCE3C80988F41FF883, 0x3FFFFFFFFFFFFFFFFFFFF48AAB689C29CA710279B⟩

/-- elliptic/secg/secg_curves.go:117-128. -/
def secgSect163r2 : BCurve := ⟨fieldPoly [163, 7, 6, 3, 0], 0x1, 0x20A601907B8C953CA1481EB10512F78744A3205FD, 0x3F0EBA16286A2D57EA0991168D4994637E8343E36, 0xD51FBC6C71A0094FA2CDD545B11C5C0C797324F1, 0x40000000000000000000292FE77E70C12A4234C33⟩

/-- elliptic/secg/secg_curves.go:131-142. -/
def secgSect193r1 : BCurve := ⟨fieldPoly [193, 15, 0], 0x17858FEB7A98975169E171F77B4087DE098AC8A911DF7B01, 0xFDFB49BFE6C3A89FACADAA7A1E5BBC7CC1C2E5D831478814, 0x1F481BC5F0FF84A74AD6CDF6FDEF4BF6179625372D8C0C5E1, 0x25E399F2903712CCF3EA9E3A1AD17FB0B3201B6AF7CE1B05, 0x1000000000000000000000000C7F34A778F443ACC920EBA49⟩

/-- elliptic/secg/secg_curves.go:145-156. -/
def secgSect193r2 : BCurve := ⟨fieldPoly [193, 15, 0], 0x163F35A5137C2CE3EA6ED8667190B0BC43ECD69977702709B, 0xC9BB9E8927D4D64C377E2AB2856A5B16E3EFB7F61D4316AE, 0xD9B67D192E0367C803F39E1A7E82CA14A651350AAE617E8F, 0x1CE94335607C304AC29E7DEFBD9CA01F596F927224CDECF6C, 0x10000000000000000000000015AAB561B005413CCD4EE99D5⟩

/-- elliptic/secg/secg_curves.go:159-170. -/
def secgSect233k1 : BCurve := ⟨fieldPoly [233, 74, 0], 0x0, 0x1, 0x17232BA853A7E731AF129F22FF4149563A419C26BF50A4C9D6EEFAD6126, 0x1DB537DECE819B7F70F555A67C427A8CD9BF18AEB9B56E0C11056FAE6A3, 0x8000000000000000000000000000069D5BB915BCD46EFB1AD5F173ABDF⟩

/-- elliptic/secg/secg_curves.go:173-184. -/
def secgSect233r1 : BCurve := ⟨fieldPoly [233, 74, 0], 0x1, 0x66647EDE6C332C7F8C0923BB58213B333B20E9CE4281FE115F7D8F90AD, 0xFAC9DFCBAC8313BB2139F1BB755FEF65BC391F8B36F8F8EB7371FD558B, 0x1006A08A41903350678E58528BEBF8A0BEFF867A7CA36716F7E01F81052, 0x1000000000000000000000000000013E974E72F8A6922031D2603CFE0D7⟩

/-- elliptic/secg/secg_curves.go:187-198. -/
def secgSect239k1 : BCurve := ⟨fieldPoly [239, 158, 0], 0x0, 0x1, 0x29A0B6A887A983E9730988A68727A8B2D126C44CC2CC7B2A6555193035DC, 0x76310804F12E549BDB011C103089E73510ACB275FC312A5DC6B76553F0CA, 0x2000000000000000000000000000005A79FEC67CB6E91F1C1DA800E478A5⟩

/-- elliptic/secg/secg_curves.go:201-212. -/
def secgSect283k1 : BCurve := ⟨fieldPoly [283, 12, 7, 5, 0], 0x0, 0x1, 0x503213F78CA44883F1A3B8162F188E553CD265F23C1567A16876913B0C2AC2458492836, 0x1CCDA380F1C9E318D90F95D07E5426FE87E45C0E8184698E45962364E34116177DD2259, 0x1FFFFFFFFFFFFFFFFFFFFFFFFFFFFFFFFFFE9AE2ED07577265DFF7F94451E061E163C61⟩

/-- elliptic/secg/secg_curves.go:215-226. -/
def secgSect283r1 : BCurve := ⟨fieldPoly [283, 12, 7, 5, 0], 0x1, 0x27B680AC8B8596DA5A4AF8A19A0303FCA97FD7645309FA2A581485AF6263E313B79A2F5, 0x5F939258DB7DD90E1934F8C70B0DFEC2EED25B8557EAC9C80E2E198F8CDBECD86B12053, 0x3676854FE24141CB98FE6D4B20D02B4516FF702350EDDB0826779C813F0DF45BE8112F4, 0x3FFFFFFFFFFFFFFFFFFFFFFFFFFFFFFFFFFEF90399660FC938A90165B042A7CEFADB307⟩

/-- elliptic/secg/secg_curves.go:229-240. -/
def secgSect409k1 : BCurve := ⟨fieldPoly [409, 87, 0], 0x0, 0x1, 0x60F05F658F49C1AD3AB1890F7184210EFD0987E307C84C27ACCFB8F9F67CC2C460189EB5AAAA62EE222EB1B35540CFE9023746, 0x1E369050B7C4E42ACBA1DACBF04299C3460782F918EA427E6325165E9EA10E3DA5F6C42E9C55215AA9CA27A5863EC48D8E0286B, 0x7FFFFFFFFFFFFFFFFFFFFFFFFFFFFFFFFFFFFFFFFFFFFFFFFFFE5F83B2D4EA20400EC4557D5ED3E3E7CA5B4B5C83B8E01E5FCF⟩

/-- elliptic/secg/secg_curves.go:243-254. -/
def secgSect409r1 : BCurve := ⟨fieldPoly [409, 87, 0], 0x1, 0x21A5C2C8EE9FEB5C4B9A753B7B476B7FD6422EF1F3DD674761FA99D6AC27C8A9A197B272822F6CD57A55AA4F50AE317B13545F, 0x15D4860D088DDB3496B0C6064756260441CDE4AF1771D4DB01FFE5B34E59703DC255A868A1180515603AEAB60794E54BB7996A7, 0x61B1CFAB6BE5F32BBFA78324ED106A7636B9C5A7BD198D0158AA4F5488D08F38514F1FDF4B4F40D2181B3681C364BA0273C706, 0x10000000000000000000000000000000000000000000000000001E2AAD6A612F33307BE5FA47C3C9E052F838164CD37D9A21173⟩

/-- elliptic/secg/secg_curves.go:257-268. -/
def secgSect571k1 : BCurve := ⟨fieldPoly [571, 10, 5, 2, 0], 0x0, 0x1, 0x26EB7A859923FBC82189631F8103FE4AC9CA2970012D5D46024804801841CA44370958493B205E647DA304DB4CEB08CBBD1BA39494776FB988B47174DCA88C7E2945283A01C8972, 0x349DC807F4FBF374F4AEADE3BCA95314DD58CEC9F307A54FFC61EFC006D8A2C9D4979C0AC44AEA74FBEBBB9F772AEDCB620B01A7BA7AF1B320430C8591984F601CD4C143EF1C7A3, 0x20000000000000000000000000000000000000000000000000000000000000000000000131850E1F19A63E4B391A8DB917F4138B630D84BE5D639381E91DEB45CFE778F637C1001⟩

/-- elliptic/secg/secg_curves.go:271-282. -/
def secgSect571r1 : BCurve := ⟨fieldPoly [571, 10, 5, 2, 0], 0x1, 0x2F40E7E2221F295DE297117B7F3D62F5C6A97FFCB8CEFF1CD6BA8CE4A9A18AD84FFABBD8EFA59332BE7AD6756A66E294AFD185A78FF12AA520E4DE739BACA0C7FFEFF7F2955727A, 0x303001D34B856296C16C0D40D3CD7750A93D1D2955FA80AA5F40FC8DB7B2ABDBDE53950F4C0D293CDD711A35B67FB1499AE60038614F1394ABFA3B4C850D927E1E7769C8EEC2D19, 0x37BF27342DA639B6DCCFFFEB73D69D78C6C27A6009CBBCA1980F8533921E8A684423E43BAB08A576291AF8F461BB2A8B3531D2F0485C19B16E2F1516E23DD3C1A4827AF1B8AC15B, 0x3FFFFFFFFFFFFFFFFFFFFFFFFFFFFFFFFFFFFFFFFFFFFFFFFFFFFFFFFFFFFFFFFFFFFFFE661CE18FF55987308059B186823851EC7DD9CA1161DE93D5174D66E8382E9BB2FE84E47⟩

/-- elliptic/wtls/wtls_curves.go:21-32. -/
def wtlsWapwsgidmecidwtls1 : BCurve := ⟨fieldPoly [113, 9, 0], 0x1, 0x1, 0x1667979A40BA497E5D5C270780617, 0xF44B4AF1ECC2630E08785CEBCC15, 0xFFFFFFFFFFFFFFFDBF91AF6DEA73⟩

/-- elliptic/wtls/wtls_curves.go:35-46. -/
def wtlsWapwsgidmecidwtls3 : BCurve := ⟨fieldPoly [163, 7, 6, 3, 0], 0x1, 0x1, 0x2FE13C0537BBC11ACAA07D793DE4E6D5E5C94EEE8, 0x289070FB05D38FF58321F2E800536D538CCDAA3D9, 0x4000000000000000000020108A2E0CC0D99F8A5EF⟩

/-- elliptic/wtls/wtls_curves.go:49-60. -/
def wtlsWapwsgidmecidwtls4 : BCurve := ⟨fieldPoly [113, 9, 0], 0x3088250CA6E7C7FE649CE85820F7, 0xE8BEE4D3E2260744188BE0E9C723, 0x9D73616F35F4AB1407D73562C10F, 0xA52830277958EE84D1315ED31886, 0x100000000000000D9CCEC8A39E56F⟩

/-- elliptic/wtls/wtls_curves.go:63-74. -/
def wtlsWapwsgidmecidwtls5 : BCurve := ⟨fieldPoly [163, 8, 2, 1, 0], 0x72546B5435234A422E0789675F432C89435DE5242, 0xC9517D06D5240D3CFF38C74B20B6CD4D6F9DD4D9, 0x7AF69989546103D79329FCC3D74880F33BBE803CB, 0x1EC23211B5966ADEA1D3F87F7EA5848AEF0B7CA9F, 0x400000000000000000001E60FC8821CC74DAEAFC1⟩

/-- elliptic/wtls/wtls_curves.go:77-88. -/
def wtlsWapwsgidmecidwtls10 : BCurve := ⟨fieldPoly [233, 74, 0], 0x0, 0x1, 0x17232BA853A7E731AF129F22FF4149563A419C26BF50A4C9D6EEFAD6126, 0x1DB537DECE819B7F70F555A67C427A8CD9BF18AEB9B56E0C11056FAE6A3, 0x8000000000000000000000000000069D5BB915BCD46EFB1AD5F173ABDF⟩

/-- elliptic/wtls/wtls_curves.go:91-102. -/
def wtlsWapwsgidmecidwtls11 : BCurve := ⟨fieldPoly [233, 74, 0], 0x1, 0x66647EDE6C332C7F8C0923BB58213B333B20E9CE4281FE115F7D8F90AD, 0xFAC9DFCBAC8313BB2139F1BB755FEF65BC391F8B36F8F8EB7371FD558B, 0x1006A08A41903350678E58528BEBF8A0BEFF867A7CA36716F7E01F81052, 0x1000000000000000000000000000013E974E72F8A6922031D2603CFE0D7⟩

/-- elliptic/x962/x962_curves.go:35-46. -/
def x962C2pnb176w1 : BCurve := ⟨fieldPoly [176, 43, 2, 1, 0], 0xE4E6DB2995065C407D9D39B8D0967B96704BA8E9C90B, 0x5DDA470ABE6414DE8EC133AE28E9BBD7FCEC0AE0FFF2, 0x8D16C2866798B600F9F08BB4A8E860F3298CE04A5798, 0x6FA4539C2DADDDD6BAB5167D61B436E1D92BB16A562C, 0x10092537397ECA4F6145799D62B0A19CE06FE26AD⟩

/-- elliptic/x962/x962_curves.go:49-60. -/
def x962C2pnb163v1 : BCurve := ⟨fieldPoly [163, 8, 2, 1, 0], 0x72546B5435234A422E0789675F432C89435DE5242, 0xC9517D06D5240D3CFF38C74B20B6CD4D6F9DD4D9, 0x7AF69989546103D79329FCC3D74880F33BBE803CB, 0x1EC23211B5966ADEA1D3F87F7EA5848AEF0B7CA9F, 0x400000000000000000001E60FC8821CC74DAEAFC1⟩

/-- elliptic/x962/x962_curves.go:63-74. -/
def x962C2pnb163v2 : BCurve := ⟨fieldPoly [163, 8, 2, 1, 0], 0x108B39E77C4B108BED981ED0E890E117C511CF072, 0x667ACEB38AF4E488C407433FFAE4F1C811638DF20, 0x24266E4EB5106D0A964D92C4860E2671DB9B6CC5, 0x79F684DDF6684C5CD258B3890021B2386DFD19FC5, 0x3FFFFFFFFFFFFFFFFFFFDF64DE1151ADBB78F10A7⟩

/-- elliptic/x962/x962_curves.go:77-88. -/
def x962C2pnb163v3 : BCurve := ⟨fieldPoly [163, 8, 2, 1, 0], 0x7A526C63D3E25A256A007699F5447E32AE456B50E, 0x3F7061798EB99E238FD6F1BF95B48FEEB4854252B, 0x2F9F87B7C574D0BDECF8A22E6524775F98CDEBDCB, 0x5B935590C155E17EA48EB3FF3718B893DF59A05D0, 0x3FFFFFFFFFFFFFFFFFFFE1AEE140F110AFF961309⟩

/-- elliptic/x962/x962_curves.go:91-102. -/
def x962C2pnb208w1 : BCurve := ⟨fieldPoly [208, 83, 2, 1, 0], 0x0, 0xC8619ED45A62E6212E1160349E2BFA844439FAFC2A3FD1638F9E, 0x89FDFBE4ABE193DF9559ECF07AC0CE78554E2784EB8C1ED1A57A, 0xF55B51A06E78E9AC38A035FF520D8B01781BEB1A6BB08617DE3, 0x101BAF95C9723C57B6C21DA2EFF2D5ED588BDD5717E212F9D⟩

/-- elliptic/x962/x962_curves.go:105-116. -/
def x962C2tnb191v3 : BCurve := ⟨fieldPoly [191, 9, 0], 0x6C01074756099122221056911C77D77E77A777E7E7E77FCB, 0x71FE1AF926CF847989EFEF8DB459F66394D90F32AD3F15E8, 0x375D4CE24FDE434489DE8746E71786015009E66E38A926DD, 0x545A39176196575D985999366E6AD34CE0A77CD7127B06BE, 0x155555555555555555555555610C0B196812BFB6288A3EA3⟩

/-- elliptic/x962/x962_curves.go:119-130. -/
def x962C2tnb191v2 : BCurve := ⟨fieldPoly [191, 9, 0], 0x401028774D7777C7B7666D1366EA432071274F89FF01E718, 0x620048D28BCBD03B6249C99182B7C8CD19700C362C46A01, 0x3809B2B7CC1B28CC5A87926AAD83FD28789E81E2C9E3BF10, 0x17434386626D14F3DBF01760D9213A3E1CF37AEC437D668A, 0x20000000000000000000000050508CB89F652824E06B8173⟩

/-- elliptic/x962/x962_curves.go:133-144. -/
def x962C2tnb191v1 : BCurve := ⟨fieldPoly [191, 9, 0], 0x2866537B676752636A68F56554E12640276B649EF7526267, 0x2E45EF571F00786F67B0081B9495A3D95462F5DE0AA185EC, 0x36B3DAF8A23206F9C4F299D7B21A9C369137F2C84AE1AA0D, 0x765BE73433B3F95E332932E70EA245CA2418EA0EF98018FB, 0x40000000000000000000000004A20E90C39067C893BBB9A5⟩

/-- elliptic/x962/x962_curves.go:147-158. -/
def x962C2tnb239v3 : BCurve := ⟨fieldPoly [239, 36, 0], 0x1238774666A67766D6676F778E676B66999176666E687666D8766C66A9F, 0x6A941977BA9F6A435199ACFC51067ED587F519C5ECB541B8E44111DE1D40, 0x70F6E9D04D289C4E89913CE3530BFDE903977D42B146D539BF1BDE4E9C92, 0x2E5A0EAF6E5E1305B9004DCE5C0ED7FE59A35608F33837C816D80B79F461, 0xCCCCCCCCCCCCCCCCCCCCCCCCCCCCCAC4912D2D9DF903EF9888B8A0E4CFF⟩

/-- elliptic/x962/x962_curves.go:161-172. -/
def x962C2tnb239v2 : BCurve := ⟨fieldPoly [239, 36, 0], 0x4230017757A767FAE42398569B746325D45313AF0766266479B75654E65F, 0x5037EA654196CFF0CD82B2C14A2FCF2E3FF8775285B545722F03EACDB74B, 0x28F9D04E900069C8DC47A08534FE76D2B900B7D7EF31F5709F200C4CA205, 0x5667334C45AFF3B5A03BAD9DD75E2C71A99362567D5453F7FA6E227EC833, 0x1555555555555555555555555555553C6F2885259C31E3FCDF154624522D⟩

/-- elliptic/x962/x962_curves.go:175-186. -/
def x962C2tnb239v1 : BCurve := ⟨fieldPoly [239, 36, 0], 0x32010857077C5431123A46B808906756F543423E8D27877578125778AC76, 0x790408F2EEDAF392B012EDEFB3392F30F4327C0CA3F31FC383C422AA8C16, 0x57927098FA932E7C0A96D3FD5B706EF7E5F5C156E16B7E7C86038552E91D, 0x61D8EE5077C33FECF6F1A16B268DE469C3C7744EA9A971649FC7A9616305, 0x2000000000000000000000000000000F4D42FFE1492A4993F1CAD666E447⟩

/-- elliptic/x962/x962_curves.go:189-200. -/
def x962C2pnb272w1 : BCurve := ⟨fieldPoly [272, 56, 3, 1, 0], 0x91A091F03B5FBA4AB2CCF49C4EDD220FB028712D42BE752B2C40094DBACDB586FB20, 0x7167EFC92BB2E3CE7C8AAAFF34E12A9C557003D7C73A6FAF003F99F6CC8482E540F7, 0x6108BABB2CEEBCF787058A056CBE0CFE622D7723A289E08A07AE13EF0D10D171DD8D, 0x10C7695716851EEF6BA7F6872E6142FBD241B830FF5EFCACECCAB05E02005DDE9D23, 0x100FAF51354E0E39E4892DF6E319C72C8161603FA45AA7B998A167B8F1E629521⟩

/-- elliptic/x962/x962_curves.go:203-214. -/
def x962C2pnb304w1 : BCurve := ⟨fieldPoly [304, 11, 2, 1, 0], 0xFD0D693149A118F651E6DCE6802085377E5F882D1B510B44160074C1288078365A0396C8E681, 0xBDDB97E555A50A908E43B01C798EA5DAA6788F1EA2794EFCF57166B8C14039601E55827340BE, 0x197B07845E9BE2D96ADB0F5F3C7F2CFFBD7A3EB8B6FEC35C7FD67F26DDF6285A644F740A2614, 0xE19FBEB76E0DA171517ECF401B50289BF014103288527A9B416A105E80260B549FDC1B92C03B, 0x101D556572AABAC800101D556572AABAC8001022D5C91DD173F8FB561DA6899164443051D⟩

/-- elliptic/x962/x962_curves.go:217-228. -/
def x962C2pnb368w1 : BCurve := ⟨fieldPoly [368, 85, 2, 1, 0], 0xE0D2EE25095206F5E2A4F9ED229F1F256E79A0E2B455970D8D0D865BD94778C576D62F0AB7519CCD2A1A906AE30D, 0xFC1217D4320A90452C760A58EDCD30C8DD069B3C34453837A34ED50CB54917E1C2112D84D164F444F8F74786046A, 0x1085E2755381DCCCE3C1557AFA10C2F0C0C2825646C5B34A394CBCFA8BC16B22E7E789E927BE216F02E1FB136A5F, 0x7B3EB1BDDCBA62D5D8B2059B525797FC73822C59059C623A45FF3843CEE8F87CD1855ADAA81E2A0750B80FDA2310, 0x10090512DA9AF72B08349D98A5DD4C7B0532ECA51CE03E2D10F3B7AC579BD87E909AE40A6F131E9CFCE5BD967⟩

/-- elliptic/x962/x962_curves.go:231-242. -/
def x962C2tnb359v1 : BCurve := ⟨fieldPoly [359, 68, 0], 0x5667676A654B20754F356EA92017D946567C46675556F19556A04616B567D223A5E05656FB549016A96656A557, 0x2472E2D0197C49363F1FE7F5B6DB075D52B6947D135D8CA445805D39BC345626089687742B6329E70680231988, 0x3C258EF3047767E7EDE0F1FDAA79DAEE3841366A132E163ACED4ED2401DF9C6BDCDE98E8E707C07A2239B1B097, 0x53D7E08529547048121E9C95F3791DD804963948F34FAE7BF44EA82365DC7868FE57E4AE2DE211305A407104BD, 0x1AF286BCA1AF286BCA1AF286BCA1AF286BCA1AF286BC9FB8F6B85C556892C20A7EB964FE7719E74F490758D3B⟩

/-- elliptic/x962/x962_curves.go:245-256. -/
def x962C2tnb431r1 : BCurve := ⟨fieldPoly [431, 120, 0], 0x1A827EF00DD6FC0E234CAF046C6A5D8A85395B236CC4AD2CF32A0CADBDC9DDF620B0EB9906D0957F6C6FEACD615468DF104DE296CD8F, 0x10D9B4A3D9047D8B154359ABFB1B7F5485B04CEB868237DDC9DEDA982A679A5A919B626D4E50A8DD731B107A9962381FB5D807BF2618, 0x120FC05D3C67A99DE161D2F4092622FECA701BE4F50F4758714E8A87BBF2A658EF8C21E7C5EFE965361F6C2999C0C247B0DBD70CE6B7, 0x20D0AF8903A96F8D5FA2C255745D3C451B302C9346D9B7E485E7BCE41F6B591F3E8F6ADDCBB0BC4C2F947A7DE1A89B625D6A598B3760, 0x340340340340340340340340340340340340340340340340340340323C313FAB50589703B5EC68D3587FEC60D161CC149C1AD4A91⟩

/-- elliptic/x962/x962_curves.go:259-270. -/
def x962C2onb191v4 : BCurve := ⟨fieldPoly [191, 190, 188, 184, 176, 160, 128, 64, 63, 62, 60, 56, 48, 32, 0], 0x65903E04E1E4924253E26A3C9AC28C758BD8184A3FB680E8, 0x54678621B190CFCE282ADE219D5B3A065E3F4B3FFDEBB29B, 0x25A2C69A32E8638E51CCEFAAD05350A978457CB5FB6DF994A, 0x0, 0x4000000000000000000000009CF2D6E3901DAC4C32EEC65D⟩

/-- elliptic/x962/x962_curves.go:273-284. -/
def x962C2onb191v5 : BCurve := ⟨fieldPoly [191, 190, 188, 184, 176, 160, 128, 64, 63, 62, 60, 56, 48, 32, 0], 0x25F8D06C97C822536D469CD5170CDD7BB9F500BD6DB110FB, 0x75FF570E35CA94FB3780C2619D081C17AA59FBD5E591C1C4, 0x32A16910E8F6C4B199BE24213857ABC9C992EDFB2471F3C68, 0x0, 0xFFFFFFFFFFFFFFFFFFFFFFFEEB354B7270B2992B7818627⟩

/-- elliptic/x962/x962_curves.go:287-298. -/
def x962C2onb239v4 : BCurve := ⟨fieldPoly [239, 238, 236, 232, 224, 208, 207, 206, 204, 200, 192, 144, 143, 142, 140, 136, 128, 16, 15, 14, 12, 8, 0], 0x182DD45F5D470239B8983FEA47B8B292641C57F9BF84BAECDE8BB3ADCE30, 0x147A9C1D4C2CE9BE5D34EC02797F76667EBAD5A3F93FA2A524BFDE91EF28, 0x34912AD657F1D1C6B32EDB9942C95E226B06FB012CD40FDEA0D72197C8104, 0x0, 0x200000000000000000000000000000474F7E69F42FE430931D0B455AAE8B⟩

/-- elliptic/x962/x962_curves.go:301-312. -/
def x962C2onb239v5 : BCurve := ⟨fieldPoly [239, 238, 236, 232, 224, 208, 207, 206, 204, 200, 192, 144, 143, 142, 140, 136, 128, 16, 15, 14, 12, 8, 0], 0x1ECF1B9D28D8017505E17475D3DF2982E243CA5CB5E9F94A3F36124A486E, 0x3EE257250D1A2E66CEF23AA0F25B12388DE8A10FF9554F90AFBAA9A08B6D, 0x2193279FC543E9F5F7119189785B9C60B249BE4820BAF6C24BDFA2813F8B8, 0x0, 0x1555555555555555555555555555558CF77A5D0589D2A9340D963B7AD703⟩

/-- elliptic/x963/x963_curves.go:29-40. -/
def x963Ansit163k1 : BCurve := ⟨fieldPoly [163, 7, 6, 3, 0], 0x1, 0x1, 0x2FE13C0537BBC11ACAA07D793DE4E6D5E5C94EEE8, 0x289070FB05D38FF58321F2E800536D538CCDAA3D9, 0x4000000000000000000020108A2E0CC0D99F8A5EF⟩

/-- elliptic/x963/x963_curves.go:43-54. -/
def x963Ansit163r1 : BCurve := ⟨fieldPoly [163, 7, 6, 3, 0], 0x7B6882CAAEFA84F9554FF8428BD88E246D2782AE2, 0x713612DCDDCB40AAB946BDA29CA91F73AF958AFD9, 0x369979697AB43897789566789567F787A7876A654, 0x435EDB42EFAFB2989D51FEFCE3C80988F41FF883, 0x3FFFFFFFFFFFFFFFFFFFF48AAB689C29CA710279B⟩

/-- elliptic/x963/x963_curves.go:57-68. -/
def x963Ansit163r2 : BCurve := ⟨fieldPoly [163, 7, 6, 3, 0], 0x1, 0x20A601907B8C953CA1481EB10512F78744A3205FD, 0x3F0EBA16286A2D57EA0991168D4994637E8343E36, 0xD51FBC6C71A0094FA2CDD545B11C5C0C797324F1, 0x40000000000000000000292FE77E70C12A4234C33⟩

/-- elliptic/x963/x963_curves.go:71-82. -/
def x963Ansit193r1 : BCurve := ⟨fieldPoly [193, 15, 0], 0x17858FEB7A98975169E171F77B4087DE098AC8A911DF7B01, 0xFDFB49BFE6C3A89FACADAA7A1E5BBC7CC1C2E5D831478814, 0x1F481BC5F0FF84A74AD6CDF6FDEF4BF6179625372D8C0C5E1, 0x25E399F2903712CCF3EA9E3A1AD17FB0B3201B6AF7CE1B05, 0x1000000000000000000000000C7F34A778F443ACC920EBA49⟩

/-- elliptic/x963/x963_curves.go:85-96. -/
def x963Ansit193r2 : BCurve := ⟨fieldPoly [193, 15, 0], 0x163F35A5137C2CE3EA6ED8667190B0BC43ECD69977702709B, 0xC9BB9E8927D4D64C377E2AB2856A5B16E3EFB7F61D4316AE, 0xD9B67D192E0367C803F39E1A7E82CA14A651350AAE617E8F, 0x1CE94335607C304AC29E7DEFBD9CA01F596F927224CDECF6C, 0x10000000000000000000000015AAB561B005413CCD4EE99D5⟩

/-- elliptic/x963/x963_curves.go:99-110. -/
def x963Ansit233k1 : BCurve := ⟨fieldPoly [233, 74, 0], 0x0, 0x1, 0x17232BA853A7E731AF129F22FF4149563A419C26BF50A4C9D6EEFAD6126, 0x1DB537DECE819B7F70F555A67C427A8CD9BF18AEB9B56E0C11056FAE6A3, 0x8000000000000000000000000000069D5BB915BCD46EFB1AD5F173ABDF⟩

/-- elliptic/x963/x963_curves.go:113-124. -/
def x963Ansit233r1 : BCurve := ⟨fieldPoly [233, 74, 0], 0x1, 0x66647EDE6C332C7F8C0923BB58213B333B20E9CE4281FE115F7D8F90AD, 0xFAC9DFCBAC8313BB2139F1BB755FEF65BC391F8B36F8F8EB7371FD558B, 0x1006A08A41903350678E58528BEBF8A0BEFF867A7CA36716F7E01F81052, 0x1000000000000000000000000000013E974E72F8A6922031D2603CFE0D7⟩

/-- elliptic/x963/x963_curves.go:127-138. -/
def x963Ansit239k1 : BCurve := ⟨fieldPoly [239, 158, 0], 0x0, 0x1, 0x29A0B6A887A983E9730988A68727A8B2D126C44CC2CC7B2A6555193035DC, 0x76310804F12E549BDB011C103089E73510ACB275FC312A5DC6B76553F0CA, 0x2000000000000000000000000000005A79FEC67CB6E91F1C1DA800E478A5⟩

/-- elliptic/x963/x963_curves.go:141-152. -/
def x963Ansit283k1 : BCurve := ⟨fieldPoly [283, 12, 7, 5, 0], 0x0, 0x1, 0x503213F78CA44883F1A3B8162F188E553CD265F23C1567A16876913B0C2AC2458492836, 0x1CCDA380F1C9E318D90F95D07E5426FE87E45C0E8184698E45962364E34116177DD2259, 0x1FFFFFFFFFFFFFFFFFFFFFFFFFFFFFFFFFFE9AE2ED07577265DFF7F94451E061E163C61⟩

/-- elliptic/x963/x963_curves.go:155-166. -/
def x963Ansit283r1 : BCurve := ⟨fieldPoly [283, 12, 7, 5, 0], 0x1, 0x27B680AC8B8596DA5A4AF8A19A0303FCA97FD7645309FA2A581485AF6263E313B79A2F5, 0x5F939258DB7DD90E1934F8C70B0DFEC2EED25B8557EAC9C80E2E198F8CDBECD86B12053, 0x3676854FE24141CB98FE6D4B20D02B4516FF702350EDDB0826779C813F0DF45BE8112F4, 0x3FFFFFFFFFFFFFFFFFFFFFFFFFFFFFFFFFFEF90399660FC938A90165B042A7CEFADB307⟩

/-- elliptic/x963/x963_curves.go:169-180. -/
def x963Ansit409k1 : BCurve := ⟨fieldPoly [409, 87, 0], 0x0, 0x1, 0x60F05F658F49C1AD3AB1890F7184210EFD0987E307C84C27ACCFB8F9F67CC2C460189EB5AAAA62EE222EB1B35540CFE9023746, 0x1E369050B7C4E42ACBA1DACBF04299C3460782F918EA427E6325165E9EA10E3DA5F6C42E9C55215AA9CA27A5863EC48D8E0286B, 0x7FFFFFFFFFFFFFFFFFFFFFFFFFFFFFFFFFFFFFFFFFFFFFFFFFFE5F83B2D4EA20400EC4557D5ED3E3E7CA5B4B5C83B8E01E5FCF⟩

/-- elliptic/x963/x963_curves.go:183-194. -/
def x963Ansit409r1 : BCurve := ⟨fieldPoly [409, 87, 0], 0x1, 0x21A5C2C8EE9FEB5C4B9A753B7B476B7FD6422EF1F3DD674761FA99D6AC27C8A9A197B272822F6CD57A55AA4F50AE317B13545F, 0x15D4860D088DDB3496B0C6064756260441CDE4AF1771D4DB01FFE5B34E59703DC255A868A1180515603AEAB60794E54BB7996A7, 0x61B1CFAB6BE5F32BBFA78324ED106A7636B9C5A7BD198D0158AA4F5488D08F38514F1FDF4B4F40D2181B3681C364BA0273C706, 0x10000000000000000000000000000000000000000000000000001E2AAD6A612F33307BE5FA47C3C9E052F838164CD37D9A21173⟩

/-- elliptic/x963/x963_curves.go:197-208. -/
def x963Ansit571k1 : BCurve := ⟨fieldPoly [571, 10, 5, 2, 0], 0x0, 0x1, 0x26EB7A859923FBC82189631F8103FE4AC9CA2970012D5D46024804801841CA44370958493B205E647DA304DB4CEB08CBBD1BA39494776FB988B47174DCA88C7E2945283A01C8972, 0x349DC807F4FBF374F4AEADE3BCA95314DD58CEC9F307A54FFC61EFC006D8A2C9D4979C0AC44AEA74FBEBBB9F772AEDCB620B01A7BA7AF1B320430C8591984F601CD4C143EF1C7A3, 0x20000000000000000000000000000000000000000000000000000000000000000000000131850E1F19A63E4B391A8DB917F4138B630D84BE5D639381E91DEB45CFE778F637C1001⟩

/-- elliptic/x963/x963_curves.go:211-222. -/
def x963Ansit571r1 : BCurve := ⟨fieldPoly [571, 10, 5, 2, 0], 0x1, 0x2F40E7E2221F295DE297117B7F3D62F5C6A97FFCB8CEFF1CD6BA8CE4A9A18AD84FFABBD8EFA59332BE7AD6756A66E294AFD185A78FF12AA520E4DE739BACA0C7FFEFF7F2955727A, 0x303001D34B856296C16C0D40D3CD7750A93D1D2955FA80AA5F40FC8DB7B2ABDBDE53950F4C0D293CDD711A35B67FB1499AE60038614F1394ABFA3B4C850D927E1E7769C8EEC2D19, 0x37BF27342DA639B6DCCFFFEB73D69D78C6C27A6009CBBCA1980F8533921E8A684423E43BAB08A576291AF8F461BB2A8B3531D2F0485C19B16E2F1516E23DD3C1A4827AF1B8AC15B, 0x3FFFFFFFFFFFFFFFFFFFFFFFFFFFFFFFFFFFFFFFFFFFFFFFFFFFFFFFFFFFFFFFFFFFFFFE661CE18FF55987308059B186823851EC7DD9CA1161DE93D5174D66E8382E9BB2FE84E47⟩

/-- The curves over prime fields other than those in `badPrime`. -/
def prime : List PCurve := [secpSecp112r1, secpSecp128r1, secpSecp160r1, secpSecp160r2, secpP192, weierstrassP160r1, weierstrassP160r2, weierstrassP192r1, numsP256d1, 
  numsP384d1, numsP512d1, tomP256, tomP384, frp256v1FRP256v1, brainpoolP160t1, brainpoolP192t1, brainpoolP224t1, brainpoolP256t1, 
  brainpoolP320t1, brainpoolP384t1, brainpoolP512t1, bignP256v1, bignP384v1, bignP512v1]

/-- Three curves over prime fields. -/
def badPrime : List PCurve := [secpSecp112r2, secpSecp128r2, tomP521]

/-- The curves of elliptic/brainpool with an r in the name. -/
def brainpoolR : List RCurve := [brainpoolP160r1, brainpoolP192r1, brainpoolP224r1, brainpoolP256r1, brainpoolP320r1, brainpoolP384r1, brainpoolP512r1]

/-- The curves of elliptic/nums with a t in the name. -/
def numsT : List RCurve := [numsP256t1, numsP384t1, numsP512t1]

/-- The curves over binary fields other than those in `badBinary`, with the number of bits that is given for the field. -/
def binary : List (BCurve × Nat) := [(nistK163, 163), (nistB163, 163), (nistK233, 233), (nistB233, 233), (nistK283, 283), (nistB283, 283), (nistK409, 409), (nistB409, 409), 
  (nistK571, 571), (nistB571, 571), (secgSect113r1, 113), (secgSect113r2, 113), (secgSect131r1, 131), (secgSect131r2, 131), 
  (secgSect163k1, 163), (secgSect163r1, 163), (secgSect163r2, 163), (secgSect193r1, 193), (secgSect193r2, 193), (secgSect233k1, 233), 
  (secgSect233r1, 233), (secgSect239k1, 239), (secgSect283k1, 283), (secgSect283r1, 283), (secgSect409k1, 409), (secgSect409r1, 409), 
  (secgSect571k1, 571), (secgSect571r1, 571), (wtlsWapwsgidmecidwtls1, 113), (wtlsWapwsgidmecidwtls3, 163), (wtlsWapwsgidmecidwtls4, 113), 
  (wtlsWapwsgidmecidwtls5, 163), (wtlsWapwsgidmecidwtls10, 233), (wtlsWapwsgidmecidwtls11, 233), (x962C2pnb176w1, 176), 
  (x962C2pnb163v1, 163), (x962C2pnb163v2, 163), (x962C2pnb163v3, 163), (x962C2pnb208w1, 208), (x962C2tnb191v3, 191), (x962C2tnb191v2, 191), 
  (x962C2tnb191v1, 191), (x962C2tnb239v3, 239), (x962C2tnb239v2, 239), (x962C2tnb239v1, 239), (x962C2pnb272w1, 272), (x962C2pnb304w1, 304), 
  (x962C2pnb368w1, 368), (x962C2tnb359v1, 359), (x962C2tnb431r1, 431), (x963Ansit163k1, 163), (x963Ansit163r1, 163), (x963Ansit163r2, 163), 
  (x963Ansit193r1, 193), (x963Ansit193r2, 193), (x963Ansit233k1, 233), (x963Ansit233r1, 233), (x963Ansit239k1, 239), (x963Ansit283k1, 283), 
  (x963Ansit283r1, 283), (x963Ansit409k1, 409), (x963Ansit409r1, 409), (x963Ansit571k1, 571), (x963Ansit571r1, 571)]

/-- Four curves of elliptic/x962. -/
def badBinary : List BCurve := [x962C2onb191v4, x962C2onb191v5, x962C2onb239v4, x962C2onb239v5]

end Verif.Ell.Named
