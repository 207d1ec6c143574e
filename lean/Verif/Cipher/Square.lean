import Verif.Cipher.Common2
/-
Model of cipher/square.
-/
namespace Verif.Cipher.Square
set_option maxRecDepth 100000

abbrev W := BitVec 32
abbrev St := W × W × W × W

/-- `Se` (cipher/square/tabs.go:3-36). -/
def SeTab : List Byte := [
  0xb1, 0xce, 0xc3, 0x95, 0x5a, 0xad, 0xe7, 0x2, 0x4d, 0x44, 0xfb, 0x91, 0xc, 0x87, 0xa1, 0x50,
  0xcb, 0x67, 0x54, 0xdd, 0x46, 0x8f, 0xe1, 0x4e, 0xf0, 0xfd, 0xfc, 0xeb, 0xf9, 0xc4, 0x1a, 0x6e,
  0x5e, 0xf5, 0xcc, 0x8d, 0x1c, 0x56, 0x43, 0xfe, 0x7, 0x61, 0xf8, 0x75, 0x59, 0xff, 0x3, 0x22,
  0x8a, 0xd1, 0x13, 0xee, 0x88, 0x0, 0xe, 0x34, 0x15, 0x80, 0x94, 0xe3, 0xed, 0xb5, 0x53, 0x23,
  0x4b, 0x47, 0x17, 0xa7, 0x90, 0x35, 0xab, 0xd8, 0xb8, 0xdf, 0x4f, 0x57, 0x9a, 0x92, 0xdb, 0x1b,
  0x3c, 0xc8, 0x99, 0x4, 0x8e, 0xe0, 0xd7, 0x7d, 0x85, 0xbb, 0x40, 0x2c, 0x3a, 0x45, 0xf1, 0x42,
  0x65, 0x20, 0x41, 0x18, 0x72, 0x25, 0x93, 0x70, 0x36, 0x5, 0xf2, 0xb, 0xa3, 0x79, 0xec, 0x8,
  0x27, 0x31, 0x32, 0xb6, 0x7c, 0xb0, 0xa, 0x73, 0x5b, 0x7b, 0xb7, 0x81, 0xd2, 0xd, 0x6a, 0x26,
  0x9e, 0x58, 0x9c, 0x83, 0x74, 0xb3, 0xac, 0x30, 0x7a, 0x69, 0x77, 0xf, 0xae, 0x21, 0xde, 0xd0,
  0x2e, 0x97, 0x10, 0xa4, 0x98, 0xa8, 0xd4, 0x68, 0x2d, 0x62, 0x29, 0x6d, 0x16, 0x49, 0x76, 0xc7,
  0xe8, 0xc1, 0x96, 0x37, 0xe5, 0xca, 0xf4, 0xe9, 0x63, 0x12, 0xc2, 0xa6, 0x14, 0xbc, 0xd3, 0x28,
  0xaf, 0x2f, 0xe6, 0x24, 0x52, 0xc6, 0xa0, 0x9, 0xbd, 0x8c, 0xcf, 0x5d, 0x11, 0x5f, 0x1, 0xc5,
  0x9f, 0x3d, 0xa2, 0x9b, 0xc9, 0x3b, 0xbe, 0x51, 0x19, 0x1f, 0x3f, 0x5c, 0xb2, 0xef, 0x4a, 0xcd,
  0xbf, 0xba, 0x6f, 0x64, 0xd9, 0xf3, 0x3e, 0xb4, 0xaa, 0xdc, 0xd5, 0x6, 0xc0, 0x7e, 0xf6, 0x66,
  0x6c, 0x84, 0x71, 0x38, 0xb9, 0x1d, 0x7f, 0x9d, 0x48, 0x8b, 0x2a, 0xda, 0xa5, 0x33, 0x82, 0x39,
  0xd6, 0x78, 0x86, 0xfa, 0xe4, 0x2b, 0xa9, 0x1e, 0x89, 0x60, 0x6b, 0xea, 0x55, 0x4c, 0xf7, 0xe2]
/-- `Sd` (cipher/square/tabs.go:38-71). -/
def SdTab : List Byte := [
  0x35, 0xbe, 0x7, 0x2e, 0x53, 0x69, 0xdb, 0x28, 0x6f, 0xb7, 0x76, 0x6b, 0xc, 0x7d, 0x36, 0x8b,
  0x92, 0xbc, 0xa9, 0x32, 0xac, 0x38, 0x9c, 0x42, 0x63, 0xc8, 0x1e, 0x4f, 0x24, 0xe5, 0xf7, 0xc9,
  0x61, 0x8d, 0x2f, 0x3f, 0xb3, 0x65, 0x7f, 0x70, 0xaf, 0x9a, 0xea, 0xf5, 0x5b, 0x98, 0x90, 0xb1,
  0x87, 0x71, 0x72, 0xed, 0x37, 0x45, 0x68, 0xa3, 0xe3, 0xef, 0x5c, 0xc5, 0x50, 0xc1, 0xd6, 0xca,
  0x5a, 0x62, 0x5f, 0x26, 0x9, 0x5d, 0x14, 0x41, 0xe8, 0x9d, 0xce, 0x40, 0xfd, 0x8, 0x17, 0x4a,
  0xf, 0xc7, 0xb4, 0x3e, 0x12, 0xfc, 0x25, 0x4b, 0x81, 0x2c, 0x4, 0x78, 0xcb, 0xbb, 0x20, 0xbd,
  0xf9, 0x29, 0x99, 0xa8, 0xd3, 0x60, 0xdf, 0x11, 0x97, 0x89, 0x7e, 0xfa, 0xe0, 0x9b, 0x1f, 0xd2,
  0x67, 0xe2, 0x64, 0x77, 0x84, 0x2b, 0x9e, 0x8a, 0xf1, 0x6d, 0x88, 0x79, 0x74, 0x57, 0xdd, 0xe6,
  0x39, 0x7b, 0xee, 0x83, 0xe1, 0x58, 0xf2, 0xd, 0x34, 0xf8, 0x30, 0xe9, 0xb9, 0x23, 0x54, 0x15,
  0x44, 0xb, 0x4d, 0x66, 0x3a, 0x3, 0xa2, 0x91, 0x94, 0x52, 0x4c, 0xc3, 0x82, 0xe7, 0x80, 0xc0,
  0xb6, 0xe, 0xc2, 0x6c, 0x93, 0xec, 0xab, 0x43, 0x95, 0xf6, 0xd8, 0x46, 0x86, 0x5, 0x8c, 0xb0,
  0x75, 0x0, 0xcc, 0x85, 0xd7, 0x3d, 0x73, 0x7a, 0x48, 0xe4, 0xd1, 0x59, 0xad, 0xb8, 0xc6, 0xd0,
  0xdc, 0xa1, 0xaa, 0x2, 0x1d, 0xbf, 0xb5, 0x9f, 0x51, 0xc4, 0xa5, 0x10, 0x22, 0xcf, 0x1, 0xba,
  0x8f, 0x31, 0x7c, 0xae, 0x96, 0xda, 0xf0, 0x56, 0x47, 0xd4, 0xeb, 0x4e, 0xd9, 0x13, 0x8e, 0x49,
  0x55, 0x16, 0xff, 0x3b, 0xf4, 0xa4, 0xb2, 0x6, 0xa0, 0xa7, 0xfb, 0x1b, 0x6e, 0x3c, 0x33, 0xcd,
  0x18, 0x5e, 0x6a, 0xd5, 0xa6, 0x21, 0xde, 0xfe, 0x2a, 0x1c, 0xf3, 0xa, 0x1a, 0x19, 0x27, 0x2d]
/-- `phi` (cipher/square/tabs.go:73-138). -/
def phiTab : List W := [
  0x0, 0x2010103, 0x4020206, 0x6030305, 0x804040c, 0xa05050f, 0xc06060a, 0xe070709,
  0x10080818, 0x1209091b, 0x140a0a1e, 0x160b0b1d, 0x180c0c14, 0x1a0d0d17, 0x1c0e0e12, 0x1e0f0f11,
  0x20101030, 0x22111133, 0x24121236, 0x26131335, 0x2814143c, 0x2a15153f, 0x2c16163a, 0x2e171739,
  0x30181828, 0x3219192b, 0x341a1a2e, 0x361b1b2d, 0x381c1c24, 0x3a1d1d27, 0x3c1e1e22, 0x3e1f1f21,
  0x40202060, 0x42212163, 0x44222266, 0x46232365, 0x4824246c, 0x4a25256f, 0x4c26266a, 0x4e272769,
  0x50282878, 0x5229297b, 0x542a2a7e, 0x562b2b7d, 0x582c2c74, 0x5a2d2d77, 0x5c2e2e72, 0x5e2f2f71,
  0x60303050, 0x62313153, 0x64323256, 0x66333355, 0x6834345c, 0x6a35355f, 0x6c36365a, 0x6e373759,
  0x70383848, 0x7239394b, 0x743a3a4e, 0x763b3b4d, 0x783c3c44, 0x7a3d3d47, 0x7c3e3e42, 0x7e3f3f41,
  0x804040c0, 0x824141c3, 0x844242c6, 0x864343c5, 0x884444cc, 0x8a4545cf, 0x8c4646ca, 0x8e4747c9,
  0x904848d8, 0x924949db, 0x944a4ade, 0x964b4bdd, 0x984c4cd4, 0x9a4d4dd7, 0x9c4e4ed2, 0x9e4f4fd1,
  0xa05050f0, 0xa25151f3, 0xa45252f6, 0xa65353f5, 0xa85454fc, 0xaa5555ff, 0xac5656fa, 0xae5757f9,
  0xb05858e8, 0xb25959eb, 0xb45a5aee, 0xb65b5bed, 0xb85c5ce4, 0xba5d5de7, 0xbc5e5ee2, 0xbe5f5fe1,
  0xc06060a0, 0xc26161a3, 0xc46262a6, 0xc66363a5, 0xc86464ac, 0xca6565af, 0xcc6666aa, 0xce6767a9,
  0xd06868b8, 0xd26969bb, 0xd46a6abe, 0xd66b6bbd, 0xd86c6cb4, 0xda6d6db7, 0xdc6e6eb2, 0xde6f6fb1,
  0xe0707090, 0xe2717193, 0xe4727296, 0xe6737395, 0xe874749c, 0xea75759f, 0xec76769a, 0xee777799,
  0xf0787888, 0xf279798b, 0xf47a7a8e, 0xf67b7b8d, 0xf87c7c84, 0xfa7d7d87, 0xfc7e7e82, 0xfe7f7f81,
  0xf5808075, 0xf7818176, 0xf1828273, 0xf3838370, 0xfd848479, 0xff85857a, 0xf986867f, 0xfb87877c,
  0xe588886d, 0xe789896e, 0xe18a8a6b, 0xe38b8b68, 0xed8c8c61, 0xef8d8d62, 0xe98e8e67, 0xeb8f8f64,
  0xd5909045, 0xd7919146, 0xd1929243, 0xd3939340, 0xdd949449, 0xdf95954a, 0xd996964f, 0xdb97974c,
  0xc598985d, 0xc799995e, 0xc19a9a5b, 0xc39b9b58, 0xcd9c9c51, 0xcf9d9d52, 0xc99e9e57, 0xcb9f9f54,
  0xb5a0a015, 0xb7a1a116, 0xb1a2a213, 0xb3a3a310, 0xbda4a419, 0xbfa5a51a, 0xb9a6a61f, 0xbba7a71c,
  0xa5a8a80d, 0xa7a9a90e, 0xa1aaaa0b, 0xa3abab08, 0xadacac01, 0xafadad02, 0xa9aeae07, 0xabafaf04,
  0x95b0b025, 0x97b1b126, 0x91b2b223, 0x93b3b320, 0x9db4b429, 0x9fb5b52a, 0x99b6b62f, 0x9bb7b72c,
  0x85b8b83d, 0x87b9b93e, 0x81baba3b, 0x83bbbb38, 0x8dbcbc31, 0x8fbdbd32, 0x89bebe37, 0x8bbfbf34,
  0x75c0c0b5, 0x77c1c1b6, 0x71c2c2b3, 0x73c3c3b0, 0x7dc4c4b9, 0x7fc5c5ba, 0x79c6c6bf, 0x7bc7c7bc,
  0x65c8c8ad, 0x67c9c9ae, 0x61cacaab, 0x63cbcba8, 0x6dcccca1, 0x6fcdcda2, 0x69cecea7, 0x6bcfcfa4,
  0x55d0d085, 0x57d1d186, 0x51d2d283, 0x53d3d380, 0x5dd4d489, 0x5fd5d58a, 0x59d6d68f, 0x5bd7d78c,
  0x45d8d89d, 0x47d9d99e, 0x41dada9b, 0x43dbdb98, 0x4ddcdc91, 0x4fdddd92, 0x49dede97, 0x4bdfdf94,
  0x35e0e0d5, 0x37e1e1d6, 0x31e2e2d3, 0x33e3e3d0, 0x3de4e4d9, 0x3fe5e5da, 0x39e6e6df, 0x3be7e7dc,
  0x25e8e8cd, 0x27e9e9ce, 0x21eaeacb, 0x23ebebc8, 0x2dececc1, 0x2fededc2, 0x29eeeec7, 0x2befefc4,
  0x15f0f0e5, 0x17f1f1e6, 0x11f2f2e3, 0x13f3f3e0, 0x1df4f4e9, 0x1ff5f5ea, 0x19f6f6ef, 0x1bf7f7ec,
  0x5f8f8fd, 0x7f9f9fe, 0x1fafafb, 0x3fbfbf8, 0xdfcfcf1, 0xffdfdf2, 0x9fefef7, 0xbfffff4]
/-- `Te0` (cipher/square/tabs.go:145-210). -/
def Te0Tab : List W := [
  0x97b1b126, 0x69cecea7, 0x73c3c3b0, 0xdf95954a, 0xb45a5aee, 0xafadad02, 0x3be7e7dc, 0x4020206,
  0x9a4d4dd7, 0x884444cc, 0x3fbfbf8, 0xd7919146, 0x180c0c14, 0xfb87877c, 0xb7a1a116, 0xa05050f0,
  0x63cbcba8, 0xce6767a9, 0xa85454fc, 0x4fdddd92, 0x8c4646ca, 0xeb8f8f64, 0x37e1e1d6, 0x9c4e4ed2,
  0x15f0f0e5, 0xffdfdf2, 0xdfcfcf1, 0x23ebebc8, 0x7f9f9fe, 0x7dc4c4b9, 0x341a1a2e, 0xdc6e6eb2,
  0xbc5e5ee2, 0x1ff5f5ea, 0x6dcccca1, 0xef8d8d62, 0x381c1c24, 0xac5656fa, 0x864343c5, 0x9fefef7,
  0xe070709, 0xc26161a3, 0x5f8f8fd, 0xea75759f, 0xb25959eb, 0xbfffff4, 0x6030305, 0x44222266,
  0xe18a8a6b, 0x57d1d186, 0x26131335, 0x29eeeec7, 0xe588886d, 0x0, 0x1c0e0e12, 0x6834345c,
  0x2a15153f, 0xf5808075, 0xdd949449, 0x33e3e3d0, 0x2fededc2, 0x9fb5b52a, 0xa65353f5, 0x46232365,
  0x964b4bdd, 0x8e4747c9, 0x2e171739, 0xbba7a71c, 0xd5909045, 0x6a35355f, 0xa3abab08, 0x45d8d89d,
  0x85b8b83d, 0x4bdfdf94, 0x9e4f4fd1, 0xae5757f9, 0xc19a9a5b, 0xd1929243, 0x43dbdb98, 0x361b1b2d,
  0x783c3c44, 0x65c8c8ad, 0xc799995e, 0x804040c, 0xe98e8e67, 0x35e0e0d5, 0x5bd7d78c, 0xfa7d7d87,
  0xff85857a, 0x83bbbb38, 0x804040c0, 0x582c2c74, 0x743a3a4e, 0x8a4545cf, 0x17f1f1e6, 0x844242c6,
  0xca6565af, 0x40202060, 0x824141c3, 0x30181828, 0xe4727296, 0x4a25256f, 0xd3939340, 0xe0707090,
  0x6c36365a, 0xa05050f, 0x11f2f2e3, 0x160b0b1d, 0xb3a3a310, 0xf279798b, 0x2dececc1, 0x10080818,
  0x4e272769, 0x62313153, 0x64323256, 0x99b6b62f, 0xf87c7c84, 0x95b0b025, 0x140a0a1e, 0xe6737395,
  0xb65b5bed, 0xf67b7b8d, 0x9bb7b72c, 0xf7818176, 0x51d2d283, 0x1a0d0d17, 0xd46a6abe, 0x4c26266a,
  0xc99e9e57, 0xb05858e8, 0xcd9c9c51, 0xf3838370, 0xe874749c, 0x93b3b320, 0xadacac01, 0x60303050,
  0xf47a7a8e, 0xd26969bb, 0xee777799, 0x1e0f0f11, 0xa9aeae07, 0x42212163, 0x49dede97, 0x55d0d085,
  0x5c2e2e72, 0xdb97974c, 0x20101030, 0xbda4a419, 0xc598985d, 0xa5a8a80d, 0x5dd4d489, 0xd06868b8,
  0x5a2d2d77, 0xc46262a6, 0x5229297b, 0xda6d6db7, 0x2c16163a, 0x924949db, 0xec76769a, 0x7bc7c7bc,
  0x25e8e8cd, 0x77c1c1b6, 0xd996964f, 0x6e373759, 0x3fe5e5da, 0x61cacaab, 0x1df4f4e9, 0x27e9e9ce,
  0xc66363a5, 0x24121236, 0x71c2c2b3, 0xb9a6a61f, 0x2814143c, 0x8dbcbc31, 0x53d3d380, 0x50282878,
  0xabafaf04, 0x5e2f2f71, 0x39e6e6df, 0x4824246c, 0xa45252f6, 0x79c6c6bf, 0xb5a0a015, 0x1209091b,
  0x8fbdbd32, 0xed8c8c61, 0x6bcfcfa4, 0xba5d5de7, 0x22111133, 0xbe5f5fe1, 0x2010103, 0x7fc5c5ba,
  0xcb9f9f54, 0x7a3d3d47, 0xb1a2a213, 0xc39b9b58, 0x67c9c9ae, 0x763b3b4d, 0x89bebe37, 0xa25151f3,
  0x3219192b, 0x3e1f1f21, 0x7e3f3f41, 0xb85c5ce4, 0x91b2b223, 0x2befefc4, 0x944a4ade, 0x6fcdcda2,
  0x8bbfbf34, 0x81baba3b, 0xde6f6fb1, 0xc86464ac, 0x47d9d99e, 0x13f3f3e0, 0x7c3e3e42, 0x9db4b429,
  0xa1aaaa0b, 0x4ddcdc91, 0x5fd5d58a, 0xc06060a, 0x75c0c0b5, 0xfc7e7e82, 0x19f6f6ef, 0xcc6666aa,
  0xd86c6cb4, 0xfd848479, 0xe2717193, 0x70383848, 0x87b9b93e, 0x3a1d1d27, 0xfe7f7f81, 0xcf9d9d52,
  0x904848d8, 0xe38b8b68, 0x542a2a7e, 0x41dada9b, 0xbfa5a51a, 0x66333355, 0xf1828273, 0x7239394b,
  0x59d6d68f, 0xf0787888, 0xf986867f, 0x1fafafb, 0x3de4e4d9, 0x562b2b7d, 0xa7a9a90e, 0x3c1e1e22,
  0xe789896e, 0xc06060a0, 0xd66b6bbd, 0x21eaeacb, 0xaa5555ff, 0x984c4cd4, 0x1bf7f7ec, 0x31e2e2d3]
/-- `Te1` (cipher/square/tabs.go:212-277). -/
def Te1Tab : List W := [
  0x2697b1b1, 0xa769cece, 0xb073c3c3, 0x4adf9595, 0xeeb45a5a, 0x2afadad, 0xdc3be7e7, 0x6040202,
  0xd79a4d4d, 0xcc884444, 0xf803fbfb, 0x46d79191, 0x14180c0c, 0x7cfb8787, 0x16b7a1a1, 0xf0a05050,
  0xa863cbcb, 0xa9ce6767, 0xfca85454, 0x924fdddd, 0xca8c4646, 0x64eb8f8f, 0xd637e1e1, 0xd29c4e4e,
  0xe515f0f0, 0xf20ffdfd, 0xf10dfcfc, 0xc823ebeb, 0xfe07f9f9, 0xb97dc4c4, 0x2e341a1a, 0xb2dc6e6e,
  0xe2bc5e5e, 0xea1ff5f5, 0xa16dcccc, 0x62ef8d8d, 0x24381c1c, 0xfaac5656, 0xc5864343, 0xf709fefe,
  0x90e0707, 0xa3c26161, 0xfd05f8f8, 0x9fea7575, 0xebb25959, 0xf40bffff, 0x5060303, 0x66442222,
  0x6be18a8a, 0x8657d1d1, 0x35261313, 0xc729eeee, 0x6de58888, 0x0, 0x121c0e0e, 0x5c683434,
  0x3f2a1515, 0x75f58080, 0x49dd9494, 0xd033e3e3, 0xc22feded, 0x2a9fb5b5, 0xf5a65353, 0x65462323,
  0xdd964b4b, 0xc98e4747, 0x392e1717, 0x1cbba7a7, 0x45d59090, 0x5f6a3535, 0x8a3abab, 0x9d45d8d8,
  0x3d85b8b8, 0x944bdfdf, 0xd19e4f4f, 0xf9ae5757, 0x5bc19a9a, 0x43d19292, 0x9843dbdb, 0x2d361b1b,
  0x44783c3c, 0xad65c8c8, 0x5ec79999, 0xc080404, 0x67e98e8e, 0xd535e0e0, 0x8c5bd7d7, 0x87fa7d7d,
  0x7aff8585, 0x3883bbbb, 0xc0804040, 0x74582c2c, 0x4e743a3a, 0xcf8a4545, 0xe617f1f1, 0xc6844242,
  0xafca6565, 0x60402020, 0xc3824141, 0x28301818, 0x96e47272, 0x6f4a2525, 0x40d39393, 0x90e07070,
  0x5a6c3636, 0xf0a0505, 0xe311f2f2, 0x1d160b0b, 0x10b3a3a3, 0x8bf27979, 0xc12decec, 0x18100808,
  0x694e2727, 0x53623131, 0x56643232, 0x2f99b6b6, 0x84f87c7c, 0x2595b0b0, 0x1e140a0a, 0x95e67373,
  0xedb65b5b, 0x8df67b7b, 0x2c9bb7b7, 0x76f78181, 0x8351d2d2, 0x171a0d0d, 0xbed46a6a, 0x6a4c2626,
  0x57c99e9e, 0xe8b05858, 0x51cd9c9c, 0x70f38383, 0x9ce87474, 0x2093b3b3, 0x1adacac, 0x50603030,
  0x8ef47a7a, 0xbbd26969, 0x99ee7777, 0x111e0f0f, 0x7a9aeae, 0x63422121, 0x9749dede, 0x8555d0d0,
  0x725c2e2e, 0x4cdb9797, 0x30201010, 0x19bda4a4, 0x5dc59898, 0xda5a8a8, 0x895dd4d4, 0xb8d06868,
  0x775a2d2d, 0xa6c46262, 0x7b522929, 0xb7da6d6d, 0x3a2c1616, 0xdb924949, 0x9aec7676, 0xbc7bc7c7,
  0xcd25e8e8, 0xb677c1c1, 0x4fd99696, 0x596e3737, 0xda3fe5e5, 0xab61caca, 0xe91df4f4, 0xce27e9e9,
  0xa5c66363, 0x36241212, 0xb371c2c2, 0x1fb9a6a6, 0x3c281414, 0x318dbcbc, 0x8053d3d3, 0x78502828,
  0x4abafaf, 0x715e2f2f, 0xdf39e6e6, 0x6c482424, 0xf6a45252, 0xbf79c6c6, 0x15b5a0a0, 0x1b120909,
  0x328fbdbd, 0x61ed8c8c, 0xa46bcfcf, 0xe7ba5d5d, 0x33221111, 0xe1be5f5f, 0x3020101, 0xba7fc5c5,
  0x54cb9f9f, 0x477a3d3d, 0x13b1a2a2, 0x58c39b9b, 0xae67c9c9, 0x4d763b3b, 0x3789bebe, 0xf3a25151,
  0x2b321919, 0x213e1f1f, 0x417e3f3f, 0xe4b85c5c, 0x2391b2b2, 0xc42befef, 0xde944a4a, 0xa26fcdcd,
  0x348bbfbf, 0x3b81baba, 0xb1de6f6f, 0xacc86464, 0x9e47d9d9, 0xe013f3f3, 0x427c3e3e, 0x299db4b4,
  0xba1aaaa, 0x914ddcdc, 0x8a5fd5d5, 0xa0c0606, 0xb575c0c0, 0x82fc7e7e, 0xef19f6f6, 0xaacc6666,
  0xb4d86c6c, 0x79fd8484, 0x93e27171, 0x48703838, 0x3e87b9b9, 0x273a1d1d, 0x81fe7f7f, 0x52cf9d9d,
  0xd8904848, 0x68e38b8b, 0x7e542a2a, 0x9b41dada, 0x1abfa5a5, 0x55663333, 0x73f18282, 0x4b723939,
  0x8f59d6d6, 0x88f07878, 0x7ff98686, 0xfb01fafa, 0xd93de4e4, 0x7d562b2b, 0xea7a9a9, 0x223c1e1e,
  0x6ee78989, 0xa0c06060, 0xbdd66b6b, 0xcb21eaea, 0xffaa5555, 0xd4984c4c, 0xec1bf7f7, 0xd331e2e2]
/-- `Te2` (cipher/square/tabs.go:279-344). -/
def Te2Tab : List W := [
  0xb12697b1, 0xcea769ce, 0xc3b073c3, 0x954adf95, 0x5aeeb45a, 0xad02afad, 0xe7dc3be7, 0x2060402,
  0x4dd79a4d, 0x44cc8844, 0xfbf803fb, 0x9146d791, 0xc14180c, 0x877cfb87, 0xa116b7a1, 0x50f0a050,
  0xcba863cb, 0x67a9ce67, 0x54fca854, 0xdd924fdd, 0x46ca8c46, 0x8f64eb8f, 0xe1d637e1, 0x4ed29c4e,
  0xf0e515f0, 0xfdf20ffd, 0xfcf10dfc, 0xebc823eb, 0xf9fe07f9, 0xc4b97dc4, 0x1a2e341a, 0x6eb2dc6e,
  0x5ee2bc5e, 0xf5ea1ff5, 0xcca16dcc, 0x8d62ef8d, 0x1c24381c, 0x56faac56, 0x43c58643, 0xfef709fe,
  0x7090e07, 0x61a3c261, 0xf8fd05f8, 0x759fea75, 0x59ebb259, 0xfff40bff, 0x3050603, 0x22664422,
  0x8a6be18a, 0xd18657d1, 0x13352613, 0xeec729ee, 0x886de588, 0x0, 0xe121c0e, 0x345c6834,
  0x153f2a15, 0x8075f580, 0x9449dd94, 0xe3d033e3, 0xedc22fed, 0xb52a9fb5, 0x53f5a653, 0x23654623,
  0x4bdd964b, 0x47c98e47, 0x17392e17, 0xa71cbba7, 0x9045d590, 0x355f6a35, 0xab08a3ab, 0xd89d45d8,
  0xb83d85b8, 0xdf944bdf, 0x4fd19e4f, 0x57f9ae57, 0x9a5bc19a, 0x9243d192, 0xdb9843db, 0x1b2d361b,
  0x3c44783c, 0xc8ad65c8, 0x995ec799, 0x40c0804, 0x8e67e98e, 0xe0d535e0, 0xd78c5bd7, 0x7d87fa7d,
  0x857aff85, 0xbb3883bb, 0x40c08040, 0x2c74582c, 0x3a4e743a, 0x45cf8a45, 0xf1e617f1, 0x42c68442,
  0x65afca65, 0x20604020, 0x41c38241, 0x18283018, 0x7296e472, 0x256f4a25, 0x9340d393, 0x7090e070,
  0x365a6c36, 0x50f0a05, 0xf2e311f2, 0xb1d160b, 0xa310b3a3, 0x798bf279, 0xecc12dec, 0x8181008,
  0x27694e27, 0x31536231, 0x32566432, 0xb62f99b6, 0x7c84f87c, 0xb02595b0, 0xa1e140a, 0x7395e673,
  0x5bedb65b, 0x7b8df67b, 0xb72c9bb7, 0x8176f781, 0xd28351d2, 0xd171a0d, 0x6abed46a, 0x266a4c26,
  0x9e57c99e, 0x58e8b058, 0x9c51cd9c, 0x8370f383, 0x749ce874, 0xb32093b3, 0xac01adac, 0x30506030,
  0x7a8ef47a, 0x69bbd269, 0x7799ee77, 0xf111e0f, 0xae07a9ae, 0x21634221, 0xde9749de, 0xd08555d0,
  0x2e725c2e, 0x974cdb97, 0x10302010, 0xa419bda4, 0x985dc598, 0xa80da5a8, 0xd4895dd4, 0x68b8d068,
  0x2d775a2d, 0x62a6c462, 0x297b5229, 0x6db7da6d, 0x163a2c16, 0x49db9249, 0x769aec76, 0xc7bc7bc7,
  0xe8cd25e8, 0xc1b677c1, 0x964fd996, 0x37596e37, 0xe5da3fe5, 0xcaab61ca, 0xf4e91df4, 0xe9ce27e9,
  0x63a5c663, 0x12362412, 0xc2b371c2, 0xa61fb9a6, 0x143c2814, 0xbc318dbc, 0xd38053d3, 0x28785028,
  0xaf04abaf, 0x2f715e2f, 0xe6df39e6, 0x246c4824, 0x52f6a452, 0xc6bf79c6, 0xa015b5a0, 0x91b1209,
  0xbd328fbd, 0x8c61ed8c, 0xcfa46bcf, 0x5de7ba5d, 0x11332211, 0x5fe1be5f, 0x1030201, 0xc5ba7fc5,
  0x9f54cb9f, 0x3d477a3d, 0xa213b1a2, 0x9b58c39b, 0xc9ae67c9, 0x3b4d763b, 0xbe3789be, 0x51f3a251,
  0x192b3219, 0x1f213e1f, 0x3f417e3f, 0x5ce4b85c, 0xb22391b2, 0xefc42bef, 0x4ade944a, 0xcda26fcd,
  0xbf348bbf, 0xba3b81ba, 0x6fb1de6f, 0x64acc864, 0xd99e47d9, 0xf3e013f3, 0x3e427c3e, 0xb4299db4,
  0xaa0ba1aa, 0xdc914ddc, 0xd58a5fd5, 0x60a0c06, 0xc0b575c0, 0x7e82fc7e, 0xf6ef19f6, 0x66aacc66,
  0x6cb4d86c, 0x8479fd84, 0x7193e271, 0x38487038, 0xb93e87b9, 0x1d273a1d, 0x7f81fe7f, 0x9d52cf9d,
  0x48d89048, 0x8b68e38b, 0x2a7e542a, 0xda9b41da, 0xa51abfa5, 0x33556633, 0x8273f182, 0x394b7239,
  0xd68f59d6, 0x7888f078, 0x867ff986, 0xfafb01fa, 0xe4d93de4, 0x2b7d562b, 0xa90ea7a9, 0x1e223c1e,
  0x896ee789, 0x60a0c060, 0x6bbdd66b, 0xeacb21ea, 0x55ffaa55, 0x4cd4984c, 0xf7ec1bf7, 0xe2d331e2]
/-- `Te3` (cipher/square/tabs.go:346-411). -/
def Te3Tab : List W := [
  0xb1b12697, 0xcecea769, 0xc3c3b073, 0x95954adf, 0x5a5aeeb4, 0xadad02af, 0xe7e7dc3b, 0x2020604,
  0x4d4dd79a, 0x4444cc88, 0xfbfbf803, 0x919146d7, 0xc0c1418, 0x87877cfb, 0xa1a116b7, 0x5050f0a0,
  0xcbcba863, 0x6767a9ce, 0x5454fca8, 0xdddd924f, 0x4646ca8c, 0x8f8f64eb, 0xe1e1d637, 0x4e4ed29c,
  0xf0f0e515, 0xfdfdf20f, 0xfcfcf10d, 0xebebc823, 0xf9f9fe07, 0xc4c4b97d, 0x1a1a2e34, 0x6e6eb2dc,
  0x5e5ee2bc, 0xf5f5ea1f, 0xcccca16d, 0x8d8d62ef, 0x1c1c2438, 0x5656faac, 0x4343c586, 0xfefef709,
  0x707090e, 0x6161a3c2, 0xf8f8fd05, 0x75759fea, 0x5959ebb2, 0xfffff40b, 0x3030506, 0x22226644,
  0x8a8a6be1, 0xd1d18657, 0x13133526, 0xeeeec729, 0x88886de5, 0x0, 0xe0e121c, 0x34345c68,
  0x15153f2a, 0x808075f5, 0x949449dd, 0xe3e3d033, 0xededc22f, 0xb5b52a9f, 0x5353f5a6, 0x23236546,
  0x4b4bdd96, 0x4747c98e, 0x1717392e, 0xa7a71cbb, 0x909045d5, 0x35355f6a, 0xabab08a3, 0xd8d89d45,
  0xb8b83d85, 0xdfdf944b, 0x4f4fd19e, 0x5757f9ae, 0x9a9a5bc1, 0x929243d1, 0xdbdb9843, 0x1b1b2d36,
  0x3c3c4478, 0xc8c8ad65, 0x99995ec7, 0x4040c08, 0x8e8e67e9, 0xe0e0d535, 0xd7d78c5b, 0x7d7d87fa,
  0x85857aff, 0xbbbb3883, 0x4040c080, 0x2c2c7458, 0x3a3a4e74, 0x4545cf8a, 0xf1f1e617, 0x4242c684,
  0x6565afca, 0x20206040, 0x4141c382, 0x18182830, 0x727296e4, 0x25256f4a, 0x939340d3, 0x707090e0,
  0x36365a6c, 0x5050f0a, 0xf2f2e311, 0xb0b1d16, 0xa3a310b3, 0x79798bf2, 0xececc12d, 0x8081810,
  0x2727694e, 0x31315362, 0x32325664, 0xb6b62f99, 0x7c7c84f8, 0xb0b02595, 0xa0a1e14, 0x737395e6,
  0x5b5bedb6, 0x7b7b8df6, 0xb7b72c9b, 0x818176f7, 0xd2d28351, 0xd0d171a, 0x6a6abed4, 0x26266a4c,
  0x9e9e57c9, 0x5858e8b0, 0x9c9c51cd, 0x838370f3, 0x74749ce8, 0xb3b32093, 0xacac01ad, 0x30305060,
  0x7a7a8ef4, 0x6969bbd2, 0x777799ee, 0xf0f111e, 0xaeae07a9, 0x21216342, 0xdede9749, 0xd0d08555,
  0x2e2e725c, 0x97974cdb, 0x10103020, 0xa4a419bd, 0x98985dc5, 0xa8a80da5, 0xd4d4895d, 0x6868b8d0,
  0x2d2d775a, 0x6262a6c4, 0x29297b52, 0x6d6db7da, 0x16163a2c, 0x4949db92, 0x76769aec, 0xc7c7bc7b,
  0xe8e8cd25, 0xc1c1b677, 0x96964fd9, 0x3737596e, 0xe5e5da3f, 0xcacaab61, 0xf4f4e91d, 0xe9e9ce27,
  0x6363a5c6, 0x12123624, 0xc2c2b371, 0xa6a61fb9, 0x14143c28, 0xbcbc318d, 0xd3d38053, 0x28287850,
  0xafaf04ab, 0x2f2f715e, 0xe6e6df39, 0x24246c48, 0x5252f6a4, 0xc6c6bf79, 0xa0a015b5, 0x9091b12,
  0xbdbd328f, 0x8c8c61ed, 0xcfcfa46b, 0x5d5de7ba, 0x11113322, 0x5f5fe1be, 0x1010302, 0xc5c5ba7f,
  0x9f9f54cb, 0x3d3d477a, 0xa2a213b1, 0x9b9b58c3, 0xc9c9ae67, 0x3b3b4d76, 0xbebe3789, 0x5151f3a2,
  0x19192b32, 0x1f1f213e, 0x3f3f417e, 0x5c5ce4b8, 0xb2b22391, 0xefefc42b, 0x4a4ade94, 0xcdcda26f,
  0xbfbf348b, 0xbaba3b81, 0x6f6fb1de, 0x6464acc8, 0xd9d99e47, 0xf3f3e013, 0x3e3e427c, 0xb4b4299d,
  0xaaaa0ba1, 0xdcdc914d, 0xd5d58a5f, 0x6060a0c, 0xc0c0b575, 0x7e7e82fc, 0xf6f6ef19, 0x6666aacc,
  0x6c6cb4d8, 0x848479fd, 0x717193e2, 0x38384870, 0xb9b93e87, 0x1d1d273a, 0x7f7f81fe, 0x9d9d52cf,
  0x4848d890, 0x8b8b68e3, 0x2a2a7e54, 0xdada9b41, 0xa5a51abf, 0x33335566, 0x828273f1, 0x39394b72,
  0xd6d68f59, 0x787888f0, 0x86867ff9, 0xfafafb01, 0xe4e4d93d, 0x2b2b7d56, 0xa9a90ea7, 0x1e1e223c,
  0x89896ee7, 0x6060a0c0, 0x6b6bbdd6, 0xeaeacb21, 0x5555ffaa, 0x4c4cd498, 0xf7f7ec1b, 0xe2e2d331]
/-- `Td0` (cipher/square/tabs.go:413-478). -/
def Td0Tab : List W := [
  0xe368bc02, 0x5585620c, 0x2a3f2331, 0x61ab13f7, 0x98d46d72, 0x21cb9a19, 0x3c22a461, 0x459d3dcd,
  0x5fdb423, 0x2bc4075f, 0x9b2c01c0, 0x3dd9800f, 0x486c5c74, 0xf97f7e85, 0xf173ab1f, 0xb6edde0e,
  0x283c6bed, 0x4997781a, 0x9f2a918d, 0xc9579f33, 0xa907a8aa, 0xa50ded7d, 0x7c422d8f, 0x764db0c9,
  0x4d91e857, 0xcea963cc, 0xb4ee96d2, 0x3028e1b6, 0xdf161b9, 0xbd196726, 0x419bad80, 0xc0a06ec7,
  0x5183f241, 0x92dbf034, 0x6fa21efc, 0x8f32ce4c, 0x13e03373, 0x69a7c66d, 0xe56d6493, 0xbf1a2ffa,
  0xbb1cbfb7, 0x587403b5, 0xe76e2c4f, 0x5d89b796, 0xe89c052a, 0x446619a3, 0x342e71fb, 0xff22965,
  0xfe81827a, 0xb11322f1, 0xa30835ec, 0xcd510f7e, 0xff7aa614, 0x5c7293f8, 0x2fc29712, 0xf370e3c3,
  0x992f491c, 0xd1431568, 0xc2a3261b, 0x88cc32b3, 0x8acf7a6f, 0xb0e8069f, 0x7a47f51e, 0xd2bb79da,
  0xe6950821, 0x4398e55c, 0xd0b83106, 0x11e37baf, 0x7e416553, 0xccaa2b10, 0xd8b4e49c, 0x6456a7d4,
  0xfb7c3659, 0x724b2084, 0xea9f4df6, 0x6a5faadf, 0x2dc1dfce, 0x70486858, 0xcaaff381, 0x605d891,
  0x5a774b69, 0x94de28a5, 0x39df1042, 0x813bc347, 0xfc82caa6, 0x23c8d2c5, 0x3f86cb2, 0x80cd59a,
  0xdab7ac40, 0x7db909e1, 0x3824342c, 0xcf5247a2, 0xdcb274d1, 0x63a85b2b, 0x35d55595, 0x479e7511,
  0x15e5ebe2, 0x4b9430c6, 0x4a6f14a8, 0x91239c86, 0x4c6acc39, 0x5f8aff4a, 0x406904d, 0xee99ddbb,
  0x1e1152ca, 0xaaffc418, 0xeb646998, 0x7fefcff, 0x8b345e01, 0x567d0ebe, 0xbae79bd9, 0x4263c132,
  0x75b5dc7b, 0x97264417, 0x67aecb66, 0x95250ccb, 0xec9a9567, 0x57862ad0, 0x60503799, 0xb8e4d305,
  0x65ad83ba, 0x19efae35, 0xa4f6c913, 0xc15b4aa9, 0x873e1bd6, 0xa0f0595e, 0x18148a5b, 0xaf02703b,
  0xab04e076, 0xdd4950bf, 0xdf4a1863, 0xc6a5b656, 0x853d530a, 0xfa871237, 0x77b694a7, 0x4665517f,
  0xed61b109, 0x1bece6e9, 0xd5458525, 0xf5753b52, 0x7fba413d, 0x27ce4288, 0xb2eb4e43, 0xd6bde997,
  0x527b9ef3, 0x62537f45, 0x2c3afba0, 0x7bbcd170, 0xb91ff76b, 0x121b171d, 0xfd79eec8, 0x3a277cf0,
  0xc0a45d7, 0x96dd6079, 0x2233f6ab, 0xacfa1c89, 0xc8acbb5d, 0xa10b7d30, 0xd4bea14b, 0xbee10b94,
  0x25cd0a54, 0x547e4662, 0xa2f31182, 0x17e6a33e, 0x263566e6, 0xc3580275, 0x83388b9b, 0x7844bdc2,
  0x20348dc, 0x4f92a08b, 0x2e39b37c, 0x4e6984e5, 0xf0888f71, 0x362d3927, 0x9cd2fd3f, 0x1fb246e,
  0x893716dd, 0x0, 0xf68d57e0, 0xe293986c, 0x744ef815, 0x9320d45a, 0xad0138e7, 0xd3405db4,
  0x1a17c287, 0xb3106a2d, 0x5078d62f, 0xf48e1f3c, 0xa70ea5a1, 0x71b34c36, 0x9ad725ae, 0x5e71db24,
  0x161d8750, 0xef62f9d5, 0x8d318690, 0x1c121a16, 0xa6f581cf, 0x5b8c6f07, 0x37d61d49, 0x6e593a92,
  0x84c67764, 0x86c53fb8, 0xd746cdf9, 0xe090d0b0, 0x29c74f83, 0xe49640fd, 0xe090d0b, 0x6da15620,
  0x8ec9ea22, 0xdb4c882e, 0xf776738e, 0xb515b2bc, 0x10185fc1, 0x322ba96a, 0x6ba48eb1, 0xaef95455,
  0x406089ee, 0x6655ef08, 0xe9672144, 0x3e21ecbd, 0x2030be77, 0xf28bc7ad, 0x80c0e729, 0x141ecf8c,
  0xbce24348, 0xc4a6fe8a, 0x31d3c5d8, 0xb716fa60, 0x5380ba9d, 0xd94fc0f2, 0x1de93e78, 0x24362e3a,
  0xe16bf4de, 0xcb54d7ef, 0x9f7f1f4, 0x82c3aff5, 0xbf4b928, 0x9d29d951, 0xc75e9238, 0xf8845aeb,
  0x90d8b8e8, 0xdeb13c0d, 0x33d08d04, 0x685ce203, 0xc55ddae4, 0x3bdc589e, 0xa0f9d46, 0x3fdac8d3,
  0x598f27db, 0xa8fc8cc4, 0x79bf99ac, 0x6c5a724e, 0x8ccaa2fe, 0x9ed1b5e3, 0x1fea76a4, 0x73b004ea]
/-- `Td1` (cipher/square/tabs.go:480-545). -/
def Td1Tab : List W := [
  0x2e368bc, 0xc558562, 0x312a3f23, 0xf761ab13, 0x7298d46d, 0x1921cb9a, 0x613c22a4, 0xcd459d3d,
  0x2305fdb4, 0x5f2bc407, 0xc09b2c01, 0xf3dd980, 0x74486c5c, 0x85f97f7e, 0x1ff173ab, 0xeb6edde,
  0xed283c6b, 0x1a499778, 0x8d9f2a91, 0x33c9579f, 0xaaa907a8, 0x7da50ded, 0x8f7c422d, 0xc9764db0,
  0x574d91e8, 0xcccea963, 0xd2b4ee96, 0xb63028e1, 0xb90df161, 0x26bd1967, 0x80419bad, 0xc7c0a06e,
  0x415183f2, 0x3492dbf0, 0xfc6fa21e, 0x4c8f32ce, 0x7313e033, 0x6d69a7c6, 0x93e56d64, 0xfabf1a2f,
  0xb7bb1cbf, 0xb5587403, 0x4fe76e2c, 0x965d89b7, 0x2ae89c05, 0xa3446619, 0xfb342e71, 0x650ff229,
  0x7afe8182, 0xf1b11322, 0xeca30835, 0x7ecd510f, 0x14ff7aa6, 0xf85c7293, 0x122fc297, 0xc3f370e3,
  0x1c992f49, 0x68d14315, 0x1bc2a326, 0xb388cc32, 0x6f8acf7a, 0x9fb0e806, 0x1e7a47f5, 0xdad2bb79,
  0x21e69508, 0x5c4398e5, 0x6d0b831, 0xaf11e37b, 0x537e4165, 0x10ccaa2b, 0x9cd8b4e4, 0xd46456a7,
  0x59fb7c36, 0x84724b20, 0xf6ea9f4d, 0xdf6a5faa, 0xce2dc1df, 0x58704868, 0x81caaff3, 0x910605d8,
  0x695a774b, 0xa594de28, 0x4239df10, 0x47813bc3, 0xa6fc82ca, 0xc523c8d2, 0xb203f86c, 0x9a080cd5,
  0x40dab7ac, 0xe17db909, 0x2c382434, 0xa2cf5247, 0xd1dcb274, 0x2b63a85b, 0x9535d555, 0x11479e75,
  0xe215e5eb, 0xc64b9430, 0xa84a6f14, 0x8691239c, 0x394c6acc, 0x4a5f8aff, 0x4d040690, 0xbbee99dd,
  0xca1e1152, 0x18aaffc4, 0x98eb6469, 0xff07fefc, 0x18b345e, 0xbe567d0e, 0xd9bae79b, 0x324263c1,
  0x7b75b5dc, 0x17972644, 0x6667aecb, 0xcb95250c, 0x67ec9a95, 0xd057862a, 0x99605037, 0x5b8e4d3,
  0xba65ad83, 0x3519efae, 0x13a4f6c9, 0xa9c15b4a, 0xd6873e1b, 0x5ea0f059, 0x5b18148a, 0x3baf0270,
  0x76ab04e0, 0xbfdd4950, 0x63df4a18, 0x56c6a5b6, 0xa853d53, 0x37fa8712, 0xa777b694, 0x7f466551,
  0x9ed61b1, 0xe91bece6, 0x25d54585, 0x52f5753b, 0x3d7fba41, 0x8827ce42, 0x43b2eb4e, 0x97d6bde9,
  0xf3527b9e, 0x4562537f, 0xa02c3afb, 0x707bbcd1, 0x6bb91ff7, 0x1d121b17, 0xc8fd79ee, 0xf03a277c,
  0xd70c0a45, 0x7996dd60, 0xab2233f6, 0x89acfa1c, 0x5dc8acbb, 0x30a10b7d, 0x4bd4bea1, 0x94bee10b,
  0x5425cd0a, 0x62547e46, 0x82a2f311, 0x3e17e6a3, 0xe6263566, 0x75c35802, 0x9b83388b, 0xc27844bd,
  0xdc020348, 0x8b4f92a0, 0x7c2e39b3, 0xe54e6984, 0x71f0888f, 0x27362d39, 0x3f9cd2fd, 0x6e01fb24,
  0xdd893716, 0x0, 0xe0f68d57, 0x6ce29398, 0x15744ef8, 0x5a9320d4, 0xe7ad0138, 0xb4d3405d,
  0x871a17c2, 0x2db3106a, 0x2f5078d6, 0x3cf48e1f, 0xa1a70ea5, 0x3671b34c, 0xae9ad725, 0x245e71db,
  0x50161d87, 0xd5ef62f9, 0x908d3186, 0x161c121a, 0xcfa6f581, 0x75b8c6f, 0x4937d61d, 0x926e593a,
  0x6484c677, 0xb886c53f, 0xf9d746cd, 0xb0e090d0, 0x8329c74f, 0xfde49640, 0xb0e090d, 0x206da156,
  0x228ec9ea, 0x2edb4c88, 0x8ef77673, 0xbcb515b2, 0xc110185f, 0x6a322ba9, 0xb16ba48e, 0x55aef954,
  0xee406089, 0x86655ef, 0x44e96721, 0xbd3e21ec, 0x772030be, 0xadf28bc7, 0x2980c0e7, 0x8c141ecf,
  0x48bce243, 0x8ac4a6fe, 0xd831d3c5, 0x60b716fa, 0x9d5380ba, 0xf2d94fc0, 0x781de93e, 0x3a24362e,
  0xdee16bf4, 0xefcb54d7, 0xf409f7f1, 0xf582c3af, 0x280bf4b9, 0x519d29d9, 0x38c75e92, 0xebf8845a,
  0xe890d8b8, 0xddeb13c, 0x433d08d, 0x3685ce2, 0xe4c55dda, 0x9e3bdc58, 0x460a0f9d, 0xd33fdac8,
  0xdb598f27, 0xc4a8fc8c, 0xac79bf99, 0x4e6c5a72, 0xfe8ccaa2, 0xe39ed1b5, 0xa41fea76, 0xea73b004]
/-- `Td2` (cipher/square/tabs.go:547-612). -/
def Td2Tab : List W := [
  0xbc02e368, 0x620c5585, 0x23312a3f, 0x13f761ab, 0x6d7298d4, 0x9a1921cb, 0xa4613c22, 0x3dcd459d,
  0xb42305fd, 0x75f2bc4, 0x1c09b2c, 0x800f3dd9, 0x5c74486c, 0x7e85f97f, 0xab1ff173, 0xde0eb6ed,
  0x6bed283c, 0x781a4997, 0x918d9f2a, 0x9f33c957, 0xa8aaa907, 0xed7da50d, 0x2d8f7c42, 0xb0c9764d,
  0xe8574d91, 0x63cccea9, 0x96d2b4ee, 0xe1b63028, 0x61b90df1, 0x6726bd19, 0xad80419b, 0x6ec7c0a0,
  0xf2415183, 0xf03492db, 0x1efc6fa2, 0xce4c8f32, 0x337313e0, 0xc66d69a7, 0x6493e56d, 0x2ffabf1a,
  0xbfb7bb1c, 0x3b55874, 0x2c4fe76e, 0xb7965d89, 0x52ae89c, 0x19a34466, 0x71fb342e, 0x29650ff2,
  0x827afe81, 0x22f1b113, 0x35eca308, 0xf7ecd51, 0xa614ff7a, 0x93f85c72, 0x97122fc2, 0xe3c3f370,
  0x491c992f, 0x1568d143, 0x261bc2a3, 0x32b388cc, 0x7a6f8acf, 0x69fb0e8, 0xf51e7a47, 0x79dad2bb,
  0x821e695, 0xe55c4398, 0x3106d0b8, 0x7baf11e3, 0x65537e41, 0x2b10ccaa, 0xe49cd8b4, 0xa7d46456,
  0x3659fb7c, 0x2084724b, 0x4df6ea9f, 0xaadf6a5f, 0xdfce2dc1, 0x68587048, 0xf381caaf, 0xd8910605,
  0x4b695a77, 0x28a594de, 0x104239df, 0xc347813b, 0xcaa6fc82, 0xd2c523c8, 0x6cb203f8, 0xd59a080c,
  0xac40dab7, 0x9e17db9, 0x342c3824, 0x47a2cf52, 0x74d1dcb2, 0x5b2b63a8, 0x559535d5, 0x7511479e,
  0xebe215e5, 0x30c64b94, 0x14a84a6f, 0x9c869123, 0xcc394c6a, 0xff4a5f8a, 0x904d0406, 0xddbbee99,
  0x52ca1e11, 0xc418aaff, 0x6998eb64, 0xfcff07fe, 0x5e018b34, 0xebe567d, 0x9bd9bae7, 0xc1324263,
  0xdc7b75b5, 0x44179726, 0xcb6667ae, 0xccb9525, 0x9567ec9a, 0x2ad05786, 0x37996050, 0xd305b8e4,
  0x83ba65ad, 0xae3519ef, 0xc913a4f6, 0x4aa9c15b, 0x1bd6873e, 0x595ea0f0, 0x8a5b1814, 0x703baf02,
  0xe076ab04, 0x50bfdd49, 0x1863df4a, 0xb656c6a5, 0x530a853d, 0x1237fa87, 0x94a777b6, 0x517f4665,
  0xb109ed61, 0xe6e91bec, 0x8525d545, 0x3b52f575, 0x413d7fba, 0x428827ce, 0x4e43b2eb, 0xe997d6bd,
  0x9ef3527b, 0x7f456253, 0xfba02c3a, 0xd1707bbc, 0xf76bb91f, 0x171d121b, 0xeec8fd79, 0x7cf03a27,
  0x45d70c0a, 0x607996dd, 0xf6ab2233, 0x1c89acfa, 0xbb5dc8ac, 0x7d30a10b, 0xa14bd4be, 0xb94bee1,
  0xa5425cd, 0x4662547e, 0x1182a2f3, 0xa33e17e6, 0x66e62635, 0x275c358, 0x8b9b8338, 0xbdc27844,
  0x48dc0203, 0xa08b4f92, 0xb37c2e39, 0x84e54e69, 0x8f71f088, 0x3927362d, 0xfd3f9cd2, 0x246e01fb,
  0x16dd8937, 0x0, 0x57e0f68d, 0x986ce293, 0xf815744e, 0xd45a9320, 0x38e7ad01, 0x5db4d340,
  0xc2871a17, 0x6a2db310, 0xd62f5078, 0x1f3cf48e, 0xa5a1a70e, 0x4c3671b3, 0x25ae9ad7, 0xdb245e71,
  0x8750161d, 0xf9d5ef62, 0x86908d31, 0x1a161c12, 0x81cfa6f5, 0x6f075b8c, 0x1d4937d6, 0x3a926e59,
  0x776484c6, 0x3fb886c5, 0xcdf9d746, 0xd0b0e090, 0x4f8329c7, 0x40fde496, 0xd0b0e09, 0x56206da1,
  0xea228ec9, 0x882edb4c, 0x738ef776, 0xb2bcb515, 0x5fc11018, 0xa96a322b, 0x8eb16ba4, 0x5455aef9,
  0x89ee4060, 0xef086655, 0x2144e967, 0xecbd3e21, 0xbe772030, 0xc7adf28b, 0xe72980c0, 0xcf8c141e,
  0x4348bce2, 0xfe8ac4a6, 0xc5d831d3, 0xfa60b716, 0xba9d5380, 0xc0f2d94f, 0x3e781de9, 0x2e3a2436,
  0xf4dee16b, 0xd7efcb54, 0xf1f409f7, 0xaff582c3, 0xb9280bf4, 0xd9519d29, 0x9238c75e, 0x5aebf884,
  0xb8e890d8, 0x3c0ddeb1, 0x8d0433d0, 0xe203685c, 0xdae4c55d, 0x589e3bdc, 0x9d460a0f, 0xc8d33fda,
  0x27db598f, 0x8cc4a8fc, 0x99ac79bf, 0x724e6c5a, 0xa2fe8cca, 0xb5e39ed1, 0x76a41fea, 0x4ea73b0]
/-- `Td3` (cipher/square/tabs.go:614-679). -/
def Td3Tab : List W := [
  0x68bc02e3, 0x85620c55, 0x3f23312a, 0xab13f761, 0xd46d7298, 0xcb9a1921, 0x22a4613c, 0x9d3dcd45,
  0xfdb42305, 0xc4075f2b, 0x2c01c09b, 0xd9800f3d, 0x6c5c7448, 0x7f7e85f9, 0x73ab1ff1, 0xedde0eb6,
  0x3c6bed28, 0x97781a49, 0x2a918d9f, 0x579f33c9, 0x7a8aaa9, 0xded7da5, 0x422d8f7c, 0x4db0c976,
  0x91e8574d, 0xa963ccce, 0xee96d2b4, 0x28e1b630, 0xf161b90d, 0x196726bd, 0x9bad8041, 0xa06ec7c0,
  0x83f24151, 0xdbf03492, 0xa21efc6f, 0x32ce4c8f, 0xe0337313, 0xa7c66d69, 0x6d6493e5, 0x1a2ffabf,
  0x1cbfb7bb, 0x7403b558, 0x6e2c4fe7, 0x89b7965d, 0x9c052ae8, 0x6619a344, 0x2e71fb34, 0xf229650f,
  0x81827afe, 0x1322f1b1, 0x835eca3, 0x510f7ecd, 0x7aa614ff, 0x7293f85c, 0xc297122f, 0x70e3c3f3,
  0x2f491c99, 0x431568d1, 0xa3261bc2, 0xcc32b388, 0xcf7a6f8a, 0xe8069fb0, 0x47f51e7a, 0xbb79dad2,
  0x950821e6, 0x98e55c43, 0xb83106d0, 0xe37baf11, 0x4165537e, 0xaa2b10cc, 0xb4e49cd8, 0x56a7d464,
  0x7c3659fb, 0x4b208472, 0x9f4df6ea, 0x5faadf6a, 0xc1dfce2d, 0x48685870, 0xaff381ca, 0x5d89106,
  0x774b695a, 0xde28a594, 0xdf104239, 0x3bc34781, 0x82caa6fc, 0xc8d2c523, 0xf86cb203, 0xcd59a08,
  0xb7ac40da, 0xb909e17d, 0x24342c38, 0x5247a2cf, 0xb274d1dc, 0xa85b2b63, 0xd5559535, 0x9e751147,
  0xe5ebe215, 0x9430c64b, 0x6f14a84a, 0x239c8691, 0x6acc394c, 0x8aff4a5f, 0x6904d04, 0x99ddbbee,
  0x1152ca1e, 0xffc418aa, 0x646998eb, 0xfefcff07, 0x345e018b, 0x7d0ebe56, 0xe79bd9ba, 0x63c13242,
  0xb5dc7b75, 0x26441797, 0xaecb6667, 0x250ccb95, 0x9a9567ec, 0x862ad057, 0x50379960, 0xe4d305b8,
  0xad83ba65, 0xefae3519, 0xf6c913a4, 0x5b4aa9c1, 0x3e1bd687, 0xf0595ea0, 0x148a5b18, 0x2703baf,
  0x4e076ab, 0x4950bfdd, 0x4a1863df, 0xa5b656c6, 0x3d530a85, 0x871237fa, 0xb694a777, 0x65517f46,
  0x61b109ed, 0xece6e91b, 0x458525d5, 0x753b52f5, 0xba413d7f, 0xce428827, 0xeb4e43b2, 0xbde997d6,
  0x7b9ef352, 0x537f4562, 0x3afba02c, 0xbcd1707b, 0x1ff76bb9, 0x1b171d12, 0x79eec8fd, 0x277cf03a,
  0xa45d70c, 0xdd607996, 0x33f6ab22, 0xfa1c89ac, 0xacbb5dc8, 0xb7d30a1, 0xbea14bd4, 0xe10b94be,
  0xcd0a5425, 0x7e466254, 0xf31182a2, 0xe6a33e17, 0x3566e626, 0x580275c3, 0x388b9b83, 0x44bdc278,
  0x348dc02, 0x92a08b4f, 0x39b37c2e, 0x6984e54e, 0x888f71f0, 0x2d392736, 0xd2fd3f9c, 0xfb246e01,
  0x3716dd89, 0x0, 0x8d57e0f6, 0x93986ce2, 0x4ef81574, 0x20d45a93, 0x138e7ad, 0x405db4d3,
  0x17c2871a, 0x106a2db3, 0x78d62f50, 0x8e1f3cf4, 0xea5a1a7, 0xb34c3671, 0xd725ae9a, 0x71db245e,
  0x1d875016, 0x62f9d5ef, 0x3186908d, 0x121a161c, 0xf581cfa6, 0x8c6f075b, 0xd61d4937, 0x593a926e,
  0xc6776484, 0xc53fb886, 0x46cdf9d7, 0x90d0b0e0, 0xc74f8329, 0x9640fde4, 0x90d0b0e, 0xa156206d,
  0xc9ea228e, 0x4c882edb, 0x76738ef7, 0x15b2bcb5, 0x185fc110, 0x2ba96a32, 0xa48eb16b, 0xf95455ae,
  0x6089ee40, 0x55ef0866, 0x672144e9, 0x21ecbd3e, 0x30be7720, 0x8bc7adf2, 0xc0e72980, 0x1ecf8c14,
  0xe24348bc, 0xa6fe8ac4, 0xd3c5d831, 0x16fa60b7, 0x80ba9d53, 0x4fc0f2d9, 0xe93e781d, 0x362e3a24,
  0x6bf4dee1, 0x54d7efcb, 0xf7f1f409, 0xc3aff582, 0xf4b9280b, 0x29d9519d, 0x5e9238c7, 0x845aebf8,
  0xd8b8e890, 0xb13c0dde, 0xd08d0433, 0x5ce20368, 0x5ddae4c5, 0xdc589e3b, 0xf9d460a, 0xdac8d33f,
  0x8f27db59, 0xfc8cc4a8, 0xbf99ac79, 0x5a724e6c, 0xcaa2fe8c, 0xd1b5e39e, 0xea76a41f, 0xb004ea73]

def Se (x : Byte) : Byte := SeTab.getD x.toNat 0
def Sd (x : Byte) : Byte := SdTab.getD x.toNat 0
def phi (x : Byte) : W := phiTab.getD x.toNat 0
def tab (t : List W) (x : Byte) : W := t.getD x.toNat 0
/-- `offset[t]` (cipher/square/tabs.go:140-143). -/
def offset (t : Nat) : W := [0x01000000, 0x02000000, 0x04000000, 0x08000000, 0x10000000, 0x20000000, 0x40000000, 0x80000000].getD t 0

/-- `GETB0` to `GETB3` (cipher/square/utils.go:58-69). -/
def getb (k : Nat) (x : W) : Byte := (x >>> (24 - 8 * k)).setWidth 8
/-- `PUTB0` to `PUTB3` (cipher/square/utils.go:71-82), added up as in `squareFinal`. -/
def pk (a b c d : Byte) : W := a.setWidth 32 <<< 24 ^^^ b.setWidth 32 <<< 16 ^^^ c.setWidth 32 <<< 8 ^^^ d.setWidth 32
/-- `ROTR`, `PSI_ROTR` (cipher/square/utils.go:54-56, 88-90). -/
def rotr (x : W) (n : Nat) : W := rotl x (32 - n)

/-- One word of `squareTransform` (cipher/square/utils.go:93-96). -/
def theta (x : W) : W := phi (getb 0 x) ^^^ rotr (phi (getb 1 x)) 8 ^^^ rotr (phi (getb 2 x)) 16 ^^^ rotr (phi (getb 3 x)) 24
def map4 (f : W → W) (s : St) : St := (f s.1, f s.2.1, f s.2.2.1, f s.2.2.2)
/-- `squareTransform` (cipher/square/utils.go:92-109). -/
def transform (s : St) : St := map4 theta s

/-- The key evolution (cipher/square/utils.go:122-132): round key `t + 1` from round key `t`, before their diffusion. -/
def evolve (k : St) (t : Nat) : St :=
  let a := k.1 ^^^ rotl k.2.2.2 8 ^^^ offset t
  let b := k.2.1 ^^^ a
  let c := k.2.2.1 ^^^ b
  (a, b, c, k.2.2.2 ^^^ c)
/-- `roundKeys_e[t]` before `squareTransform` is applied to it. -/
def raw (k : St) : Nat → St
  | 0 => k
  | t + 1 => evolve (raw k t) t
/-- `roundKeys_e[t]` after `squareGenerateRoundKeys` (cipher/square/utils.go:111-139): the diffusion is applied in place to all but the last, after the next has been computed. -/
def ekey (k : St) (t : Nat) : St := if t < 8 then transform (raw k t) else raw k t
/-- `roundKeys_d[t]` (cipher/square/utils.go:123-132, 138). -/
def dkey (k : St) (t : Nat) : St := if t < 8 then raw k (8 - t) else transform (raw k 0)

def xor4 (s t : St) : St := (s.1 ^^^ t.1, s.2.1 ^^^ t.2.1, s.2.2.1 ^^^ t.2.2.1, s.2.2.2 ^^^ t.2.2.2)
/-- One word of `squareRound` (cipher/square/utils.go:159-163). -/
def col (T0 T1 T2 T3 : List W) (s : St) (i : Nat) : W := tab T0 (getb i s.1) ^^^ tab T1 (getb i s.2.1) ^^^ tab T2 (getb i s.2.2.1) ^^^ tab T3 (getb i s.2.2.2)
/-- `squareRound` (cipher/square/utils.go:158-179). -/
def round (T0 T1 T2 T3 : List W) (s k : St) : St := xor4 (col T0 T1 T2 T3 s 0, col T0 T1 T2 T3 s 1, col T0 T1 T2 T3 s 2, col T0 T1 T2 T3 s 3) k
/-- One word of `squareFinal` (cipher/square/utils.go:182-185). -/
def fin (S : Byte → Byte) (s : St) (i : Nat) : W := pk (S (getb i s.1)) (S (getb i s.2.1)) (S (getb i s.2.2.1)) (S (getb i s.2.2.2))
def sub (S : Byte → Byte) (s : St) : St := (fin S s 0, fin S s 1, fin S s 2, fin S s 3)
/-- `squareFinal` (cipher/square/utils.go:181-202). -/
def final (S : Byte → Byte) (s k : St) : St := xor4 (sub S s) k

/-- `squareEncrypt` (cipher/square/utils.go:204-224). -/
def encrypt (K : Nat → St) (s : St) : St :=
  final Se ([1, 2, 3, 4, 5, 6, 7].foldl (fun s t => round Te0Tab Te1Tab Te2Tab Te3Tab s (K t)) (xor4 s (K 0))) (K 8)
/-- `squareDecrypt` (cipher/square/utils.go:226-246). -/
def decrypt (K : Nat → St) (s : St) : St :=
  final Sd ([1, 2, 3, 4, 5, 6, 7].foldl (fun s t => round Td0Tab Td1Tab Td2Tab Td3Tab s (K t)) (xor4 s (K 0))) (K 8)

/-- `NewCipher`, `Encrypt`, `Decrypt`, `expandKey` (cipher/square/square.go:50-123). -/
def newCipher (key : Bytes) : Res Obj :=
  if key.length = 16 then
    let k := ld4BE 32 4 key
    .ok ⟨16, guarded 16 (whole 16 (enc4BE 32 4 (encrypt (ekey k)))), guarded 16 (whole 16 (enc4BE 32 4 (decrypt (dkey k))))⟩
  else .err

end Verif.Cipher.Square
